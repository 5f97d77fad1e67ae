import Verif.Lemmas.Throws
import Verif.Props.AnySafety
/-
C75: exceptions are neither invented nor swallowed. The calls of user code (constructors, by-value parameters, methods) and of the allocator
that may throw are numbered in the order in which they happen (`World.tick` is the number of the next one); `cfg.faults n` says that
call `n` throws.
-/
namespace AnyAny.Mem

variable {cfg : Cfg}

/-- The cast does not name the type of the contained value (or there is none). -/
def BadCast (w : World) : Op → Prop
  | .castCopy a t | .castMove a t => ∀ x, view w a ≠ some (t, x)
  | _ => False

private theorem ex_exec (C : CfgOk cfg) {w : World} (h : Reachable cfg w) {op : Op} (L : Legal cfg w op) :
    (BadCast w op ∧ exec cfg op w = .exn w) ∨ (¬ BadCast w op ∧ ExRes cfg w.tick (exec cfg op w)) := by
  have key : ∀ a t s, snap w a = some s → HasDesc s.ms →
      ((∀ x, view w a ≠ some (t, x)) ∧ anyCastPtr a t w = .ok none w) ∨
      ((¬ ∀ x, view w a ≠ some (t, x)) ∧ ∃ p, anyCastPtr a t w = .ok (some p) w) := by
    intro a t s hs hti
    have hv : view w a = s.obj.map fun o => (o.ty, o.val) := by
      unfold snap at hs
      cases hw : w.anys a with
      | none => rw [hw] at hs; cases hs
      | some st => rw [hw] at hs; cases hs; rfl
    have := anyCastPtr_spec (t := t) (h.rep C) hs (fun _ => hti)
    by_cases hc : s.obj.map (·.ty) = some t
    · rw [if_pos hc] at this
      obtain ⟨o, ho, rfl⟩ := Option.map_eq_some_iff.1 hc
      exact .inr ⟨fun hh => hh o.val (by rw [hv, ho]; rfl), _, this⟩
    · rw [if_neg hc] at this
      refine .inl ⟨fun x hx => hc ?_, this⟩
      rw [hv] at hx
      obtain ⟨o, ho, hx⟩ := Option.map_eq_some_iff.1 hx
      rw [ho]; exact congrArg some (Prod.mk.inj hx).1
  cases op with
  | castCopy a t =>
    obtain ⟨s, hs, hti⟩ := L
    rcases key a t s hs hti with ⟨hb, hp⟩ | ⟨hb, p, hp⟩
    · exact .inl ⟨hb, by simp [exec, anyCastCopy, bind_apply, hp]; rfl⟩
    · refine .inr ⟨hb, ?_⟩
      have hk : Ex cfg (do let o ← readObj p t; mayThrow cfg (cfg.ty t).nothrowCopy; (pure o.val : M Nat)) := by throws
      have he : exec cfg (.castCopy a t) w =
          ((do let o ← readObj p t; mayThrow cfg (cfg.ty t).nothrowCopy; (pure o.val : M Nat)) >>= fun _ => pure ()) w := by
        show M.bind (M.bind (anyCastPtr a t) _) _ w = M.bind _ _ w
        simp only [M.bind, hp]
      rw [he]
      exact hk.bind (fun _ => (Qt.pure _).ex) w
  | castMove a t =>
    obtain ⟨s, hs, hti⟩ := L
    rcases key a t s hs hti with ⟨hb, hp⟩ | ⟨hb, p, hp⟩
    · exact .inl ⟨hb, by simp [exec, anyCastMove, bind_apply, hp]; rfl⟩
    · refine .inr ⟨hb, ?_⟩
      have hk : Ex cfg (do
          let o ← readObj p t
          mayThrow cfg (cfg.ty t).nothrowMove
          writeObj p t (cfg.movedFrom t o.val)
          (pure o.val : M Nat)) := by
        throws
        exact Qt.writeObj.ex
      have he : exec cfg (.castMove a t) w = ((do
          let o ← readObj p t
          mayThrow cfg (cfg.ty t).nothrowMove
          writeObj p t (cfg.movedFrom t o.val)
          (pure o.val : M Nat)) >>= fun _ => pure ()) w := by
        show M.bind (M.bind (anyCastPtr a t) _) _ w = M.bind _ _ w
        simp only [M.bind, hp]
      rw [he]
      exact hk.bind (fun _ => (Qt.pure _).ex) w
  | _ => exact .inr ⟨id, Ex.exec (by simp [Op.notCast]) w⟩

/-- C75: if an operation returns, none of the calls it made threw: exceptions are not swallowed. -/
theorem C75_not_swallowed (C : CfgOk cfg) {w w' : World} (h : Reachable cfg w) {op : Op} (L : Legal cfg w op)
    (he : exec cfg op w = .ok () w') : w.tick ≤ w'.tick ∧ ∀ k, w.tick ≤ k → k < w'.tick → cfg.faults k = false := by
  rcases ex_exec C h L with ⟨_, e⟩ | ⟨_, e⟩
  · rw [he] at e; cases e
  · rw [he] at e; exact e

/-- C75: if an operation throws, then it is a cast to a type other than that of the value, which changed nothing at all, or the last call
that was made threw and none before it: the exception is propagated at once, nothing that may throw is called afterwards. -/
theorem C75_not_invented (C : CfgOk cfg) {w w' : World} (h : Reachable cfg w) {op : Op} (L : Legal cfg w op)
    (he : exec cfg op w = .exn w') :
    (BadCast w op ∧ w' = w) ∨
    (¬ BadCast w op ∧ ∃ n, w'.tick = n + 1 ∧ w.tick ≤ n ∧ cfg.faults n = true ∧ ∀ k, w.tick ≤ k → k < n → cfg.faults k = false) := by
  rcases ex_exec C h L with ⟨b, e⟩ | ⟨b, e⟩
  · rw [he] at e; cases e; exact .inl ⟨b, rfl⟩
  · rw [he] at e; exact .inr ⟨b, e⟩

/-- C75: the program is only terminated because of a call that threw. -/
theorem C75_terminates (C : CfgOk cfg) {w : World} (h : Reachable cfg w) {op : Op} (L : Legal cfg w op)
    (he : exec cfg op w = .term) : ∃ n, w.tick ≤ n ∧ cfg.faults n = true := by
  rcases ex_exec C h L with ⟨_, e⟩ | ⟨_, e⟩
  · rw [he] at e; cases e
  · rw [he] at e; obtain ⟨n, a, b, _⟩ := e; exact ⟨n, a, b⟩

/-- C75: a cast to a wrong type always throws; without failing calls every other operation returns. -/
theorem C75_returns (C : CfgOk cfg) {w : World} (h : Reachable cfg w) {op : Op} (L : Legal cfg w op) :
    (BadCast w op → exec cfg op w = .exn w) ∧
    (¬ BadCast w op → (∀ n, w.tick ≤ n → cfg.faults n = false) → ∃ w', exec cfg op w = .ok () w') := by
  refine ⟨fun hb => ?_, fun hb hf => ?_⟩
  · rcases ex_exec C h L with ⟨_, e⟩ | ⟨b, _⟩
    · exact e
    · exact absurd hb b
  · rcases ex_exec C h L with ⟨b, _⟩ | ⟨_, e⟩
    · exact absurd b hb
    · have hu := C01_no_undefined_behaviour C h L
      cases hr : exec cfg op w with
      | ok a w' => exact ⟨w', rfl⟩
      | exn w' => rw [hr] at e; obtain ⟨n, _, b, c, _⟩ := e; rw [hf n b] at c; cases c
      | ub => exact absurd hr hu
      | term => rw [hr] at e; obtain ⟨n, b, c, _⟩ := e; rw [hf n b] at c; cases c

/-- In the example copy assignment makes two calls that may throw (the allocation and the copy constructor): number 4 and 5. If 5
throws, so does the assignment; if none does, it returns. A cast of the `2` to `1` throws without calling anything. -/
example : ∃ w, Reachable (exCfgF 5) w ∧ (Legal (exCfgF 5) w (.copyAssign 1 0 9) ∧ w.tick = 4 ∧
    (exec (exCfgF 5) (.copyAssign 1 0 9) w).isExn = true ∧
    (exec (exCfgF 5) (.copyAssign 1 0 9) w).world?.any (fun w' => w'.tick == 6) = true) :=
  run_witness (ops := exHist2.take 2) (by decide +kernel)

example : ∃ w, Reachable exCfg w ∧ (Legal exCfg w (.copyAssign 1 0 9) ∧ (exec exCfg (.copyAssign 1 0 9) w).isOk = true ∧
    (exec exCfg (.copyAssign 1 0 9) w).world?.any (fun w' => w'.tick == 6) = true ∧
    Legal exCfg w (.castCopy 1 1) ∧ (exec exCfg (.castCopy 1 1) w).isExn = true ∧
    (exec exCfg (.castCopy 1 1) w).world?.any (fun w' => w'.tick == 4) = true) :=
  run_witness (ops := exHist2.take 2) (by decide +kernel)

/-- Termination: the constructor with `force_stable_pointers` of a small type from arguments that do not throw, when the allocation
(call 0) throws. -/
example : ∃ w, Reachable (exCfgF 0) w ∧ (Legal (exCfgF 0) w (.forceCtor 0 exMs 0 (.lit 1) true) ∧
    (exec (exCfgF 0) (.forceCtor 0 exMs 0 (.lit 1) true) w).isTerm = true) :=
  run_witness (ops := []) (by decide +kernel)

end AnyAny.Mem
