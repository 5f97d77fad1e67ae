import Verif.Lemmas.Fate2
import Verif.Lemmas.AnyMemMono
/-
C118: which operations keep pointers and references to contained values valid. `fate` (Spec/Fate.lean) says for every
operation which objects it destroys and which any has each of the others afterwards.
-/
namespace AnyAny.Mem
open AnyAny.TypeList
variable {cfg : Cfg} {w w' : World} {op : Op}

theorem snap_of_content {a : Nat} {o : Obj} (h : content w a = some o) : ∃ s, snap w a = some s ∧ s.obj = some o := by
  have : alive w a := by
    unfold alive
    cases hh : w.anys a with
    | none => simp [content, hh] at h
    | some _ => rfl
  obtain ⟨s, h1, h2, _⟩ := snap_some this
  exact ⟨s, h1, by rw [← h2]; exact h⟩

theorem addr_of_snap (W : WF cfg w) {a : Nat} {s : Snap} (h : snap w a = some s) : addrOf w a = some (s.loc a) := by
  obtain ⟨st, D⟩ := (Rep.of_wf W).det h
  simp [addrOf, D.get, D.loc]

theorem Heir.contains {σ' : Abs} {f : Nat → Option Nat} (W : WF cfg w) (R' : Rep cfg w' σ')
    (H : Heir ⟨snap w, w.nextBlk, w.nextObj, w.copies⟩ σ' f) {a b : Nat} {o : Obj} {p : Ptr}
    (hc : content w a = some o) (hp : addrOf w a = some p) (hf : f a = some b) : Contains w' b o p := by
  obtain ⟨s, h1, h2⟩ := snap_of_content hc
  obtain ⟨s', ob', k1, k2, k3, k4, k5⟩ := H.keep a b s o h1 h2 hf
  rw [← R'.snaps] at k1
  refine ⟨ob', by rw [(of_snap k1).2.1]; exact k2, k3, k4, ?_⟩
  rw [addr_of_snap R'.wf k1, k5, ← addr_of_snap W h1, hp]

theorem Heir.home {σ' : Abs} {f : Nat → Option Nat} (W : WF cfg w) (R' : Rep cfg w' σ')
    (H : Heir ⟨snap w, w.nextBlk, w.nextObj, w.copies⟩ σ' f) {a c : Nat} {o o' : Obj}
    (hc : content w a = some o) (hc' : content w' c = some o') (hi : o'.id = o.id) : f a = some c := by
  obtain ⟨s', h1, h2⟩ := snap_of_content hc'
  rw [R'.snaps] at h1
  obtain ⟨s0, v0, _, _, _, _, _, hlt, _⟩ := content_full W hc
  obtain ⟨x, s, ob, k1, k2, k3, k4⟩ := H.only c s' o' h1 h2 (by rw [hi]; exact hlt)
  have hx : content w x = some ob := by rw [(of_snap k2).2.1]; exact k3
  have := W.objInj x a ob o hx hc (by rw [k4, hi])
  rw [← this]; exact k1

/-- C118: if `fate` names an any, that any contains the object of `a` after the operation, at the same address: pointers
and references to it are still valid. -/
theorem C118_kept (C : CfgOk cfg) (h : Reachable cfg w) (L : Legal cfg w op) (he : exec cfg op w = .ok () w') {a b : Nat} {o : Obj}
    {p : Ptr} (hc : content w a = some o) (hp : addrOf w a = some p) (hf : fate cfg w a op = some b) : Contains w' b o p := by
  obtain ⟨σ', R', H⟩ := heir_step C (h.wf C) L he
  exact H.contains (h.wf C) R' hc hp hf

/-- C118: otherwise the object is destroyed: no any contains it any more, and its destructor has run. -/
theorem C118_destroyed (C : CfgOk cfg) (h : Reachable cfg w) (L : Legal cfg w op) (he : exec cfg op w = .ok () w') {a : Nat} {o : Obj}
    (hc : content w a = some o) (hf : fate cfg w a op = none) :
    Gone w' o ∧ ((cfg.ty o.ty).trivDestr = false → w'.dtors o.id = 1) := by
  obtain ⟨σ', R', H⟩ := heir_step C (h.wf C) L he
  have g : Gone w' o := fun c o' hc' hi => by
    have := H.home (h.wf C) R' hc hc' hi
    rw [hf] at this; cases this
  refine ⟨g, fun ht => ?_⟩
  obtain ⟨s0, v0, _, _, _, _, _, hlt, hb, _⟩ := content_full (h.wf C) hc
  have M := (mono_exec (cfg := cfg) op w).1 _ _ he
  rcases R'.wf.destroyed o.id (Nat.lt_of_lt_of_le hlt M.obj) (by rw [M.born _ hlt, hb]; exact ht) with k | ⟨_, c, o', k1, k2⟩
  · exact k
  · exact absurd k2 (g c o' k1)

/-- C118, exactly: the object is in the any `c` afterwards just if `fate` says so, and then it has not moved. -/
theorem C118_exact (C : CfgOk cfg) (h : Reachable cfg w) (L : Legal cfg w op) (he : exec cfg op w = .ok () w') {a c : Nat} {o : Obj}
    {p q : Ptr} (hc : content w a = some o) (hp : addrOf w a = some p) :
    Contains w' c o q ↔ fate cfg w a op = some c ∧ q = p := by
  constructor
  · rintro ⟨o', h1, h2, h3, h4⟩
    obtain ⟨σ', R', H⟩ := heir_step C (h.wf C) L he
    have hf := H.home (h.wf C) R' hc h1 h2
    obtain ⟨o2, k1, k2, k3, k4⟩ := H.contains (h.wf C) R' hc hp hf
    rw [h4] at k4
    exact ⟨hf, by cases k4; rfl⟩
  · rintro ⟨h1, rfl⟩
    exact C118_kept C h L he hc hp h1

/-- C118: an object kept can be read through a pointer to it made before the operation. -/
theorem C118_pointer (C : CfgOk cfg) (h : Reachable cfg w) (L : Legal cfg w op) (he : exec cfg op w = .ok () w') {a b : Nat} {o : Obj}
    {p : Ptr} (hc : content w a = some o) (hp : addrOf w a = some p) (hf : fate cfg w a op = some b) :
    ∃ o', readObj p o.ty w' = .ok o' w' ∧ o'.id = o.id ∧ content w' b = some o' := by
  obtain ⟨o', h1, h2, h3, h4⟩ := C118_kept C h L he hc hp hf
  obtain ⟨s', k1, k2⟩ := snap_of_content h1
  have W' := (Reachable.ok h L he).wf C
  have := readObj_spec (Rep.of_wf W') k1 k2
  rw [addr_of_snap W' k1] at h4
  cases h4
  rw [h3] at this
  exact ⟨o', this, h2, h1⟩

/-- C118: an operation that throws never takes an object to another any: what is left of the old objects is where it
was. Only the objects of `mayLose` can be destroyed (a method that throws leaves its object alive). -/
theorem C118_exception (C : CfgOk cfg) (h : Reachable cfg w) (L : Legal cfg w op) (he : exec cfg op w = .exn w') {a : Nat} {o : Obj}
    {p : Ptr} (hc : content w a = some o) (hp : addrOf w a = some p) :
    (∀ c q, Contains w' c o q → c = a ∧ q = p) ∧
    ((mayLose cfg w op a → ∃ m x, op = .invoke a m x) → Contains w' a o p) ∧
    (Contains w' a o p ∨ (Gone w' o ∧ ((cfg.ty o.ty).trivDestr = false → w'.dtors o.id = 1))) := by
  obtain ⟨σ', f, R', H, S, hk⟩ := heir_exn C (h.wf C) L he
  refine ⟨?_, fun hl => H.contains (h.wf C) R' hc hp (hk a hl), ?_⟩
  · rintro c q ⟨o', h1, h2, h3, h4⟩
    have hf := H.home (h.wf C) R' hc h1 h2
    have : c = a := by
      rcases S a with e | e
      · rw [e] at hf; cases hf; rfl
      · rw [e] at hf; cases hf
    subst this
    obtain ⟨o2, k1, k2, k3, k4⟩ := H.contains (h.wf C) R' hc hp hf
    rw [h4] at k4
    exact ⟨rfl, by cases k4; rfl⟩
  · rcases S a with e | e
    · exact Or.inl (H.contains (h.wf C) R' hc hp e)
    · have g : Gone w' o := fun c o' hc' hi => by
        have := H.home (h.wf C) R' hc hc' hi
        rw [e] at this; cases this
      refine Or.inr ⟨g, fun ht => ?_⟩
      obtain ⟨s0, v0, _, _, _, _, _, hlt, hb, _⟩ := content_full (h.wf C) hc
      have M := (mono_exec (cfg := cfg) op w).2 _ he
      rcases R'.wf.destroyed o.id (Nat.lt_of_lt_of_le hlt M.obj) (by rw [M.born _ hlt, hb]; exact ht) with k | ⟨_, c, o', k1, k2⟩
      · exact k
      · exact absurd k2 (g c o' k1)

/-! ### Examples -/

/-- An any `0` with a small value, `1` with a value in memory, `2` empty; all with the allocator 7. -/
def fateHist : List Op :=
  [.valueCtor 0 exMs 7 1 (.lit 5) false, .valueCtor 1 exMs 7 2 (.lit 6) false, .allocCtor 2 exMs 7]

/-- Identities of the contained objects. -/
def ids (w : World) (as : List Nat) : List (Option Nat) := as.map fun a => (content w a).map (·.id)

-- swap takes the object in memory along and replaces the small one
example : ∃ w, Reachable exCfg w ∧ (Legal exCfg w (.swap 0 1 9) ∧ ids w [0, 1, 2] = [some 0, some 1, none] ∧
    fate exCfg w 0 (.swap 0 1 9) = none ∧ fate exCfg w 1 (.swap 0 1 9) = some 0 ∧
    (exec exCfg (.swap 0 1 9) w).isOk = true ∧
    (exec exCfg (.swap 0 1 9) w).world?.map (ids · [0, 1, 2]) = some [some 1, some 3, none]) :=
  run_witness (ops := fateHist) (by decide +kernel)

-- copy assignment destroys the object of the target, also if that is the source
example : ∃ w, Reachable exCfg w ∧ (Legal exCfg w (.copyAssign 1 1 9) ∧ ids w [0, 1, 2] = [some 0, some 1, none] ∧
    fate exCfg w 1 (.copyAssign 1 1 9) = none ∧
    (exec exCfg (.copyAssign 1 1 9) w).world?.map (ids · [0, 1, 2]) = some [some 0, some 2, none]) :=
  run_witness (ops := fateHist) (by decide +kernel)

-- self move assignment keeps it
example : ∃ w, Reachable exCfg w ∧ (Legal exCfg w (.moveAssign 1 1) ∧ fate exCfg w 1 (.moveAssign 1 1) = some 1 ∧
    (exec exCfg (.moveAssign 1 1) w).world?.map (ids · [0, 1, 2]) = some [some 0, some 1, none]) :=
  run_witness (ops := fateHist) (by decide +kernel)

-- `emplace` that throws destroys the object of the target only
example : ∃ w, Reachable (exCfgF 3) w ∧ (Legal (exCfgF 3) w (.emplace 1 1 (.lit 8) false) ∧ ids w [0, 1, 2] = [some 0, some 1, none] ∧
    (exec (exCfgF 3) (.emplace 1 1 (.lit 8) false) w).isExn = true ∧
    (exec (exCfgF 3) (.emplace 1 1 (.lit 8) false) w).world?.map (ids · [0, 1, 2]) = some [some 0, none, none]) :=
  run_witness (ops := fateHist) (by decide +kernel)

end AnyAny.Mem
