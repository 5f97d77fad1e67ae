import Verif.Props.Poly
import Verif.Props.AnyOps
/-
C68: references, pointers and views made before a move of an any.

`Reach`, `Legal`, `SRefs` are those of Spec/PolyHist.lean: `S r` says which object (dynamic type, address) the
reference variable `r` refers to, `anyTarget w a` where the any `a` keeps its value.
-/
namespace AnyAny.Poly
open AnyAny.TypeList
open AnyAny.Mem (Method Cfg CfgOk Ptr World Obj upd content addrOf snap allocOf AllocsDiffer isStablePointers WF exCfg exCfg_ok exMs)

variable {cfg : Cfg} {w : PW} {S : SRefs}

theorem anyTarget_some {u : World} {a T : Nat} {x : Addr} (h : anyTarget u a = some (T, x)) :
    ∃ o p, content u a = some o ∧ addrOf u a = some p ∧ T = o.ty ∧ x = .mem p := by
  unfold anyTarget at h
  cases hc : content u a with
  | none => simp [hc] at h
  | some o =>
    cases hp : addrOf u a with
    | none => simp [hc, hp] at h
    | some p =>
      simp only [hc, hp, Option.bind_some, Option.map_some, Option.some.injEq, Prod.mk.injEq] at h
      exact ⟨o, p, rfl, rfl, h.1.symm, h.2.symm⟩

/-- Two any objects with a value at the same address are the same. -/
theorem addr_inj {u : World} (W : WF cfg u) {a c : Nat} {p : Ptr} (ha : addrOf u a = some p) (hc : addrOf u c = some p) :
    a = c := by
  unfold addrOf at ha hc
  obtain ⟨s, hs, rfl⟩ := Option.map_eq_some_iff.1 ha
  obtain ⟨t, ht, e⟩ := Option.map_eq_some_iff.1 hc
  rcases (W.any a s hs).shape with h1 | ⟨b, _, h1, _⟩
  · rcases (W.any c t ht).shape with h2 | ⟨b, _, h2, _⟩
    · rw [h1, h2] at e; cases e; rfl
    · rw [h1, h2] at e; cases e
  · exact W.blkInj a s c t b hs ht h1 (e.trans h1)

/-- If only the object at an address may have changed, and the any `b` has that address, `b` has the value there. -/
theorem view_at {w w' : PW} (W : WF cfg w.mem) (W' : WF cfg w'.mem) {b T v : Nat} {st : Mem.AnySt} (hst : w.mem.anys b = some st)
    (h2 : holds w' T v (.mem st.vp)) (h3 : OnlyAt w w' (.mem st.vp)) : Mem.view w'.mem b = some (T, v) := by
  have hp : addrOf w.mem b = some st.vp := by simp [addrOf, hst]
  obtain ⟨c, o', q1, q2, q3, q4⟩ := h2
  have hb' : addrOf w'.mem b = some st.vp := by
    have e := h3.2.2.2 b
    obtain ⟨z, hz, hz1, hz2, _⟩ := Mem.snap_some (w := w.mem) (a := b) (by simp [Mem.alive, hst])
    rw [hz] at e
    cases hz' : snap w'.mem b with
    | none => rw [hz'] at e; cases e
    | some z' =>
      rw [hz'] at e
      simp only [Option.map_some, Option.some.injEq, Prod.mk.injEq] at e
      have l : z'.loc b = z.loc b := by unfold Mem.Snap.loc; rw [e.2.2.1]
      have l2 := snap_addr W hz hp
      obtain ⟨st', D⟩ := (Mem.Rep.of_wf W').det hz'
      have : addrOf w'.mem b = some st'.vp := by simp [addrOf, D.get]
      rw [this, ← snap_addr W' hz' this, l, l2]
  have := addr_inj W' q2 hb'
  subst this
  simp only [Mem.view, q1, Option.map_some, q3, q4]

/-- What a call of the method `m` through the reference `r` to the value of type `T` of the any `b` does: the implementation
for `T` is applied to the value of `b`, and a non-const method changes the value of `b`, also if it throws. -/
def CallsOn (cfg : Cfg) (w : PW) (r b T v m x : Nat) : Prop :=
  (∃ w', invokeRef cfg (.var r) m x w = .ok (cfg.impl m T v x).1 w' ∧
    Mem.view w'.mem b = some (T, match cfg.kind m with | .mutRef => (cfg.impl m T v x).2 | _ => v)) ∨
  (cfg.kind m = .byValue ∧ (cfg.ty T).nothrowCopy = false ∧ ∃ w', invokeRef cfg (.var r) m x w = .exn w' ∧
    Mem.view w'.mem b = some (T, v)) ∨
  (cfg.methodNothrow m T = false ∧ ∃ w', invokeRef cfg (.var r) m x w = .exn w' ∧
    Mem.view w'.mem b = some (T, match cfg.kind m with | .mutRef => cfg.partway m T v x | _ => v))

/-- Calling a method through a reference to the value of the any `b` is calling it on `b`. -/
theorem invoke_target (C : CfgOk cfg) (h : Reach cfg w S) {r b T v m x : Nat} {s : SRef} (hs : S r = some s)
    (ht : s.target = anyTarget w.mem b) (hv : Mem.view w.mem b = some (T, v)) (hm : .user m ∈ s.ms)
    (hk : s.kind.isPtr = false) (hc : s.kind.isConst = true → cfg.kind m ≠ .mutRef) : CallsOn cfg w r b T v m x := by
  have I := h.inv C
  obtain ⟨o, ho, e⟩ := Option.map_eq_some_iff.1 hv
  cases e
  have hal : (w.mem.anys b).isSome := by
    cases hb : w.mem.anys b with
    | none => simp [content, hb] at ho
    | some _ => rfl
  obtain ⟨st, hst⟩ := Option.isSome_iff_exists.1 hal
  have hp : addrOf w.mem b = some st.vp := by simp [addrOf, hst]
  have ht' : s.target = some (o.ty, .mem st.vp) := by rw [ht]; simp [anyTarget, ho, hp]
  have hh : holds w o.ty o.val (.mem st.vp) := ⟨b, o, ho, hp, rfl, rfl⟩
  have L : Legal cfg w S (.invoke r m x) := ⟨s, _, _, hs, ht', hm, hk, hc, b, o, ho, hp, rfl⟩
  rcases C62_invoke_reference C h hs ht' hm hh (m := m) (x := x) with ⟨w', h1, h2, h3⟩ | ⟨h1, h2, w', h3, h4, _⟩ |
    ⟨h0, w', h1, h2, h3, _⟩
  · have h' := h.ok L (show exec cfg (.invoke r m x) w = .ok () w' by simp [exec, h1])
    exact Or.inl ⟨w', h1, view_at I.wf (h'.inv C).wf hst h2 h3⟩
  · refine Or.inr (Or.inl ⟨h1, h2, w', h3, ?_⟩)
    have e := congrFun h4 b
    obtain ⟨z, hz, _⟩ := Mem.snap_some (w := w.mem) (a := b) (by simp [Mem.alive, hst])
    rw [hz] at e
    rw [(Mem.of_snap e).2.2.2.2.2, ← (Mem.of_snap hz).2.2.2.2.2, hv]
  · have h' := h.exn L (show exec cfg (.invoke r m x) w = .exn w' by simp [exec, h1])
    exact Or.inr (Or.inr ⟨h0, w', h1, view_at I.wf (h'.inv C).wf hst h2 h3⟩)

/-- What a reference to the value of an any gives after the value has been moved to the any `b`: the program
is in a reachable state in which the reference still refers to the value, now that of `b`; calls through the
reference see and change the value of `b`. -/
def FollowsTo (cfg : Cfg) (w : PW) (S : SRefs) (r : Nat) (s : SRef) (b T v : Nat) : Prop :=
  Reach cfg w S ∧ s.target = anyTarget w.mem b ∧ Mem.view w.mem b = some (T, v) ∧
  (∀ m ∈ s.ms, Returns w (dispatch (.var r) m) (T, (anyTarget w.mem b).map (·.2))) ∧
  ∀ m x, .user m ∈ s.ms → s.kind.isPtr = false → (s.kind.isConst = true → cfg.kind m ≠ .mutRef) →
    CallsOn cfg w r b T v m x

theorem follows (C : CfgOk cfg) (h : Reach cfg w S) {r b T v : Nat} {s : SRef} (hs : S r = some s)
    (ht : s.target = anyTarget w.mem b) (hv : Mem.view w.mem b = some (T, v)) : FollowsTo cfg w S r s b T v := by
  refine ⟨h, ht, hv, fun m hm => ?_, fun m x hm hk hc => invoke_target C h hs ht hv hm hk hc⟩
  obtain ⟨o, ho, e⟩ := Option.map_eq_some_iff.1 hv
  cases e
  cases hb : w.mem.anys b with
  | none => simp [content, hb] at ho
  | some st =>
    have ha : anyTarget w.mem b = some (o.ty, .mem st.vp) := by simp [anyTarget, ho, addrOf, hb]
    have := C31_dispatch C h hs (ht.trans ha) hm
    rw [ha]; exact this

/-- C68: a reference (or pointer, or view) `r` to the value of an any `a` with `is_stable_pointers()` refers
to the value of `b` after `any b(std::move(a))`. -/
theorem C68_move_construction (C : CfgOk cfg) (h : Reach cfg w S) {r a b T v : Nat} {s : SRef} (hs : S r = some s)
    (ht : s.target = anyTarget w.mem a) (hv : Mem.view w.mem a = some (T, v))
    (L : Mem.Legal cfg w.mem (.moveCtor b a)) (hst : isStablePointers a w.mem = .ok true w.mem) :
    ∃ w', exec cfg (.mem (.moveCtor b a)) w = .ok () w' ∧ FollowsTo cfg w' S r s b T v := by
  obtain ⟨o, ho, _⟩ := Option.map_eq_some_iff.1 hv
  obtain ⟨u, e, e1, e2, _⟩ := Mem.stable_moveCtor_wf C (h.inv C).wf L hst (by rw [ho]; rfl)
  have he : exec cfg (.mem (.moveCtor b a)) w = .ok () { w with mem := u } := by simp [exec, liftMem, e]
  refine ⟨_, he, follows C (h.ok (op := .mem (.moveCtor b a)) L he) hs ?_ ?_⟩
  · rw [ht]; simp [anyTarget, e1, e2]
  · rw [← hv]; simp [Mem.view, e1]

/-- C68: the same for `b = std::move(a)`, unless the allocators really differ (see `C14_fails`). -/
theorem C68_move_assignment (C : CfgOk cfg) (h : Reach cfg w S) {r a b T v x y : Nat} {s : SRef} (hs : S r = some s)
    (ht : s.target = anyTarget w.mem a) (hv : Mem.view w.mem a = some (T, v)) (hne : b ≠ a)
    (L : Mem.Legal cfg w.mem (.moveAssign b a)) (hx : allocOf w.mem b = some x) (hy : allocOf w.mem a = some y)
    (hd : ¬ AllocsDiffer cfg x y) (hst : isStablePointers a w.mem = .ok true w.mem) :
    ∃ w', exec cfg (.mem (.moveAssign b a)) w = .ok () w' ∧ FollowsTo cfg w' S r s b T v := by
  obtain ⟨o, ho, _⟩ := Option.map_eq_some_iff.1 hv
  obtain ⟨u, e, e1, e2, _⟩ := Mem.stable_moveAssign_wf C (h.inv C).wf hne L hx hy hd hst (by rw [ho]; rfl)
  have he : exec cfg (.mem (.moveAssign b a)) w = .ok () { w with mem := u } := by simp [exec, liftMem, e]
  refine ⟨_, he, follows C (h.ok (op := .mem (.moveAssign b a)) L he) hs ?_ ?_⟩
  · rw [ht]; simp [anyTarget, e1, e2]
  · rw [← hv]; simp [Mem.view, e1]

/-- C68, the other direction: without `is_stable_pointers()` the reference dangles after the move: no object
is left at the address. -/
theorem C68_unstable (C : CfgOk cfg) (h : Reach cfg w S) {r a b T v : Nat} {s : SRef} {p : Addr} {w' : PW} (hs : S r = some s)
    (ht : s.target = anyTarget w.mem a) (hv : Mem.view w.mem a = some (T, v)) (hp : s.target = some (T, p))
    (L : Mem.Legal cfg w.mem (.moveCtor b a)) (hst : isStablePointers a w.mem = .ok false w.mem)
    (he : exec cfg (.mem (.moveCtor b a)) w = .ok () w') : Reach cfg w' S ∧ ¬ liveAt w' T p := by
  have h' := h.ok (op := .mem (.moveCtor b a)) L he
  refine ⟨h', ?_⟩
  obtain ⟨o, q, ho, hq, _, rfl⟩ := anyTarget_some (ht.symm.trans hp)
  have I := h.inv C
  have R : Mem.Rep cfg w.mem (Mem.absOf w.mem) := Mem.Rep.of_wf I.wf
  have W' := (h'.inv C).wf
  obtain ⟨h1, t, h3, h4⟩ := L
  have hne : b ≠ a := by rintro rfl; rw [h1] at h3; cases h3
  rw [Mem.isStable_spec R h3] at hst
  have hmem : t.mem = none := by
    cases hm : t.mem with
    | none => rfl
    | some _ => rw [hm] at hst; simp at hst
  have hqa : q = .data a := by
    have := snap_addr I.wf h3 hq
    rw [← this]; simp [Mem.Snap.loc, hmem]
  subst hqa
  obtain ⟨u, e, R'⟩ := Mem.moveCtor_spec R h1 h3 h4
  have : w' = { w with mem := u } := by simpa [exec, liftMem, Mem.exec, e] using he.symm
  subst this
  obtain ⟨s', t', g1, g2, m1, m2, l1, l2, g3, g4, g5⟩ :=
    Mem.moved_facts (σ := Mem.absOf w.mem) (a := b) (s := ⟨t.ms, t.al, none, none⟩) hne h3 rfl rfl
  rintro ⟨c, oc, k1, k2, _⟩
  rw [← R'.snaps] at g2
  have hn : content u a = none := by rw [(Mem.of_snap g2).2.1, g4]
  unfold addrOf at k2
  obtain ⟨st, hs1, e1⟩ := Option.map_eq_some_iff.1 k2
  rcases (W'.any c st hs1).shape with h5 | ⟨x, _, h5, _⟩
  · rw [h5] at e1; cases e1; exact nomatch hn.symm.trans k1
  · rw [h5] at e1; cases e1

/-- A program with a stateful reference `2` to a heap value of any `0`, and any `1` of the same class without
value. -/
def exStable : List Op := exProg ++ [.mem (.allocCtor 1 exMs 1)]

example : ∃ w S, Reach exCfg w S ∧
    ((S 2).any (fun s => decide (s.target = anyTarget w.mem 0 ∧ s.kind.isPtr = false ∧ .user 1 ∈ s.ms)) &&
      decide (Mem.view w.mem 0 = some (2, 74) ∧ Mem.Legal exCfg w.mem (.moveCtor 2 0) ∧
        Mem.Legal exCfg w.mem (.moveAssign 1 0) ∧ allocOf w.mem 1 = some 1 ∧ allocOf w.mem 0 = some 1 ∧
        (Mem.memOf w.mem 0).isSome)) = true :=
  run_witness 6 (ops := exStable) (by decide +kernel)

/-- The whole story: the value is moved twice, the reference used, and the change seen. -/
example : ∃ w S, Reach exCfg w S ∧
    decide (Mem.view w.mem 0 = none ∧ Mem.view w.mem 2 = none ∧ Mem.view w.mem 1 = some (2, 745)) = true :=
  run_witness 6 (ops := exStable ++ [.mem (.moveCtor 2 0), .mem (.moveAssign 1 2), .invoke 2 1 5]) (by decide +kernel)

/-- A value in the buffer: not stable. -/
example : ∃ w S, Reach exCfg w S ∧
    ((S 0).any (fun s => decide (s.target = anyTarget w.mem 0 ∧ s.target = some (1, .mem (.data 0)))) &&
      decide (Mem.view w.mem 0 = some (1, 7) ∧ Mem.Legal exCfg w.mem (.moveCtor 2 0) ∧ Mem.memOf w.mem 0 = none)) = true :=
  run_witness 6 (ops := [.mem (.valueCtor 0 exMs 1 1 (.lit 7) false), .ofAny 0 .polyPtr [.typeInfo, .user 0] (some 0)])
    (by decide +kernel)

end AnyAny.Poly
