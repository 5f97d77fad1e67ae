import Verif.Model.Cpp17
import Verif.Props.Descriptor
import Verif.Props.Compare
import Verif.Props.Poly
/-
C104: comparisons mean the same in C++17 and in C++20.
-/
namespace AnyAny.Descriptor

theorem strcmp17_eq (l r : List Int) : strcmp17 l r = (strcmp l r).map (· == .eq) := by
  induction l generalizing r with
  | nil => rfl
  | cons a l ih =>
    cases r with
    | nil => rfl
    | cons b r =>
      unfold strcmp17 strcmp
      split
      · exact ih r
      · simp only [Option.map_some, Option.some.injEq]
        by_cases h : a = b
        · subst h; simp
        · have h1 : compare a b ≠ .eq := by rw [Ne, Std.LawfulEqOrd.compare_eq_iff_eq]; exact h
          rw [beq_eq_false_iff_ne.2 h, beq_eq_false_iff_ne.2 h1]

/-- C104: in C++17 comparing descriptors reads no memory beyond the names; `==` returns whether the names are equal, as in C++20, and `!=`
the opposite. -/
theorem C104_descriptors {m : Mem} {p q : Nat} {x y : List Int} (hp : Str m p x) (hq : Str m q y) :
    descEq17 m p q = some (decide (x = y)) ∧ descEq17 m p q = descEq m p q ∧ descNe17 m p q = some (decide (x ≠ y)) := by
  have e : descEq17 m p q = some (decide (x = y)) := by
    rw [← (C42_equal_names hp hq).2]
    exact strcmp17_eq _ _
  refine ⟨e, by rw [e, (C42_equal_names hp hq).1], ?_⟩
  rw [descNe17, e]
  simp

/-- C104: with ANYANY_ASSUME_NO_DLLS, when each decayed type has one address, descriptors identify the decayed types, and the order agrees
with equality. -/
theorem C104_assume_no_dlls {T : Type} [DecidableEq T] {addr : T → Nat} {decay : T → T} (hinj : ∀ t u, addr t = addr u → t = u) (t u : T) :
    descEqPtr (addr (decay t)) (addr (decay u)) = decide (decay t = decay u) ∧
    (descCmpPtr (addr (decay t)) (addr (decay u)) = .eq ↔ decay t = decay u) := by
  constructor
  · by_cases h : decay t = decay u
    · simp [descEqPtr, h]
    · have : addr (decay t) ≠ addr (decay u) := fun h' => h (hinj _ _ h')
      simp [descEqPtr, h, this]
  · unfold descCmpPtr
    rw [Nat.compare_eq_eq]
    exact ⟨hinj _ _, fun h => by rw [h]⟩

/-- C104: without that assumption: a type whose descriptor has one address in the program and another in a library is not equal to itself. -/
theorem C104_needs_no_dlls (p q : Nat) (h : p ≠ q) : descEqPtr p q = false ∧ descCmpPtr p q ≠ .eq := by
  refine ⟨by simp [descEqPtr, h], ?_⟩
  unfold descCmpPtr
  rw [Ne, Nat.compare_eq_eq]
  exact h

/-- Names `a` and `ab`, equal and unequal, one of them stored twice. -/
example : let m : Mem := fun p => if p = 5 then [97, 0, 7] else if p = 6 then [97, 98, 0] else [97, 98, 0, 1]
    Str m 5 [97] ∧ Str m 6 [97, 98] ∧ Str m 9 [97, 98] ∧ descEq17 m 6 9 = some true ∧ descEq17 m 5 6 = some false := by
  refine ⟨⟨by decide, [7], rfl⟩, ⟨by decide, [], rfl⟩, ⟨by decide, [1], rfl⟩, by decide, by decide⟩

end AnyAny.Descriptor

namespace AnyAny.Poly
open AnyAny.Mem (Method Cfg CfgOk exCfg)
variable {cfg : Cfg} {w : PW} {r : RId} {o : RefObj} {l : Option Nat}

theorem ptrEq17_ev {r' : RId} {o' : RefObj} {tg tg' l'} (hw : Fresh w) (hr : w.refs r = some o) (hr' : w.refs r' = some o')
    (h : Means w o tg l) (h' : Means w o' tg' l') (hm : Mem.HasDesc o.ms) (hm' : Mem.HasDesc o'.ms)
    (hp : o.kind.isPtr = true) (hp' : o'.kind.isPtr = true) : Ev w (ptrEq17 r r') (decide (tg = tg')) := by
  have hs : o.kind.isStateful = false := by cases hk : o.kind <;> rw [hk] at hp <;> first | rfl | cases hp
  have hs' : o'.kind.isStateful = false := by cases hk : o'.kind <;> rw [hk] at hp' <;> first | rfl | cases hp'
  refine Ev.bind (getRef_ev hr) fun j hj => Ev.bind (getRef_ev (w := { w with tmps := j }) hr') fun i hi => ?_
  have hw0 := (hw.le hj).le hi
  refine Ev.withTemp hw0 ?_
  have hw1 := hw0.push o
  refine Ev.withTemp hw1 ?_
  have hw2 := hw1.push o'
  have H : Means _ o tg l := ((h.le i).push (x := o) hw0).push (x := o') hw1
  have H' : Means _ o' tg' l' := ((h'.le i).push (x := o) hw0).push (x := o') hw1
  have hx := push_other (o := o') hw1 (push_same { w with tmps := i } o)
  have hy := push_same (push { w with tmps := i } o) o'
  split
  · exact ptrEqAt_ev hw2 hx hy H H' hm hm'
  split
  · obtain ⟨c, h1, h2, h3, h4⟩ := constPtr_means hw2 hx H hs
    refine Ev.bind h1 fun i1 hi1 => Ev.withTemp (hw2.le hi1) (Ev.withTemp ((hw2.le hi1).push c) ?_)
    refine ptrEqAt_ev (((hw2.le hi1).push c).push o') (push_other ((hw2.le hi1).push c) (push_same _ _)) (push_same _ _)
      (((h2.le i1).push (hw2.le hi1)).push ((hw2.le hi1).push c))
      (((H'.le i1).push (hw2.le hi1)).push ((hw2.le hi1).push c)) (by rw [h4]; exact hm) hm'
  · obtain ⟨c, h1, h2, h3, h4⟩ := constPtr_means hw2 hy H' hs'
    refine Ev.bind h1 fun i1 hi1 => Ev.withTemp (hw2.le hi1) (Ev.withTemp ((hw2.le hi1).push o) ?_)
    exact ptrEqAt_ev (((hw2.le hi1).push o).push c) (push_other ((hw2.le hi1).push o) (push_same _ _)) (push_same _ _)
      (((H.le i1).push (hw2.le hi1)).push ((hw2.le hi1).push o))
      (((h2.le i1).push (hw2.le hi1)).push ((hw2.le hi1).push o)) hm (by rw [h4]; exact hm')

theorem ptrNe17_ev {r' : RId} {o' : RefObj} {tg tg' l'} (hw : Fresh w) (hr : w.refs r = some o) (hr' : w.refs r' = some o')
    (h : Means w o tg l) (h' : Means w o' tg' l') (hm : Mem.HasDesc o.ms) (hm' : Mem.HasDesc o'.ms)
    (hp : o.kind.isPtr = true) (hp' : o'.kind.isPtr = true) : Ev w (ptrNe17 r r') (!decide (tg = tg')) := by
  have hs : o.kind.isStateful = false := by cases hk : o.kind <;> rw [hk] at hp <;> first | rfl | cases hp
  have hs' : o'.kind.isStateful = false := by cases hk : o'.kind <;> rw [hk] at hp' <;> first | rfl | cases hp'
  refine Ev.bind (getRef_ev hr) fun j hj => Ev.bind (getRef_ev (w := { w with tmps := j }) hr') fun i hi => ?_
  have hw0 := (hw.le hj).le hi
  refine Ev.withTemp hw0 ?_
  have hw1 := hw0.push o
  refine Ev.withTemp hw1 ?_
  have hw2 := hw1.push o'
  have H : Means _ o tg l := ((h.le i).push (x := o) hw0).push (x := o') hw1
  have H' : Means _ o' tg' l' := ((h'.le i).push (x := o) hw0).push (x := o') hw1
  have hx := push_other (o := o') hw1 (push_same { w with tmps := i } o)
  have hy := push_same (push { w with tmps := i } o) o'
  split
  · exact Ev.bind (ptrEq17_ev hw2 hx hy H H' hm hm' hp hp') fun _ _ => Ev.pure _ _
  split
  · obtain ⟨c, h1, h2, h3, h4⟩ := constPtr_means hw2 hx H hs
    refine Ev.bind h1 fun i1 hi1 => Ev.withTemp (hw2.le hi1) ?_
    exact Ev.bind (ptrEq17_ev ((hw2.le hi1).push c) (push_same _ _) (push_other (hw2.le hi1) hy)
      ((h2.le i1).push (hw2.le hi1)) ((H'.le i1).push (hw2.le hi1)) (by rw [h4]; exact hm) hm' (by rw [h3]; rfl) hp')
      fun _ _ => Ev.pure _ _
  · obtain ⟨c, h1, h2, h3, h4⟩ := constPtr_means hw2 hy H' hs'
    refine Ev.bind h1 fun i1 hi1 => Ev.withTemp (hw2.le hi1) ?_
    exact Ev.bind (ptrEq17_ev ((hw2.le hi1).push c) (push_other (hw2.le hi1) hx) (push_same _ _)
      ((H.le i1).push (hw2.le hi1)) ((h2.le i1).push (hw2.le hi1)) hm (by rw [h4]; exact hm') hp (by rw [h3]; rfl))
      fun _ _ => Ev.pure _ _

/-- C104: `==` and `!=` of polymorphic pointers in C++17, for all four combinations of `poly_ptr` and `const_poly_ptr`: equal are those with
equal targets (both null, or equal address and equal dynamic type), and `!=` is the opposite. In C++20 the results are the same. -/
theorem C104_pointers (C : CfgOk cfg) {w : PW} {S : SRefs} (h : Reach cfg w S) {m n : Nat} {s t : SRef} (hs : S m = some s)
    (ht : S n = some t) (hps : s.kind.isPtr = true) (hpt : t.kind.isPtr = true) (his : Mem.HasDesc s.ms) (hit : Mem.HasDesc t.ms) :
    Returns w (ptrEq17 (.var m) (.var n)) (decide (s.target = t.target)) ∧
    Returns w (ptrNe17 (.var m) (.var n)) (decide (s.target ≠ t.target)) ∧
    Returns w (ptrEq (.var m) (.var n)) (decide (s.target = t.target)) ∧
    Returns w (ptrNe (.var m) (.var n)) (decide (s.target ≠ t.target)) := by
  have I := h.inv C
  obtain ⟨o, hr, A⟩ := I.get hs
  obtain ⟨o', hr', A'⟩ := I.get ht
  have m1 : Mem.HasDesc o.ms := by rw [A.ms]; exact his
  have m2 : Mem.HasDesc o'.ms := by rw [A'.ms]; exact hit
  have p1 : o.kind.isPtr = true := by rw [A.kind]; exact hps
  have p2 : o'.kind.isPtr = true := by rw [A'.kind]; exact hpt
  have e : decide (s.target ≠ t.target) = !decide (s.target = t.target) := by simp
  rw [e]
  have E := ptrEq_ev I.fresh hr hr' A.means A'.means m1 m2 p1 p2
  exact ⟨(ptrEq17_ev I.fresh hr hr' A.means A'.means m1 m2 p1 p2).returns,
    (ptrNe17_ev I.fresh hr hr' A.means A'.means m1 m2 p1 p2).returns, E.returns,
    (Ev.bind E fun _ _ => Ev.pure _ _ : Ev w (ptrNe (.var m) (.var n)) _).returns⟩

/-- C104: `p != nullptr` in C++17 says whether `p` points to an object. -/
theorem C104_null (C : CfgOk cfg) {w : PW} {S : SRefs} (h : Reach cfg w S) {n : Nat} {s : SRef} (hs : S n = some s) :
    Returns w (neNull17 (.var n)) s.target.isSome ∧ Returns w (hasValue (.var n)) s.target.isSome := by
  have I := h.inv C
  obtain ⟨o, hr, A⟩ := I.get hs
  have hv : o.val.isSome = s.target.isSome := by rw [A.means.val]; simp
  have E : Ev w (hasValue (.var n)) s.target.isSome := by
    rw [← hv]
    exact Ev.bind (Ev.bind (getRef_ev hr) fun j _ => Ev.pure _ _) fun j _ => Ev.pure _ _
  refine ⟨?_, E.returns⟩
  have : Ev w (neNull17 (.var n)) (!(!s.target.isSome)) := Ev.bind E fun j _ => Ev.pure _ _
  rw [Bool.not_not] at this
  exact this.returns

/-- C104: `!=` of any objects and references in C++17 is the opposite of `==`. -/
theorem C104_values {F : CmpFns} (C : CfgOk cfg) {w : PW} {S : SRefs} (h : Reach cfg w S) {l r : Opd} {c d : Option (Nat × Nat)}
    (hl : Sees w S l c) (hr : Sees w S r d) (ml : HasMethod w S l .equalTo) (mr : HasMethod w S r .equalTo) :
    Returns w (eqOp F l r) (specEq F c d) ∧ Returns w (neOp17 F l r) (!specEq F c d) := by
  have E := C39_equal (F := F) C h hl hr ml mr
  refine ⟨E, ?_⟩
  obtain ⟨w', e, k⟩ := E
  refine ⟨w', ?_, k⟩
  show PM.bind (eqOp F l r) _ w = _
  simp only [PM.bind, e]
  rfl

/-- A mutable and a const pointer to one variable, and one to another. -/
example : ∃ w S, Reach exCfg w S ∧
    (decide ((S 0).map (·.target) = (S 1).map (·.target)) && decide ((S 0).map (·.kind) ≠ (S 1).map (·.kind)) &&
     decide ((S 0).map (·.target) ≠ (S 2).map (·.target)) && (S 2).any (fun s => s.ms.contains .typeInfo)) = true :=
  run_witness 6 (ops := [.newVar 5 1 9, .newVar 6 1 9, .ofVar 0 .polyPtr [.typeInfo, .user 0] 5, .ofVar 1 .constPolyPtr [.typeInfo] 5,
    .ofVar 2 .constPolyPtr [.typeInfo, .user 0] 6]) (by decide +kernel)

end AnyAny.Poly
