import Verif.Model.Variant
import Verif.Props.VisitInvoke
/-
C50: `std::variant` as a polymorphic type.
-/
namespace AnyAny.Variant
open AnyAny.Visit (Arg Param Overload Outcome resolve Valid Accepts Matches StrictTotal Sorts)

variable {D A : Type} [DecidableEq D]

/-- The argument is an object of type `t` at `a`: the variant holds an alternative of type `t`, whose address is `a`; or
it is itself the object. -/
inductive Holds : Val D A → D → A → Bool → Prop
  | variant (alts : List D) (i : Nat) (t : D) (a : A) (c : Bool) (h : alts[i]? = some t) : Holds (.variant alts (some i) a c) t a c
  | other (t : D) (a : A) (c : Bool) : Holds (.other t a c) t a c

/-- C50: the dynamic type is that of the alternative, the address its address. -/
theorem C50_traits {v : Val D A} {t : D} {a : A} {c : Bool} (h : Holds v t a c) :
    getTypeDescriptor v = .ok t ∧ toAddress v = .ok (a, c) := by
  cases h with
  | variant alts i _ _ _ h => simp [getTypeDescriptor, toAddress, stdVisit, h]
  | other => exact ⟨rfl, rfl⟩

/-- C50: `any_cast<T>` gives a pointer to the alternative exactly if it has type `T`, and null otherwise. The pointer is to const
for const variants only. -/
theorem C50_any_cast {v : Val D A} {t : D} {a : A} {c : Bool} (h : Holds v t a c) (u : D) :
    anyCast u v = .ok (if u = t then some a else none) ∧ anyCastConst v = c := by
  obtain ⟨h1, h2⟩ := C50_traits h
  constructor
  · by_cases hu : u = t
    · subst hu; simp [anyCast, h1, h2, Res.bind]
    · simp [anyCast, h1, Res.bind, hu, Ne.symm hu]
  · cases h <;> rfl

/-- C50: a variant holds one alternative, so `any_cast` is non-null for one type only. -/
theorem C50_any_cast_unique {v : Val D A} {t u : D} {a b : A} (h : anyCast t v = .ok (some a)) (h' : anyCast u v = .ok (some b)) :
    t = u ∧ a = b := by
  unfold anyCast at h h'
  cases hd : getTypeDescriptor v with
  | terminate => simp [hd, Res.bind] at h
  | ok d =>
    simp only [hd, Res.bind] at h h'
    split at h
    · cases h
    · split at h'
      · cases h'
      · rename_i e1 e2
        have e1 := Decidable.not_not.1 e1
        have e2 := Decidable.not_not.1 e2
        rw [h] at h'
        exact ⟨e1.symm.trans e2, by cases h'; rfl⟩

theorem visitArgs_eq (vs : List (Val D A × D × A × Bool)) (h : ∀ v ∈ vs, Holds v.1 v.2.1 v.2.2.1 v.2.2.2) :
    visitArgs (vs.map (·.1)) = .ok (vs.map fun v => ⟨v.2.1, v.2.2.2, some v.2.2.1⟩) := by
  induction vs with
  | nil => rfl
  | cons v vs ih =>
    obtain ⟨h1, h2⟩ := C50_traits (h v (by simp))
    simp [visitArgs, h1, h2, Res.bind, ih fun x hx => h x (by simp [hx])]

/-- C50: `visit_invoke` calls the overload for the types of the alternatives, with the alternatives. -/
theorem C50_visit (vs : List (Val D A × D × A × Bool)) (h : ∀ v ∈ vs, Holds v.1 v.2.1 v.2.2.1 v.2.2.2) {void : D} {lt : D → D → Bool}
    (O : StrictTotal lt) {sort : List (List D × Nat) → List (List D × Nat)} (St : Sorts lt sort) {fs : List (Overload D)}
    (V : Valid void fs) {i : Nat} {f : Overload D} (hf : fs[i]? = some f) (hl : f.callee = .lambda)
    (htypes : f.params.map (·.desc) = vs.map (·.2.1))
    (hconst : ∀ (k : Nat) (p : Param D) (v : Val D A × D × A × Bool), f.params[k]? = some p → vs[k]? = some v →
      v.2.2.2 = true → p.pass ≠ .lref ∧ p.pass ≠ .rref) (safe : Bool) :
    ∃ out, visitResolve void lt sort safe fs (vs.map (·.1)) = .ok (.call i out) ∧ out.map (·.1) = vs.map fun v => some v.2.2.1 := by
  obtain ⟨out, h1, h2⟩ := Visit.C44_calls (A := A) (args := vs.map fun v => ⟨v.2.1, v.2.2.2, some v.2.2.1⟩) O St V hf hl
    (Visit.matches_iff.2 (by rw [htypes, List.map_map]; rfl)) (by
      intro k p a hp ha hc
      rw [List.getElem?_map] at ha
      cases hx : vs[k]? with
      | none => rw [hx] at ha; cases ha
      | some x => rw [hx] at ha; cases ha; exact hconst k p x hp hx hc) safe
  refine ⟨out, ?_, ?_⟩
  · rw [visitResolve, visitArgs_eq vs h, Res.bind, h1]
  · rw [h2, List.map_map]; rfl

/-- C50: without an overload for the alternatives nothing is called. -/
theorem C50_visit_nullopt (vs : List (Val D A × D × A × Bool)) (h : ∀ v ∈ vs, Holds v.1 v.2.1 v.2.2.1 v.2.2.2) {void : D} {lt : D → D → Bool}
    (hvoid : ∀ v ∈ vs, v.2.1 ≠ void)
    (O : StrictTotal lt) {sort : List (List D × Nat) → List (List D × Nat)} (St : Sorts lt sort) {fs : List (Overload D)}
    (V : Valid void fs) (hno : ∀ f ∈ fs, f.params.map (·.desc) ≠ vs.map (·.2.1)) (safe : Bool) :
    visitResolve void lt sort safe fs (vs.map (·.1)) = .ok .nullopt := by
  have h1 := Visit.C44_nullopt (A := A) (args := vs.map fun v => ⟨v.2.1, v.2.2.2, some v.2.2.1⟩) O St V (by
      intro a ha
      obtain ⟨x, hx, rfl⟩ := List.mem_map.1 ha
      exact hvoid x hx) (by
      intro f hf hm
      apply hno f hf
      rw [Visit.matches_iff.1 hm, List.map_map]; rfl) safe
  rw [visitResolve, visitArgs_eq vs h, Res.bind, h1]

/-- C50 is false for valueless variants: the program ends in `std::terminate`. -/
theorem C50_valueless_fails (alts : List D) (a : A) (c : Bool) (t : D) :
    anyCast t (.variant alts none a c) = .terminate ∧
    ∀ void lt sort safe (fs : List (Overload D)) vs,
      visitResolve void lt sort safe fs (.variant alts none a c :: vs) = .terminate :=
  ⟨rfl, fun _ _ _ _ _ _ => rfl⟩

/-- An argument that exists: the index of a variant is that of an alternative. -/
def WellFormed : Val D A → Prop
  | .variant alts (some i) _ _ => i < alts.length
  | _ => True

/-- A variant that is valueless by exception. -/
def Valueless : Val D A → Prop
  | .variant _ none _ _ => True
  | _ => False

omit [DecidableEq D] in
theorem holds_or (v : Val D A) (h : WellFormed v) : (∃ t a c, Holds v t a c) ∨ Valueless v := by
  match v, h with
  | .variant alts (some i) a c, h => exact Or.inl ⟨alts[i], a, c, .variant _ _ _ _ _ (List.getElem?_eq_getElem h)⟩
  | .variant alts none a c, _ => exact Or.inr trivial
  | .other t a c, _ => exact Or.inl ⟨t, a, c, .other _ _ _⟩

omit [DecidableEq D] in
theorem valueless_type {v : Val D A} (h : Valueless v) : getTypeDescriptor v = .terminate := by
  match v, h with
  | .variant alts none a c, _ => rfl

/-- C50, exactly: the program ends in `std::terminate` precisely if a variant is valueless, which one among the arguments does not matter. -/
theorem C50_exact :
    (∀ v : Val D A, WellFormed v → ∀ t, (anyCast t v = .terminate ↔ Valueless v)) ∧
    ∀ (vs : List (Val D A)), (∀ v ∈ vs, WellFormed v) → ∀ void lt sort safe (fs : List (Overload D)),
      (visitResolve void lt sort safe fs vs = .terminate ↔ ∃ v ∈ vs, Valueless v) := by
  have no : ∀ {v : Val D A} {t a c}, Holds v t a c → ¬Valueless v := by
    intro v t a c h hv
    have := (C50_traits h).1
    rw [valueless_type hv] at this
    cases this
  refine ⟨fun v hw t => ?_, fun vs hw void lt sort safe fs => ?_⟩
  · rcases holds_or v hw with ⟨u, a, c, h⟩ | h
    · rw [(C50_any_cast h t).1]
      exact ⟨fun e => (by cases e), fun e => absurd e (no h)⟩
    · exact ⟨fun _ => h, fun _ => by simp [anyCast, valueless_type h, Res.bind]⟩
  · have key : visitArgs vs = .terminate ↔ ∃ v ∈ vs, Valueless v := by
      induction vs with
      | nil => simp [visitArgs]
      | cons v vs ih =>
        rcases holds_or v (hw v (by simp)) with ⟨u, a, c, h⟩ | h
        · obtain ⟨h1, h2⟩ := C50_traits h
          have ih := ih fun x hx => hw x (by simp [hx])
          simp only [visitArgs, h1, h2, Res.bind, List.mem_cons, exists_eq_or_imp, no h, false_or]
          rw [← ih]
          cases visitArgs vs <;> simp
        · simp [visitArgs, valueless_type h, Res.bind, h]
    rw [← key, visitResolve]
    cases visitArgs vs <;> simp [Res.bind]

/-! ### examples -/

example : WellFormed (.variant [1, 2] (some 1) 70 false : Val Nat Nat) ∧ Valueless (.variant [1, 2] none 70 false : Val Nat Nat) :=
  ⟨by show 1 < 2; decide, trivial⟩


/-- `variant<T1, T2, T1>` holding the second `T1` (address 70); the class of a plain object. -/
example : Holds (.variant [1, 2, 1] (some 2) 70 true) 1 70 true ∧ Holds (.other 2 80 false : Val Nat Nat) 2 80 false :=
  ⟨.variant _ _ _ _ _ rfl, .other _ _ _⟩

example : anyCast 1 (.variant [1, 2, 1] (some 2) 70 true) = .ok (some 70) ∧ anyCast 2 (.variant [1, 2, 1] (some 2) 70 true) = .ok none :=
  ⟨rfl, rfl⟩

def exLt (a b : Nat) : Bool := decide (a < b)

def exFs : List (Overload Nat) :=
  [⟨[⟨2, .constLref⟩, ⟨1, .lref⟩], .lambda⟩, ⟨[⟨1, .constLref⟩, ⟨2, .lref⟩], .lambda⟩]

example : visitResolve 0 exLt (Visit.insertionSort exLt) true exFs [.variant [1, 2, 1] (some 2) 70 true, .variant [1, 2] (some 1) 90 false]
    = .ok (.call 1 [(some 70, .constLvalue), (some 90, .lvalue)]) := by decide +kernel

example : visitResolve 0 exLt (Visit.insertionSort exLt) true exFs [.variant [1, 2, 1] (some 2) 70 true, .other 2 90 true]
    = .ok .nullopt := by decide +kernel

example : Valid 0 exFs := ⟨by decide +kernel, by decide +kernel⟩

end AnyAny.Variant
