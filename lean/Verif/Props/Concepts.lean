import Verif.Model.Concepts
/-
C106: the concepts for methods say how the library uses a class.
-/
namespace AnyAny.Methods
open AnyAny.TypeList (Item)

/-- A class that declares one thing: a function (`do_invoke`, perhaps with a `signature_type`, which is then a function type), or a
`value_type`, but not both. -/
structure OneKind (c : Class) : Prop where
  sig : ∀ t, c.decl.signatureType ≠ some (.value t)
  one : (c.decl.signatureType.isSome ∨ (c.decl.doInvoke erasedSelf).isSome) → c.decl.valueType = none

/-- C106: a class that satisfies `simple_method` has a signature, so that vtables can be made with it and called. -/
theorem C106_usable (c : Class) (h : simpleMethod c = true) : c.decl.signature.isSome = true := by
  unfold simpleMethod regularMethod pseudomethod hasFunctionSignature at h
  unfold Method.signature
  cases hs : c.decl.signatureType with
  | some s => rfl
  | none =>
    rw [hs] at h
    cases hd : c.decl.doInvoke erasedSelf with
    | some s => rfl
    | none =>
      rw [hd] at h
      cases hv : c.decl.valueType with
      | some v => rfl
      | none => rw [hv] at h; simp at h

/-- C106: a class satisfies `regular_method` iff the library takes it for a function, `pseudomethod` iff for a value, never both. -/
theorem C106_kind_partial (c : Class) (h : OneKind c) (he : c.empty = true) (hd : c.defaultInit = true) (hv : c.valueRefOrFn = false) :
    (regularMethod c = true ↔ ∃ s, c.decl.signature = some (.func s)) ∧
    (pseudomethod c = true ↔ ∃ t, c.decl.signature = some (.value t)) ∧
    (regularMethod c = true → pseudomethod c = false) ∧
    (simpleMethod c = true ↔ c.decl.signature.isSome = true) := by
  unfold simpleMethod regularMethod pseudomethod hasFunctionSignature Method.signature
  cases hs : c.decl.signatureType with
  | some s =>
    cases s with
    | value t => exact absurd hs (h.sig t)
    | func s =>
      have := h.one (Or.inl (by rw [hs]; rfl))
      simp [he, hd, this]
  | none =>
    cases hi : c.decl.doInvoke erasedSelf with
    | some s =>
      have := h.one (Or.inr (by rw [hi]; rfl))
      simp [he, hd, this]
    | none =>
      cases hv' : c.decl.valueType <;> simp [he, hd, hv]

/-- C106: classes with data members, or that cannot be default-initialised, are never methods. -/
theorem C106_stateless (c : Class) (h : c.empty = false ∨ c.defaultInit = false) : simpleMethod c = false ∧ constMethod (.leaf c) = some false := by
  have : simpleMethod c = false := by
    rcases h with h | h <;> simp [simpleMethod, regularMethod, pseudomethod, h]
  exact ⟨this, by simp [constMethod, isMethod, this]⟩

/-- C106: a class satisfies `const_method` iff it is a method that never gets a mutable reference to the object: those with a value, and
those whose function takes the object by value or by reference to const. -/
theorem C106_const (c : Class) :
    ∃ b, constMethod (.leaf c) = some b ∧ (b = true ↔ simpleMethod c = true ∧
      ∀ s, c.decl.signature = some (.func s) → s.self = .val ∨ s.self = .clref ∨ s.self = .crref) := by
  unfold constMethod isMethod
  by_cases h : simpleMethod c = true
  · have hu := C106_usable c h
    rw [if_pos h]
    unfold isConstMethodV
    cases hs : c.decl.signature with
    | none => rw [hs] at hu; cases hu
    | some s =>
      cases s with
      | value t => exact ⟨true, by simp [hs], by simp [h]⟩
      | func s =>
        refine ⟨s.self.isConst, by simp [hs], ?_⟩
        simp only [h, true_and, Option.some.injEq, Signature.func.injEq, forall_eq']
        cases s.self <;> simp [Self.isConst]
  · rw [if_neg h]
    exact ⟨false, rfl, by simp [h]⟩

/-- C106: lists satisfy `compound_method` and `method` iff all their elements are simple methods. -/
theorem C106_compound (cs : List Class) :
    (compoundMethod (.list (cs.map .leaf)) = true ↔ ∀ c ∈ cs, simpleMethod c = true) ∧
    isMethod (.list (cs.map .leaf)) = compoundMethod (.list (cs.map .leaf)) := by
  refine ⟨?_, rfl⟩
  simp [compoundMethod]

/-- C106 fails: a class with a function and a `value_type` satisfies both concepts, and the library never uses the value. -/
theorem C106_both_fails (c : Class) (s : Sig) (h : c.decl.doInvoke erasedSelf = some s) (hn : c.decl.signatureType = none)
    (hp : pseudomethod c = true) : regularMethod c = true ∧ c.decl.signature = some (.func s) := by
  have he : c.empty = true ∧ c.defaultInit = true := by
    simp only [pseudomethod, Bool.and_eq_true] at hp
    exact ⟨hp.1.1.1, hp.1.1.2⟩
  simp [regularMethod, Method.signature, h, hn, he.1, he.2]

/-- C106 fails: a class with `do_invoke` and a `signature_type` that is not a function type satisfies `regular_method`, but the library
takes it for a value. -/
theorem C106_signature_fails (c : Class) (t : Nat) (h : c.decl.signatureType = some (.value t)) (he : c.empty = true) (hd : c.defaultInit = true)
    (hi : (c.decl.doInvoke erasedSelf).isSome = true) : regularMethod c = true ∧ c.decl.signature = some (.value t) := by
  simp [regularMethod, Method.signature, h, he, hd, hi]

/-- C106 fails: `const_method` of a list of methods is neither true nor false: it does not compile, whatever the methods are. -/
theorem C106_const_compound_fails (cs : List Class) (h : ∀ c ∈ cs, simpleMethod c = true) :
    isMethod (.list (cs.map .leaf)) = true ∧ constMethod (.list (cs.map .leaf)) = none := by
  have : isMethod (.list (cs.map .leaf)) = true := by rw [(C106_compound cs).2]; exact (C106_compound cs).1.2 h
  exact ⟨this, by simp [constMethod, this, isConstMethodV]⟩

/-- C106 fails: lists in lists are not methods for the concept, although any_with and the references accept them (C25: they are flattened). -/
theorem C106_nested_fails (xs : List (Item Class)) (ys : List (Item Class)) (h : .list ys ∈ xs) : isMethod (.list xs) = false := by
  simp only [isMethod, compoundMethod, List.all_eq_false]
  exact ⟨_, h, by simp⟩

/-- Methods: one by reference, one by reference to const, one value; a class with a data member. -/
def exDraw : Class := ⟨⟨none, fun _ => some ⟨0, .lref, []⟩, none, fun _ => false⟩, true, true, false⟩
def exPrint : Class := ⟨⟨none, fun _ => some ⟨0, .clref, [1]⟩, none, fun _ => false⟩, true, true, false⟩
def exSize : Class := ⟨⟨none, fun _ => none, some 3, fun _ => true⟩, true, true, false⟩
def exState : Class := ⟨⟨none, fun _ => some ⟨0, .lref, []⟩, none, fun _ => false⟩, false, true, false⟩

example : OneKind exDraw ∧ OneKind exSize ∧ regularMethod exDraw = true ∧ pseudomethod exSize = true ∧
    constMethod (.leaf exDraw) = some false ∧ constMethod (.leaf exPrint) = some true ∧ constMethod (.leaf exSize) = some true ∧
    simpleMethod exState = false ∧ isMethod (.list [.leaf exDraw, .leaf exSize]) = true :=
  ⟨⟨by intro t; simp [exDraw], by intro _; rfl⟩, ⟨by intro t; simp [exSize], by simp [exSize]⟩, rfl, rfl, rfl, rfl, rfl, rfl, rfl⟩

end AnyAny.Methods
