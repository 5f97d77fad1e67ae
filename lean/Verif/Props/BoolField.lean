import Verif.Model.BoolField
/-
C105: fields of type `bool`, stored as `bool_`, behave as `bool`.
-/
namespace AnyAny.BoolField

/-- C105: a mutable element gives a mutable reference to the stored `bool`, an element of a const container only a const one: a lvalue `x`
of type `bool_` converts to `bool&` iff it is not const, and always to `const bool&`, without ambiguity; the result is an lvalue, so it is
the member itself, not a copy. -/
theorem C105_reference (x : Opd) (hl : x.rvalue = false) :
    ((convert (.lref false) x).isSome ↔ x.const = false) ∧
    (∃ c, convert (.lref true) x = some c ∧ c.rvalue = false ∧ c.const = x.const ∧ c.objRvalue = false) ∧
    ∀ k c, convert (.lref k) x = some c → c.rvalue = false ∧ c.const = x.const ∧ (x.const = true → k = true) := by
  obtain ⟨w, c, r, v⟩ := x
  cases hl
  refine ⟨?_, ?_, ?_⟩
  · cases w <;> cases c <;> cases v <;> decide
  · cases w <;> cases c <;> cases v <;> exact ⟨_, rfl, rfl, rfl, rfl⟩
  · intro k d
    cases w <;> cases c <;> cases v <;> cases k <;> revert d <;> decide

/-- C105: reading an element as a `bool` is never ambiguous; the constness and the category of the result are those of the element, so
moving from one calls the conversion for rvalues and gives an rvalue. -/
theorem C105_value (x : Opd) :
    ∃ c, convert .value x = some c ∧ c.objRvalue = x.rvalue ∧ c.objConst = x.const ∧ c.rvalue = x.rvalue ∧ c.const = x.const := by
  obtain ⟨w, c, r, v⟩ := x
  cases w <;> cases c <;> cases r <;> cases v <;> exact ⟨_, rfl, rfl, rfl, rfl, rfl⟩

/-- C105: assigning an element or a `bool` to an element is never ambiguous and stores the value; a `bool` is assigned without a
temporary `bool_`, and elements that may be moved from are. -/
theorem C105_assign (x : Opd) : ∃ a, assign x = some (a, x.val) ∧ (a = .ofBool ↔ x.wrapped = false) ∧
    (a = .move ↔ x.wrapped = true ∧ x.rvalue = true ∧ x.const = false) := by
  obtain ⟨w, c, r, v⟩ := x
  cases w <;> cases c <;> cases r <;> cases v <;> exact ⟨_, rfl, by decide, by decide⟩

/-- C105: comparisons that involve an element are made by its own operators, that for two elements or that for an element and a `bool`,
and are never ambiguous. -/
theorem C105_operator (l r : Opd) :
    resolve l r = some (if l.wrapped then (if r.wrapped then .ofWrapped else .ofBool) else if r.wrapped then .ofBoolReversed else .builtin) := by
  obtain ⟨w, c, k, v⟩ := l
  obtain ⟨w', c', k', v'⟩ := r
  cases w <;> cases c <;> cases k <;> cases v <;> cases w' <;> cases c' <;> cases k' <;> cases v' <;> rfl

/-- C105: `==` of elements, and of an element and a `bool` in either order, is never ambiguous, always finishes, and is `==` of the values. -/
theorem C105_equal (l r : Opd) (n : Nat) : eq (n + 2) l r = some (decide (l.val = r.val)) := by
  obtain ⟨w, c, k, v⟩ := l
  obtain ⟨w', c', k', v'⟩ := r
  cases w <;> cases c <;> cases k <;> cases v <;> cases w' <;> cases c' <;> cases k' <;> cases v' <;> rfl

/-- C105: so is `<=>`: `false` is less than `true`. -/
theorem C105_order (l r : Opd) :
    ∃ o, spaceship l r = some o ∧ (o = .eq ↔ l.val = r.val) ∧ (o = .lt ↔ l.val = false ∧ r.val = true) ∧
      (o = .gt ↔ l.val = true ∧ r.val = false) := by
  obtain ⟨w, c, k, v⟩ := l
  obtain ⟨w', c', k', v'⟩ := r
  cases w <;> cases c <;> cases k <;> cases v <;> cases w' <;> cases c' <;> cases k' <;> cases v' <;>
    exact ⟨_, rfl, by decide, by decide, by decide⟩

/-- `==` of `std::vector<bool_>`: equal sizes and all elements `==`; `none`: does not compile or does not end. Standard library; used at
data_parallel_vector.hpp:537-541 through the elements. -/
def columnEq (n : Nat) : List Bool → List Bool → Option Bool
  | [], [] => some true
  | x :: xs, y :: ys =>
    match eq n ⟨true, true, false, x⟩ ⟨true, true, false, y⟩ with
    | some true => columnEq n xs ys
    | some false => some false
    | none => none
  | _, _ => some false

/-- C105: two columns of `bool_` are equal iff the sequences of `bool` are. -/
theorem C105_columns (n : Nat) (xs ys : List Bool) : columnEq (n + 2) xs ys = some (decide (xs = ys)) := by
  induction xs generalizing ys with
  | nil => cases ys <;> simp [columnEq]
  | cons x xs ih =>
    cases ys with
    | nil => simp [columnEq]
    | cons y ys =>
      rw [columnEq, C105_equal]
      by_cases h : x = y
      · simp [h, ih]
      · simp [h]

/-- An element of a const container and one of a mutable one. -/
example : convert (.lref false) ⟨true, false, false, true⟩ = some ⟨false, false, false, false⟩ ∧
    convert (.lref false) ⟨true, true, false, true⟩ = none ∧ resolve ⟨true, true, false, true⟩ ⟨true, true, false, false⟩ = some .ofWrapped ∧
    resolve ⟨false, true, false, true⟩ ⟨true, true, false, false⟩ = some .ofBoolReversed := by decide

end AnyAny.BoolField
