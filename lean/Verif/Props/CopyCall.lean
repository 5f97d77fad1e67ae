import Verif.Model.CopyCall
/-
C22: for which allocators `materialize` compiles.
-/
namespace AnyAny.CopyCall

/-- C22, which allocators: `materialize` compiles precisely for those that are empty and can be default-constructed, as `std::allocator`,
while anys with any allocator can be copied, and the copy functions of all types compile. -/
theorem C22_allocators_exact (a : Alloc) :
    copyOk a = true ∧ (∀ trivial fits, entryOk a trivial fits = true) ∧ (materializeOk a = true ↔ a.empty = true ∧ a.dflt = true) := by
  obtain ⟨e, d⟩ := a
  cases e <;> cases d <;> decide

/-- C22 fails for allocators with a state, as `std::pmr::polymorphic_allocator`: `materialize(ref, alloc)` does not compile. -/
theorem C22_stateful_allocators_fail (a : Alloc) (h : a.empty = false) : materializeOk a = false := by
  cases hm : materializeOk a with
  | false => rfl
  | true =>
    rw [((C22_allocators_exact a).2.2.1 hm).1] at h
    cases h

example : materializeOk ⟨true, true⟩ = true ∧ materializeOk ⟨false, true⟩ = false ∧ copyOk ⟨false, true⟩ = true := by decide

end AnyAny.CopyCall
