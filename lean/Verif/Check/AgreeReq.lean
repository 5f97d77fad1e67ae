import Verif.Props.Ctor
import Verif.Props.AllocReq
/-
Model/AllocReq.lean and Model/Ctor.lean agree on which copies and moves take part in overload resolution (in C++20).
-/
namespace AnyAny.AllocReq

/-- The methods of an any type of Model/Ctor.lean (anyany.hpp:316-332, 1164-1165). -/
def ofTy (a : Ctor.AnyTy) : An where
  copy := a.hasCopy
  otherCopy := a.methods.any Ctor.Meth.isCopy
  move := TypeList.containsV .move a.methods
  soo0 := a.soo == 0

theorem ofTy_hasMoveMethod (a : Ctor.AnyTy) : (ofTy a).hasMoveMethod = Ctor.hasMoveMethod a.methods := by
  have h : a.hasCopy = true → a.methods.any Ctor.Meth.isCopy = true := by
    intro hc
    rw [List.any_eq_true]
    refine ⟨.copy a.alloc a.soo, ?_, rfl⟩
    have := hc
    simp only [Ctor.AnyTy.hasCopy] at this
    exact (TypeList.containsV_iff _ _).1 this
  simp only [An.hasMoveMethod, ofTy, Ctor.hasMoveMethod]
  cases hc : a.hasCopy with
  | false => simp
  | true => simp [h hc]

theorem ofTy_hasMove (a : Ctor.AnyTy) : (ofTy a).hasMove = a.hasMove := by
  simp only [An.hasMove, ofTy_hasMoveMethod, Ctor.AnyTy.hasMove]; rfl

/-- `any(any)`, from anys of the same type: overload resolution finds a constructor exactly if the checks of Model/AllocReq.lean say so. -/
theorem construct_declared (ex : Ctor.Ty → Ctor.Meth → Bool) (al : Al) (a : Ctor.AnyTy) :
    ((Ctor.construct ex a ⟨.any a, true, false⟩).isSome = declared true al (ofTy a) .copyCtor) ∧
    (Ctor.construct ex a ⟨.any a, false, true⟩ = some .move ↔ declared true al (ofTy a) .moveCtor = true) ∧
    ((Ctor.assign ex a ⟨.any a, true, false⟩).isSome = declared true al (ofTy a) .copyAssign) ∧
    (Ctor.assign ex a ⟨.any a, false, true⟩ = some (.moveAssign none) ↔ declared true al (ofTy a) .moveAssign = true) ∧
    (Ctor.assignEmptyBraces a = some true ↔ declared true al (ofTy a) .moveAssign = true) := by
  have hm : declared true al (ofTy a) .moveAssign = a.hasMove := by simp [declared, ofTy_hasMove]
  have hm' : declared true al (ofTy a) .moveCtor = a.hasMove := by simp [declared, ofTy_hasMove]
  have hc : declared true al (ofTy a) .copyCtor = a.hasCopy := by simp [declared, ofTy]
  have hc' : declared true al (ofTy a) .copyAssign = a.hasCopy := by simp [declared, ofTy]
  have h2 := Ctor.hasMove_of_copy (a := a)
  rw [hm, hm', hc, hc']
  refine ⟨?_, ?_, ?_, ?_, ?_⟩
  · rw [Ctor.construct_any (b := a) (r := 0) rfl rfl]
    cases a.hasCopy <;> simp
  · rw [Ctor.construct_any (b := a) (r := 0) rfl rfl]
    cases hx : a.hasMove <;> cases hy : a.hasCopy <;> simp
  · rw [Ctor.assign_same (r := 0) rfl]
    cases a.hasCopy <;> simp
  · rw [Ctor.assign_same (r := 0) rfl]
    cases hx : a.hasMove <;> cases hy : a.hasCopy <;> simp
  · rw [Ctor.C73_empty_braces]
    simp [Ctor.AnyTy.hasMove, Ctor.hasMoveMethod_iff]
end AnyAny.AllocReq
