import Verif.Model.DpvViews
/-
What views by type should be.
-/
namespace AnyAny.Dpv

variable {n : Nat} {F : Type}

/-- Field `j` is the only one of type `x`. -/
def OnlyField (T : Types n F) (x : F) (j : Fin n) : Prop := ∀ k, T.ty k = x ↔ k = j

/-- The user does not name the internal type `noexport::bool_`. -/
def NoInternal (T : Types n F) (xs : List (TArg F)) : Prop := T.boolT ≠ T.boolU ∧ (∀ j, T.ty j ≠ T.boolU) ∧ ∀ x ∈ xs, x.ty ≠ T.boolU

end AnyAny.Dpv
