import Verif.Model.DpvKeep
/-
How many elements there are after the operations (C134), and what a `std::vector` does with its memory.
-/
namespace AnyAny.DpvKeep

/-- The number of elements after the operation, if there were `n`. -/
def sizeAfter : Op → Nat → Nat
  | .reserve _, n => n
  | .pushBack, n => n + 1
  | .insert, n => n + 1
  | .insertCount m, n => n + m
  | .insertRange _ _ m, n => n + m
  | .resize m, _ => m
  | .popBack, n => n - 1
  | .erase, n => n - 1
  | .clear, _ => 0
  | .assignCount m, _ => m
  | .assignRange _ m, _ => m

/-- For how many elements the operation needs memory. -/
def need : Op → Nat → Nat
  | .reserve n, _ => n
  | o, n => sizeAfter o n

/-- No operation of the program needs memory for more than `n` elements, if there are `len` at first. -/
def Fits (n : Nat) : List Op → Nat → Prop
  | [], _ => True
  | o :: ops, len => need o len ≤ n ∧ Fits n ops (sizeAfter o len)

/-- Does the operation replace all elements by others? -/
def Op.assigns : Op → Bool
  | .assignCount _ => true
  | .assignRange _ _ => true
  | _ => false

/-- `k` times `assign(m, value)`. -/
def rounds (m k : Nat) : List Op := List.replicate k (.assignCount m)

end AnyAny.DpvKeep
