import Verif.Spec.DpvHist
/-
What iterators and references to elements of `std::vector<T>` refer to after an operation (C++ standard, [container.reqmts],
[vector.modifiers]).
-/
namespace AnyAny.Dpv

variable {n : Nat} {V : Fin n → Type}

/-- An iterator to the element `k` of the container `d`, after an operation that does not reallocate: `none` if it is invalid, otherwise the
container and position of the element it refers to. -/
def vecRef (S : SVecs V) (op : Op V) (d k : Nat) : Option (Nat × Nat) :=
  match op with
  | .swap a b => if d = a then some (b, k) else if d = b then some (a, k) else some (d, k)
  | .moveCtor a s => if d = s then some (a, k) else some (d, k)
  | .moveAssign a s => if a = s then some (d, k) else if d = a then none else if d = s then some (a, k) else some (d, k)
  | .dtor a | .copyAssign a _ | .assignCount a _ _ _ | .assignRange a _ _ _ | .clear a => if d = a then none else some (d, k)
  | .emplace a i _ | .insertVal a i _ | .insertCount a i _ _ | .insertRange a i _ _ | .erase a i =>
    if d = a ∧ i ≤ k then none else some (d, k)
  | .popBack a => if d = a ∧ (S a).map (·.length) = some (k + 1) then none else some (d, k)
  | .resize a c | .resizeVal a c _ => if d = a ∧ c ≤ k then none else some (d, k)
  | _ => some (d, k)

/-- The operation writes to the element `k` of `d`. -/
def writes (op : Op V) (d k : Nat) : Prop :=
  match op with
  | .assignElem a i _ | .assignRef a i _ _ | .iterMove a i | .setField a i _ _ => a = d ∧ i = k
  | .swapRef a i b j => a = d ∧ i = k ∨ b = d ∧ j = k
  | _ => False

/-- Operations that exchange or take over the buffers of other containers. -/
def takesOver : Op V → Bool
  | .swap _ _ | .moveCtor _ _ | .moveAssign _ _ => true
  | _ => false

end AnyAny.Dpv
