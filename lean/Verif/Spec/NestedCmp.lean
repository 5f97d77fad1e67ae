import Verif.Model.NestedCmp
/-
What comparison of anys with anys in their values should be, without recursion over the values: a value is written out as a text, in which every any that is met
is one sign, and texts are compared sign by sign.
-/
namespace AnyAny.Nested
open AnyAny.Poly (PO)

/-- The signs: an empty any, an any with a value of type `ty` with data `data` (its anys follow), and the end of the anys of a value. -/
inductive Sign where
  | empty
  | value (ty data : Nat)
  | stop
deriving DecidableEq, Repr

mutual
/-- An any written out. -/
def text : Option Val → List Sign
  | none => [.empty]
  | some v => textVal v

def textVal : Val → List Sign
  | .mk t x xs => .value t x :: textElems xs

def textElems : List (Option Val) → List Sign
  | [] => [.stop]
  | x :: xs => text x ++ textElems xs
end

/-- Signs that are equal, for the `==` of the types. -/
def Sign.same (F : Fns) : Sign → Sign → Prop
  | .empty, .empty => True
  | .stop, .stop => True
  | .value t x, .value u y => t = u ∧ F.eq t x y = true
  | _, _ => False

/-- How two signs compare. Empty anys are not ordered with anys that have values, values of different types are not ordered, a shorter vector is less. -/
def Sign.cmp (F : Fns) : Sign → Sign → PO
  | .empty, .empty => .equivalent
  | .stop, .stop => .equivalent
  | .value t x, .value u y => if t = u then F.cmp t x y else .unordered
  | .stop, _ => .less
  | _, .stop => .greater
  | _, _ => .unordered

/-- The result of `std::partial_ordering` with the operands exchanged. -/
def rev : PO → PO
  | .less => .greater
  | .greater => .less
  | c => c

/-- The first place at which the signs are not equivalent decides. -/
def Decides (F : Fns) (l r : List Sign) (i : Nat) (a b : Sign) : Prop :=
  l[i]? = some a ∧ r[i]? = some b ∧ Sign.cmp F a b ≠ .equivalent ∧
    ∀ j < i, ∃ c d, l[j]? = some c ∧ r[j]? = some d ∧ Sign.cmp F c d = .equivalent

/-- The texts compare with result `o`. -/
def Compares (F : Fns) (l r : List Sign) (o : PO) : Prop :=
  (o = .equivalent ∧ l.length = r.length ∧ ∀ (i : Nat) a b, l[i]? = some a → r[i]? = some b → Sign.cmp F a b = .equivalent) ∨
  (∃ i a b, Decides F l r i a b ∧ o = Sign.cmp F a b)

end AnyAny.Nested
