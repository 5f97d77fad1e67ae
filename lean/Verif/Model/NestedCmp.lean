import Verif.Model.Nested
import Verif.Model.Compare
/-
Comparison and hash of anys whose values have anys in them: a node with a member `std::vector<Any>` and defaulted `operator==` / `operator<=>`. The functions call
each other as the code does: the operator of the any (include/anyany/anyany.hpp:1806-1817, 1852-1869) calls that of the value through the vtable
(1786-1789, 1833-1836), that one the operator of `std::vector`, and that one the operator of the anys again. The operands are what the anys hold (C04); references
compare as the value they refer to. Comparing data does not throw.
-/
namespace AnyAny.Nested
open AnyAny.Poly (PO)

/-- What the types do with the data of their values (the members that are not anys): `==`, `<=>`, and `std::hash` of the whole value from its data and the
hashes of its anys. Code of the user, called at anyany.hpp:1788, 1835, 348. -/
structure Fns where
  eq : Nat → Nat → Nat → Bool
  cmp : Nat → Nat → Nat → PO
  hash : Nat → Nat → List Nat → Nat

mutual
/-- `equal_to::plugin::operator==` (anyany.hpp:1806-1817): two tests of `has_value()`, then the descriptors, then the value's operator. -/
def anyEq (F : Fns) : Option Val → Option Val → Bool
  | none, none => true
  | none, some _ => false
  | some _, none => false
  | some l, some r => valEq F l r

/-- `desc == right_desc && fn(left, right)` (anyany.hpp:1816) with the defaulted `operator==` of the type behind `fn` (1786-1789): the data, then the vector
of anys. `std::vector::operator==` compares the sizes before the elements. -/
def valEq (F : Fns) : Val → Val → Bool
  | .mk t x xs, .mk u y ys => if t = u then F.eq t x y && (xs.length == ys.length && elemsEq F xs ys) else false

/-- `std::equal` of the elements, which are anys: their `operator==` (anyany.hpp:1806-1817) until one is false. -/
def elemsEq (F : Fns) : List (Option Val) → List (Option Val) → Bool
  | x :: xs, y :: ys => anyEq F x y && elemsEq F xs ys
  | _, _ => true
end

mutual
/-- `spaceship::plugin::operator<=>` (anyany.hpp:1856-1869). Only the left operand is tested for emptiness; `none` is the undefined behaviour of reading the
vtable of an empty right operand (1864). -/
def anyCmp (F : Fns) : Option Val → Option Val → Option PO
  | none, none => some .equivalent
  | none, some _ => some .unordered
  | some _, none => none
  | some l, some r => valCmp F l r

/-- The descriptors (anyany.hpp:1866-1867), then the defaulted `operator<=>` of the type behind `fn` (1833-1836): the data, then the vector of anys. -/
def valCmp (F : Fns) : Val → Val → Option PO
  | .mk t x xs, .mk u y ys =>
    if t ≠ u then some .unordered
    else match F.cmp t x y with
      | .equivalent => elemsCmp F xs ys
      | c => some c

/-- `operator<=>` of `std::vector`, `std::lexicographical_compare_three_way`, of the anys in it: their `operator<=>` (anyany.hpp:1856-1869) until one is not `== 0`. -/
def elemsCmp (F : Fns) : List (Option Val) → List (Option Val) → Option PO
  | [], [] => some .equivalent
  | [], _ :: _ => some .less
  | _ :: _, [] => some .greater
  | x :: xs, y :: ys =>
    match anyCmp F x y with
    | some .equivalent => elemsCmp F xs ys
    | c => c
end

/-- `spaceship::plugin::operator==` (anyany.hpp:1852-1855). -/
def anyCmpEq (F : Fns) (l r : Option Val) : Option Bool := (anyCmp F l r).map fun c => c == .equivalent

mutual
/-- `std::hash` of an any (anyany.hpp:1979-1985). -/
def anyHash (F : Fns) : Option Val → Nat
  | none => 0
  | some v => valHash F v

/-- `aa::hash` (anyany.hpp:344-350) calls `std::hash` of the type, that uses the hashes of the anys. -/
def valHash (F : Fns) : Val → Nat
  | .mk t x xs => F.hash t x (elemsHash F xs)

/-- The hashes of the anys in a value (anyany.hpp:1979-1985). -/
def elemsHash (F : Fns) : List (Option Val) → List Nat
  | [] => []
  | x :: xs => anyHash F x :: elemsHash F xs
end

end AnyAny.Nested
