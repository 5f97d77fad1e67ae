import Verif.Model.Compare
import Verif.Model.Descriptor
/-
Comparisons as compiled in C++17, where `AA_HAS_CPP20` is not defined (noexport/file_begin.hpp:3-11): `!=` and the reversed operands of
`==` are written out (include/anyany/anyany.hpp:711-715, 804-808, 1818-1822, 1892-1918; type_descriptor.hpp:52, 64-66;
noexport/type_descriptor_details.hpp:27-29). In C++20 the language makes them from `==`.
-/
namespace AnyAny.Descriptor

/-- `noexport::strcmp` in C++17 (noexport/type_descriptor_details.hpp:22-31): the result is `*l == *r`. -/
def strcmp17 : List Int → List Int → Option Bool
  | l :: ls, r :: rs => if l = r ∧ l ≠ 0 then strcmp17 ls rs else some (l == r)
  | _, _ => none

/-- `descriptor_t::operator==` in C++17 (type_descriptor.hpp:52). -/
def descEq17 (m : Mem) (p q : Nat) : Option Bool := strcmp17 (m p) (m q)

/-- `descriptor_t::operator!=` in C++17 (type_descriptor.hpp:64-66). -/
def descNe17 (m : Mem) (p q : Nat) : Option Bool := (descEq17 m p q).map (!·)

/-- `descriptor_t::operator==` with `ANYANY_ASSUME_NO_DLLS` (type_descriptor.hpp:40-41), in both languages: the descriptor is the address
of a variable template (noexport/type_descriptor_details.hpp:12-14). -/
def descEqPtr (p q : Nat) : Bool := p == q

/-- `descriptor_t::operator<=>` with `ANYANY_ASSUME_NO_DLLS` (type_descriptor.hpp:57-59): addresses as numbers. -/
def descCmpPtr (p q : Nat) : Ordering := compare p q

end AnyAny.Descriptor

namespace AnyAny.Poly

/-- `operator!=(std::nullptr_t)` of pointers in C++17 (anyany.hpp:711-715, 804-808): `!operator==(nullptr)`, and that is `!has_value()`
(708-710, 801-803). -/
def neNull17 (r : RId) : PM Bool := do
  let h ← hasValue r
  pure (!(!h))

/-- `operator==` of pointers in C++17: three overloads as in C++20 (anyany.hpp:1877-1891), and one more for a const pointer on the left and
a mutable one on the right (1893-1897). Operands are passed by value. -/
def ptrEq17 (l r : RId) : PM Bool := do
  let a ← getRef l
  let b ← getRef r
  withTemp a fun x => withTemp b fun y => do
    if a.kind.isConst == b.kind.isConst then ptrEqAt x y
    else if b.kind.isConst then do
      let c ← constPtr x
      withTemp c fun z => withTemp b fun y' => ptrEqAt z y'
    else do
      let c ← constPtr y
      withTemp a fun x' => withTemp c fun z => ptrEqAt x' z

/-- `operator!=` of pointers in C++17: four overloads (anyany.hpp:1898-1917). The mixed ones convert the mutable pointer themselves. -/
def ptrNe17 (l r : RId) : PM Bool := do
  let a ← getRef l
  let b ← getRef r
  withTemp a fun x => withTemp b fun y => do
    if a.kind.isConst == b.kind.isConst then do
      let e ← ptrEq17 x y
      pure (!e)
    else if b.kind.isConst then do
      let c ← constPtr x
      withTemp c fun z => do
        let e ← ptrEq17 z y
        pure (!e)
    else do
      let c ← constPtr y
      withTemp c fun z => do
        let e ← ptrEq17 x z
        pure (!e)

/-- `equal_to::plugin::operator!=` in C++17 (anyany.hpp:1818-1822). -/
def neOp17 (F : CmpFns) (l r : Opd) : PM Bool := do
  let e ← eqOp F l r
  pure (!e)

/-- `l != r` in C++20, for pointers: rewritten to `!(l == r)`. Language rule; no code of the library for the operators at
anyany.hpp:1877-1891. -/
def ptrNe (l r : RId) : PM Bool := do
  let e ← ptrEq l r
  pure (!e)

end AnyAny.Poly
