import Verif.Model.Methods
/-
Model of the types of `aa::any_cast<T>` (include/anyany/anyany.hpp:1570-1691) with the default traits: which overload a call selects, what it
returns, and what the result is when the object has some dynamic type. Where the object lies, and what happens to it, is modelled in Model/AnyMem.lean
and Model/Poly.lean.

Function types as `T` are left out (for anys, `std::launder` rejects them, 1584, 1590). For an array type, `const` belongs to the elements and is
part of the element type; so `Target.const` is `false` for arrays.
-/
namespace AnyAny.AnyCast
open AnyAny.Methods

/-- References. The reference kinds `any_cast_fn` distinguishes (anyany.hpp:1617-1624, 1643-1645).
    -/
inductive Ref where
  | none | lvalue | rvalue
deriving DecidableEq, Repr

/-- The template argument `T` of `any_cast<T>`: `ty`, possibly const, possibly a reference.
    (anyany.hpp:1579-1582.) -/
structure Target where
  ty : Ty
  const : Bool
  ref : Ref
deriving DecidableEq, Repr

/-- The argument of `any_cast`. `const`: a pointer to a const any, a const any, `const_poly_ptr`,
    `const_poly_ref`, `stateful::cref`. The overloads at anyany.hpp:1600-1690. -/
inductive Arg where
  | anyPtr (const : Bool)
  | any (const rvalue : Bool)
  | polyPtr (const : Bool)
  | polyRef (const : Bool)
  | stateful (const : Bool)
deriving DecidableEq, Repr

/-- What `any_cast` returns if the types match, as an access to the object. The results of
    anyany.hpp:1601-1690. -/
inductive Result where
  /-- a pointer to it, maybe to const -/
  | pointer (const : Bool)
  /-- a reference to it -/
  | lref (const : Bool)
  /-- an rvalue reference to it -/
  | rref (const : Bool)
  /-- an object made from it by the copy constructor -/
  | copy
  /-- an object made from it by the move constructor -/
  | move
deriving DecidableEq, Repr

/-- Constness of `X = std::remove_reference_t<T>` reached through a pointer to (const) void:
    `const X*` or `X*`. (anyany.hpp:1582, 1585-1597, 1629-1640.) -/
def ptrConst (t : Target) (argConst : Bool) : Bool := t.const || argConst

/-- A value `remove_cvref_t<T>(*ptr)`, `remove_cvref_t<T>(std::move(*ptr))` or `return *ptr` with a value as result type: there are no values
of array types; a const object is copied even by `std::move`. (anyany.hpp:1621-1624, 1650, 1669.)
  -/
def value (copyable movable : Ty → Bool) (ty : Ty) (const moved : Bool) : Option Result :=
  if ty.isArray then none
  else if moved && !const then (if movable ty then some .move else none)
  else if copyable ty then some .copy else none

/-- `any_cast<T>` of a reference with an interface: for `poly_ref` (1643-1652) the result type is `remove_cvref_t<T>` if `T` is an rvalue
reference, `T` if it is an lvalue reference, otherwise `remove_cv_t<T>`; for `const_poly_ref` (1664-1674) it is `const X&` if `T` is a reference,
otherwise `remove_cv_t<T>`. -/
def refResult (copyable movable : Ty → Bool) (t : Target) (const : Bool) : Option Result :=
  match t.ref with
  | .lvalue => some (.lref (ptrConst t const))
  | .rvalue => if const then some (.lref true) else value copyable movable t.ty (ptrConst t const) false
  | .none => value copyable movable t.ty (ptrConst t const) false

/-- The result of `any_cast<T>` for matching types (the pointer forms 1594-1601, 1631-1642; anys 1602-1620; references 1643-1683; `stateful::ref` and
`stateful::cref` 1684-1691 use their views). `none`: does not compile. -/
def result (copyable movable : Ty → Bool) (t : Target) : Arg → Option Result
  | .anyPtr c => some (.pointer (ptrConst t c))
  | .polyPtr c => some (.pointer (ptrConst t c))
  | .any c rv =>
    match t.ref, rv with
    | .lvalue, _ => some (.lref (ptrConst t c))
    | .rvalue, true => some (.rref (ptrConst t c))
    | _, rv => value copyable movable t.ty (ptrConst t c) rv
  | .polyRef c => refResult copyable movable t c
  | .stateful c => refResult copyable movable t c

/-- The outcome of a call. `nullptr` at anyany.hpp:1588, 1594, 1632, 1638; `bad_cast` at 1612,
    1649, 1668. -/
inductive Outcome where
  /-- it does not compile -/
  | illFormed
  /-- null (pointer forms) -/
  | null
  /-- it throws `bad_cast` -/
  | badCast
  /-- the result accesses an object of type `object` as one of type `asTy` -/
  | access (r : Result) (object asTy : Ty)
deriving DecidableEq, Repr

/-- The overloads that take a pointer (anyany.hpp:1600-1607, 1629-1640). -/
def Arg.isPointer : Arg → Bool
  | .anyPtr _ | .polyPtr _ => true
  | _ => false

/-- `any_cast<T>(arg)` (1579-1691), `o` what the argument contains, refers or points to (`none`: nothing). The dynamic type is compared with
`descriptor_v<T>` (type_descriptor.hpp:70-72), the descriptor of the *decayed* `T`; the address is cast to `X*`, `X` being `T` without
reference. -/
def cast (copyable movable : Ty → Bool) (t : Target) (arg : Arg) (o : Option Made) : Outcome :=
  match result copyable movable t arg with
  | none => .illFormed
  | some r =>
    match o with
    | some o => if o.entries = t.ty.decay then .access r o.object t.ty else if arg.isPointer then .null else .badCast
    | none => if arg.isPointer then .null else .badCast

end AnyAny.AnyCast
