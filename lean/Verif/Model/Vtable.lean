import Verif.Model.TypeList
/-
Model of vtables as values: `vtable::change` and `vtable::invoke` (include/anyany/anyany.hpp:354-404), and
of their layout in memory (noexport/anyany_details.hpp:30-52).
-/
namespace AnyAny.Vtable
open AnyAny.TypeList (numberOfFirst findSubsequence)

variable {M V : Type} [DecidableEq M]

/-- `change_impl<Method>` (anyany.hpp:363-378): for each entry, `do_change_one<is_same_v<Method, Methods>>`.
`ms` are the methods of the table, `es` its entries in order. -/
def changeImpl (m : M) (v : V) : List M → List V → List V
  | x :: ms, e :: es => (if m = x then v else e) :: changeImpl m v ms es
  | _, es => es

/-- `change<Method>(new_value)` (anyany.hpp:381-384). -/
def change (ms : List M) (m : M) (v : V) (es : List V) : List V := changeImpl m v ms es

/-- `invoke<Method>()` (anyany.hpp:387-403): `get<number_of_first<Method, Methods...>>(*this)`; `none`: the
`static_assert(has_method<Method>)` fails. -/
def invoke (ms : List M) (es : List V) (m : M) : Option V :=
  (numberOfFirst m ms).bind fun i => es[i]?

/-- Size and alignment of an entry type. The members at noexport/anyany_details.hpp:30-34. -/
structure Entry where
  size : Nat
  align : Nat
  alignPos : 0 < align

/-- The next multiple of `a`. Language rule, no code of the library; for the layout of
    noexport/anyany_details.hpp:35-52. -/
def roundUp (x a : Nat) : Nat := (x + a - 1) / a * a

/-- Offsets of the base classes `value_in_tuple<Ts, Is>...` of `tuple_base` (noexport/anyany_details.hpp:35-52)
in an object, the first at or after `start`: one after the other, each at the next suitably aligned offset.
(Layout of the Itanium ABI for bases whose tail padding is not reused.) -/
def offsets (start : Nat) : List Entry → List Nat
  | [] => []
  | e :: es => roundUp start e.align :: offsets (roundUp start e.align + e.size) es

/-- Offset in the full table of the address that `subtable_ptr` computes (anyany.hpp:424-427):
`std::addressof(get<Index>(*ptr))`. -/
def subtableOffset (full : List Entry) (index : Nat) : Option Nat := (offsets 0 full)[index]?

/-- Where entry `j` of the free-standing `vtable<ToMethods...>` lies, relative to its address.
    `vtable<ToMethods...>` at anyany.hpp:420-428. -/
def entryOffset (sub : List Entry) (j : Nat) : Option Nat := (offsets 0 sub)[j]?

end AnyAny.Vtable
