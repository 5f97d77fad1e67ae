import Verif.Model.Poly
/-
`std::atomic<poly_ptr<...>>`, `std::atomic<const_poly_ptr<...>>` (README.md:442: "are trivially copyable, so `std::atomic<poly_ptr<...>>` works"). The members of the
pointers are the vtable pointer or the one function pointer of the vtable (include/anyany/anyany.hpp:532-559) and `value_ptr` (567, 614); `std::atomic` compares object
representations ([atomics.types.operations]), which for two members of the size of pointers are those of the members.
-/
namespace AnyAny.Poly

/-- The same bytes. Distinct functions and distinct vtables have distinct addresses. `std::atomic`
    is not part of the library; the copied members are at anyany.hpp:532-559, 567, 614. -/
def sameBytes (o o' : RefObj) : Bool := o.view == o'.view && o.val == o'.val

/-- `at.load()`, stored in the variable `r`, and `at.store(src)` are copies. `std::atomic` is not
    part of the library; the copied members are at anyany.hpp:532-559, 567, 614. -/
def atomicLoad (r at_ : Nat) : PM Unit := do
  let o ← getRef (.var at_)
  setRef (.var r) (some o)
/-- The same for `store`. `std::atomic` is not part of the library; the copied members are at
    anyany.hpp:532-559, 567, 614. -/
def atomicStore (at_ src : Nat) : PM Unit := do
  let o ← getRef (.var src)
  setRef (.var at_) (some o)

/-- `at.compare_exchange_strong(expected, desired)`; `desired` is a parameter by value.
    `std::atomic` is not part of the library; the copied members are at anyany.hpp:532-559, 567,
    614. -/
def compareExchange (at_ expected desired : Nat) : PM Bool := do
  let d ← getRef (.var desired)
  let a ← getRef (.var at_)
  let e ← getRef (.var expected)
  if sameBytes a e then do
    setRef (.var at_) (some d)
    pure true
  else do
    setRef (.var expected) (some a)
    pure false

end AnyAny.Poly
