import Verif.Model.AnyMem
/-
A `std::vector` of anys that grows (`reserve`, `push_back` beyond the capacity). The growth itself is code
of the standard library; what is modelled of the repository is the choice it makes from the declarations
of the constructors of `basic_any` (anyany.hpp:1198 and 1215), and the constructors and the destructor it
then calls (Model/AnyMem.lean).
-/
namespace AnyAny.Mem
variable (cfg : Cfg)

/-- `std::is_nothrow_move_constructible_v<basic_any>`: the exception specification
`noexcept(movable_alloc())` of the move constructor (anyany.hpp:1215). -/
def nothrowMoveCtor : Bool := movableAlloc cfg

/-- `std::is_copy_constructible_v<basic_any>`: `requires(has_copy)` (anyany.hpp:1198, `has_copy` is
anyany.hpp:1164). Simplified: the C++20 mode. -/
def copyConstructible (ms : List Method) : Bool := decide (.copy 0 ∈ ms)

/-- `std::move_if_noexcept` ([utility] of the standard; no code of the library): elements are moved if the
move constructor is declared not to throw, or if they cannot be copied. -/
def growsByMoving (ms : List Method) : Bool := nothrowMoveCtor cfg || !copyConstructible ms

/-- One element is constructed in the new storage from the one in the old: `basic_any(basic_any&&)`
(anyany.hpp:1215-1218) or `basic_any(const basic_any&)` (1198-1209). -/
def growOne (ms : List Method) (n o : Nat) : M Unit :=
  if growsByMoving cfg ms then moveCtor cfg n o else copyCtor cfg n ms o

/-- The elements are constructed in the new storage in order; if a constructor throws, those already
constructed are destroyed and the exception leaves (semantics of `std::vector`, no code of the library).
A pair: the address in the new storage, the address in the old. -/
def growCtors (ms : List Method) : List (Nat × Nat) → M Unit
  | [] => pure ()
  | (n, o) :: ps => do
    growOne cfg ms n o
    onFail (growCtors ms ps) (destructor cfg n)

/-- The elements of the old storage are destroyed (semantics of `std::vector`, no code of the library;
destructor anyany.hpp:1192-1194). -/
def destroyAll : List Nat → M Unit
  | [] => pure ()
  | o :: os => do destructor cfg o; destroyAll os

/-- Growth of a `std::vector<basic_any<...>>` (no code of the library). -/
def growVector (ms : List Method) (ps : List (Nat × Nat)) : M Unit := do
  growCtors cfg ms ps
  destroyAll cfg (ps.map (·.2))

end AnyAny.Mem
