/-
Which container `swarm.insert(x)` puts `x` in: overload resolution over `insert(value_t&&)` and `insert(const value_t&)` for every type
(include/anyany/noexport/variant_swarm_details.hpp:42-47, 66-70; include/anyany/variant_swarm.hpp:75-76). The other overloads take initialiser lists
(48-56) or two arguments and are not viable for one argument `x` that is not braced and not a `std::initializer_list`.

Types are numbers. Conversions are those of the language, given by the classes in question: a parameter of the model.
-/
namespace AnyAny.SwarmInsert

/-- An implicit conversion sequence: a standard conversion of a rank (0: identity; smaller is better), or a user-defined conversion by the constructor or
conversion function `f` followed by a standard conversion. No code of its own; used for the
  overloads of `insert` at variant_swarm_details.hpp:42-47. -/
inductive Ics where
  | std (rank : Nat)
  | user (f rank : Nat)
deriving DecidableEq, Repr

/-- [over.ics.rank] for different target types: standard conversions by rank, before user-defined
    ones, which can be compared only if they use the same function. No code of its own; used for
    the overloads of `insert` at variant_swarm_details.hpp:42-47. -/
def Ics.better : Ics → Ics → Bool
  | .std r, .std r' => r < r'
  | .std _, .user _ _ => true
  | .user _ _, .std _ => false
  | .user f r, .user f' r' => f == f' && r < r'

/-- The same sequence up to what a reference binds to. No code of its own; used for the overloads
    of `insert` at variant_swarm_details.hpp:42-47. -/
def Ics.same : Ics → Ics → Bool
  | .std r, .std r' => r == r'
  | .user f r, .user f' r' => f == f' && r == r'
  | _, _ => false

/-- What conversions there are: from an expression of type `t` to `u`, and is `u` a base class of
    `t`? No code of its own; used for the overloads of `insert` at
    variant_swarm_details.hpp:42-47. -/
structure Lang where
  conv : Nat → Nat → Option Ics
  base : Nat → Nat → Bool

/-- The argument: its type and value category. No code of its own; used for the overloads of
    `insert` at variant_swarm_details.hpp:42-47. -/
structure Arg where
  ty : Nat
  isConst : Bool
  rvalue : Bool
deriving DecidableEq, Repr

/-- `insert(value_t&&)` or `insert(const value_t&)`. (variant_swarm_details.hpp:42-47.) -/
inductive Par where
  | rref
  | cref
deriving DecidableEq, Repr

/-- A viable overload: the number of the type, the parameter (variant_swarm_details.hpp:42-47),
    the conversion. -/
structure Cand where
  idx : Nat
  par : Par
  ics : Ics
deriving DecidableEq, Repr

variable (L : Lang)

/-- The conversion of the argument to the parameter, if there is one. A reference binds to the argument itself if this has the type or a class derived from
it, an rvalue reference then only to an rvalue that is not const; otherwise it binds to a
  temporary ([dcl.init.ref]). No code of its own; used for the overloads of `insert` at
  variant_swarm_details.hpp:42-47. -/
def viable (x : Arg) (u : Nat) (p : Par) : Option Ics :=
  if u = x.ty then
    (if p = .cref ∨ (x.rvalue = true ∧ x.isConst = false) then some (.std 0) else none)
  else
    match L.conv x.ty u with
    | none => none
    | some c => if L.base x.ty u = true ∧ p = .rref ∧ ¬ (x.rvalue = true ∧ x.isConst = false) then none else some c

/-- The candidates, for the types from number `i` on. No code of its own; used for the overloads
    of `insert` at variant_swarm_details.hpp:42-47. -/
def candidates (x : Arg) (i : Nat) : List Nat → List Cand
  | [] => []
  | u :: ts =>
    ((viable L x u .rref).toList.map fun c => ⟨i, .rref, c⟩) ++ ((viable L x u .cref).toList.map fun c => ⟨i, .cref, c⟩) ++
      candidates x (i + 1) ts

/-- [over.match.best]: a better conversion, or the same and an rvalue reference, which is bound to an rvalue, instead of an lvalue reference
([over.ics.rank] 3.2.3). No code of its own; used for the overloads of `insert` at
  variant_swarm_details.hpp:42-47. -/
def Cand.better (a b : Cand) : Bool :=
  a.ics.better b.ics || (a.ics.same b.ics && a.par == .rref && b.par == .cref)

/-- The overload that `insert(x)` calls: the number of the type, and whether the value is moved from (`insert(value_t&&)`, variant_swarm_details.hpp:42-44) or
copied (45-47). `none`: no viable overload, or ambiguous. -/
def resolve (ts : List Nat) (x : Arg) : Option (Nat × Par) :=
  ((candidates L x 0 ts).find? fun a => (candidates L x 0 ts).all fun b => a == b || a.better b).map fun a => (a.idx, a.par)

end AnyAny.SwarmInsert
