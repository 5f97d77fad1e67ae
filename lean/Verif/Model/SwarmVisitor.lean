/-
Which visitors `variant_swarm` accepts: the concept `visitor_for` (include/anyany/variant_swarm.hpp:28-31) and the overloads of `visit`
(136-151, 187-202), `visit_all` (152-159, 203-210) and `visit_copy` (161-178, 212-228), which all come down to `visit`.

Simplified: the visitor itself is called in the same way wherever it is called (its own constness and value category do not matter), and
what it returns is not looked at.
-/
namespace AnyAny.SwarmVisitor

variable {n : Nat}

/-- An expression denoting a value of one of the types. Language rule, for the calls at variant_swarm.hpp:139-145. -/
structure Expr where
  const : Bool
  lvalue : Bool
  deriving DecidableEq, Repr

/-- A visitor: for every type the arguments it can be called with. The argument of `visit` (variant_swarm.hpp:138). -/
abbrev Visitor (n : Nat) := Fin n → Expr → Bool

/-- `visitor_for<Types...>` (variant_swarm.hpp:28-31): `std::invocable<T, Ts>` calls with an rvalue. `const`: for `const Types...`. -/
def visitorFor (v : Visitor n) (const : Bool) (types : List (Fin n)) : Bool := types.all fun i => v i ⟨const, false⟩

/-- The values of a container: lvalues, const in a const container, and always const in containers such as `std::set` (`fixed`). The
argument of the call at variant_swarm.hpp:139-145, 190-196. -/
def elemOf (fixed : Fin n → Bool) (const : Bool) (i : Fin n) : Expr := ⟨const || fixed i, true⟩

/-- Does the body compile, that is, can the visitor be called with the values of the containers? (variant_swarm.hpp:139-145, 190-196.) -/
def bodyCompiles (fixed : Fin n → Bool) (v : Visitor n) (const : Bool) (types : List (Fin n)) : Bool :=
  types.all fun i => v i (elemOf fixed const i)

/-- The overload of `visit<Types...>(v)` that is called, as the constness of its object: the one for non-const swarms (variant_swarm.hpp:136-146) if the swarm is not
const and the visitor satisfies the constraint, else the const one (187-197). `none`: no overload. -/
def overload (v : Visitor n) (const : Bool) (types : List (Fin n)) : Option Bool :=
  if !const && visitorFor v false types then some false
  else if visitorFor v true types then some true
  else none

/-- Does `swarm.visit<Types...>(v)` compile? (variant_swarm.hpp:136-151, 187-202.) -/
def compiles (fixed : Fin n → Bool) (v : Visitor n) (const : Bool) (types : List (Fin n)) : Bool :=
  match overload v const types with
  | some c => bodyCompiles fixed v c types
  | none => false

/-- Is the call well-formed as far as overload resolution is concerned (what a `requires` of the user tests)? (variant_swarm.hpp:136-151, 187-202.) -/
def accepted (v : Visitor n) (const : Bool) (types : List (Fin n)) : Bool := (overload v const types).isSome

/-! ### Functions with one parameter per type -/

/-- Parameters: `T` (`copyable`: or only movable), `T&`, `const T&`, `T&&`, `auto&&`. Language rule, for visitors as in
variant_swarm.hpp:138. -/
inductive Param where
  | value (copyable : Bool)
  | lref
  | clref
  | rref
  | any
  deriving DecidableEq, Repr

/-- The arguments a parameter accepts. Language rule ([dcl.init.ref]). -/
def Param.accepts : Param → Expr → Bool
  | .value copyable, e => copyable || (!e.const && !e.lvalue)
  | .lref, e => !e.const && e.lvalue
  | .clref, _ => true
  | .rref, e => !e.const && !e.lvalue
  | .any, _ => true

end AnyAny.SwarmVisitor
