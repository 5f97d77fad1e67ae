/-
`insert(first, last)` of a `variant_swarm`, with iterators: include/anyany/variant_swarm.hpp:63-75, with `std::vector`s as containers
(noexport/variant_swarm_details.hpp:12-14).
-/
namespace AnyAny.SwarmRange

/-- Types: a type of the user, or the container of a type. -/
inductive Ty where
  | user (n : Nat)
  | container (t : Ty)
  deriving DecidableEq, Repr

/-- The conversions of objects there are: making an object of the first type from one of the second. Objects are numbers; the same type:
the same number. -/
structure World where
  conv : Ty → Ty → Option (Nat → Nat)
  same : ∀ t, conv t t = some id

/-- `std::get<T>(tuple)`: compiles if the type is among those of the tuple precisely once. Standard library, used at
variant_swarm.hpp:67. -/
def getByType (t : Ty) (ts : List Ty) : Option Nat :=
  if ts.count t = 1 then some (ts.idxOf t) else none

/-- The types of the containers (variant_swarm.hpp:36-45). -/
def containers (ts : List Ty) : List Ty := ts.map .container

/-- `std::ranges::range_value_t<Container<T>>` (variant_swarm.hpp:65). -/
def valueType : Ty → Ty
  | .container t => t
  | t => t

/-- `insert(it, sent)` (variant_swarm.hpp:64-73): the range has elements of type `v`. `none`: does not compile. The containers have the
objects `s`, in the order of the types. Simplified: `c.insert(it, sent)` is taken to be no call of `std::vector::insert(position, value)`
(line 67), as the iterators are none of the vector `c`. -/
def insertRange (W : World) (ts : List Ty) (v : Ty) (xs : List Nat) (s : List (List Nat)) : Option (List (List Nat)) :=
  if v ∈ (containers ts).map valueType then
    match getByType v (containers ts) with
    | none => none
    | some i =>
      match ts[i]? with
      | none => none
      | some t =>
        match W.conv t v with
        | none => none
        | some f => some (s.modify i (· ++ xs.map f))
  else none

end AnyAny.SwarmRange
