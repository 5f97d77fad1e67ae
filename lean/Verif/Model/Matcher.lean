/-
`aa::matcher` (include/anyany/utility.hpp:271-278): a class that derives from function objects and has all their `operator()` as its own.
Functions take their parameters by value, each of a type or `auto` (lambdas).
-/
namespace AnyAny.Matcher

/-- Types of arguments. Language, no code of the library; used for the functions of utility.hpp:273-276. -/
abbrev Ty := Nat

/-- A parameter. Language, as above (utility.hpp:267-268). -/
inductive Param where
  | auto
  | ty (t : Ty)
  deriving DecidableEq, Repr

/-- A function object: the parameters of its `operator()`; can it be a base class (function pointers and final classes cannot)?
(utility.hpp:273-274.) -/
structure Fn where
  params : List Param
  base : Bool := true
  deriving DecidableEq, Repr

/-- Conversions between types, by rank: 0 none needed, 1 promotions, 2 standard conversions, 3 user-defined ones. Language rule, no code of
the library. -/
abbrev Conv := Ty → Ty → Option Nat

/-- The conversion of an argument to a parameter; `auto` takes it as it is. Language rule, no code of the library. -/
def ics (conv : Conv) (t : Ty) : Param → Option Nat
  | .auto => some 0
  | .ty u => conv t u

/-- The conversions of all arguments; `none`: the function cannot be called with them. Language rule, no code of the library. -/
def icss (conv : Conv) : List Ty → List Param → Option (List Nat)
  | [], [] => some []
  | t :: ts, p :: ps =>
    match ics conv t p, icss conv ts ps with
    | some r, some rs => some (r :: rs)
    | _, _ => none
  | _, _ => none

/-- No conversion is worse. Language rule, no code of the library. -/
def noWorse : List Nat → List Nat → Bool
  | r :: rs, s :: ss => decide (r ≤ s) && noWorse rs ss
  | _, _ => true

/-- Is the function a template? Language rule, no code of the library. -/
def isTemplate (ps : List Param) : Bool := ps.contains .auto

/-- Partial ordering of templates: at least as specialised. Language rule, no code of the library. -/
def atLeast : List Param → List Param → Bool
  | p :: ps, q :: qs => (q == .auto || p == q) && atLeast ps qs
  | _, _ => true

/-- A function is better than another for these conversions: [over.match.best]. Language rule, no code of the library. -/
def better (ps : List Param) (rs : List Nat) (qs : List Param) (ss : List Nat) : Bool :=
  noWorse rs ss &&
    (!noWorse ss rs ||
     (!isTemplate ps && isTemplate qs) ||
     (isTemplate ps && isTemplate qs && atLeast ps qs && !atLeast qs ps))

/-- The functions that are found by `m(args...)`: those of all bases, because of `using Foos::operator()...` (utility.hpp:274-275). Without it the
name would be ambiguous between the bases. -/
def candidates (fs : List Fn) : List (List Param) := fs.map (·.params)

/-- `aa::matcher{fs...}` compiles (utility.hpp:273-278): the function objects can be bases, and no two using-declarations declare the same
function. -/
def compiles (fs : List Fn) : Bool :=
  fs.all (·.base) && (List.range fs.length).all fun i => (List.range fs.length).all fun j =>
    i == j || (candidates fs)[i]? != (candidates fs)[j]?

/-- Is candidate `i` better than all others that can be called? Language rule, no code of the library. -/
def best (conv : Conv) (cs : List (List Param)) (ts : List Ty) (i : Nat) : Bool :=
  match cs[i]? with
  | none => false
  | some ps =>
    match icss conv ts ps with
    | none => false
    | some rs => (List.range cs.length).all fun j =>
      i == j ||
        match cs[j]? with
        | none => true
        | some qs =>
          match icss conv ts qs with
          | none => true
          | some ss => better ps rs qs ss

/-- `aa::matcher{fs...}(args...)` for arguments of these types: which function is called; `none`: the call does not compile
(utility.hpp:273-278). -/
def call (conv : Conv) (fs : List Fn) (ts : List Ty) : Option Nat :=
  if compiles fs then (List.range fs.length).find? (best conv (candidates fs) ts) else none

/-- `std::visit(m, vs...)` compiles if `m` can be called with all combinations of the alternatives (`std::visit`, [variant.visit]; utility.hpp:264-270). -/
def visitCompiles (conv : Conv) (fs : List Fn) : List (List Ty) → List Ty → Bool
  | [], ts => (call conv fs ts.reverse).isSome
  | alts :: rest, ts => alts.all fun t => visitCompiles conv fs rest (t :: ts)

end AnyAny.Matcher
