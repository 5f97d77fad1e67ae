import Verif.Model.VisitInvoke
/-
The search in `runtime_const_correctness_check` (include/anyany/visit_invoke.hpp:83-104) of `resolve`: the overload that won is looked up by the
address of its function `match_invoker<F, Ts...>` among the addresses of the functions of all overloads. In C++ different functions have
different addresses; linkers that merge functions with the same code (`/OPT:ICF` of MSVC, `--icf=all` of gold and lld) give some of them the
same one. `fn i` is the address of the function of overload number `i`, of a type `P` of addresses.

Model/VisitInvoke.lean has the same function without the search (`constCheck` of the winner).
-/
namespace AnyAny.Visit

variable {D A P : Type} [DecidableEq D] [DecidableEq P]

/-- The array `m` (visit_invoke.hpp:92-93): for each overload the address of its function, and which of the arguments may be const; the
parameters it does not have may (88-90). -/
def constRows (n : Nat) (fn : Nat → P) (fs : List (Overload D)) : List (P × List Bool) :=
  fs.zipIdx.map fun p =>
    (fn p.2, p.1.params.map (fun p : Param D => isConstArg p.pass) ++ List.replicate (n - p.1.params.length) true)

/-- `runtime_const_correctness_check(overload_winner)` (visit_invoke.hpp:94-103): the first row with this address, and the loop over the
arguments. `none`: there is none, and the end of the array is dereferenced. -/
def constLookup (n : Nat) (fn : Nat → P) (fs : List (Overload D)) (winner : P) (args : List (Arg D A)) : Option Bool :=
  match (constRows n fn fs).find? fun r => r.1 == winner with
  | none => none
  | some r => some ((args.zip r.2).all fun p => !(p.1.isConst && !p.2))

/-- `resolve<Unsafe>(args...)` (visit_invoke.hpp:137-160) with this search. With `Unsafe` the check is in an assertion (151-152). -/
def resolveAt (void : D) (lt : D → D → Bool) (sort : List (List D × Nat) → List (List D × Nat)) (fn : Nat → P) (safe : Bool)
    (fs : List (Overload D)) (args : List (Arg D A)) : Outcome A :=
  let n := argsCount fs
  match find lt (sort (pairs void n fs)) (padKey void n (args.map (·.desc))) with
  | none => .nullopt
  | some i =>
    match fs[i]?, constLookup n fn fs (fn i) args with
    | some f, some true => matchInvoker n i f (args.map (·.addr))
    | some _, some false => if safe then .nullopt else .ub
    | _, _ => .ub

end AnyAny.Visit
