import Verif.Model.VisitInvoke
/-
What `visit_invoke_fn::resolve` does, step by step (include/anyany/visit_invoke.hpp:83-116, 137-160, noexport/visit_invoke_details.hpp:68-74): the functions of
Model/VisitInvoke.lean again, with a list of what is done on the way.
-/
namespace AnyAny.Visit

variable {D A : Type} [DecidableEq D]

/-- Steps that cost something: the type of argument `k` is asked for (visit_invoke.hpp:145), two keys are compared, one of them number `i` of the table
(noexport/visit_invoke_details.hpp:69-71), the function found is compared with that of overload `i` (visit_invoke.hpp:95-96), the address of argument `k` is asked for,
overload `i` is called (158). -/
inductive Ev where
  | typeOf (k : Nat)
  | compareKeys (i : Nat)
  | comparePointers (i : Nat)
  | addressOf (k : Nat)
  | call (i : Nat)
  deriving DecidableEq, Repr

/-- `std::lower_bound`, with the elements that are compared with the key. Not part of the library; used at noexport/visit_invoke_details.hpp:69. -/
def lowerBoundT (below : Nat → Bool) : (fuel first len : Nat) → Nat × List Nat
  | 0, first, _ => (first, [])
  | fuel + 1, first, len =>
    if len = 0 then (first, [])
    else
      let half := len / 2
      let r := if below (first + half) then lowerBoundT below fuel (first + half + 1) (len - half - 1) else lowerBoundT below fuel first half
      (r.1, (first + half) :: r.2)

/-- `flat_map::find` (noexport/visit_invoke_details.hpp:68-74). -/
def findT {V : Type} (lt : D → D → Bool) (tbl : List (List D × V)) (key : List D) : Option V × List Nat :=
  let r := lowerBoundT (fun i => match tbl[i]? with | some e => keyLt lt e.1 key | none => false) tbl.length 0 tbl.length
  match tbl[r.1]? with
  | none => (none, r.2)
  | some e => (if keyLt lt key e.1 then none else some e.2, r.2 ++ [r.1])

/-- `std::find_if` in `runtime_const_correctness_check` (visit_invoke.hpp:93-96): the overloads `is` in the order of declaration, up to that of the function found (`w`). -/
def findIfT (w : Nat) : List Nat → List Ev
  | [] => []
  | i :: is => .comparePointers i :: if i = w then [] else findIfT w is

/-- `resolve<Unsafe>(args...)` (visit_invoke.hpp:137-160), `asserts`: `NDEBUG` is not defined. The const check (83-104) asks for types only,
not for addresses (98-99). Without `NDEBUG` a failing check ends the program at the assertion (153); with it the overload is called with an argument it must not get. -/
def resolveT (void : D) (lt : D → D → Bool) (sort : List (List D × Nat) → List (List D × Nat)) (safe asserts : Bool) (fs : List (Overload D))
    (args : List (Arg D A)) : Outcome A × List Ev :=
  let n := argsCount fs
  let key := padKey void n (args.map (·.desc))
  let r := findT lt (sort (pairs void n fs)) key
  let looked := (List.range args.length).map Ev.typeOf ++ r.2.map Ev.compareKeys
  match r.1 with
  | none => (.nullopt, looked)
  | some i =>
    match fs[i]? with
    | none => (.ub, looked)
    | some f =>
      let checked := looked ++ if safe || asserts then findIfT i (List.range fs.length) else []
      let ready := checked ++ (List.range args.length).map Ev.addressOf
      if constCheck n f args then
        match matchInvoker n i f (args.map (·.addr)) with
        | .call j as => (.call j as, ready ++ [.call j])
        | o => (o, ready)
      else if safe then (.nullopt, checked)
      else if asserts then (.ub, checked)
      else (.ub, if f.callee = .lambda then ready ++ [.call i] else ready)

end AnyAny.Visit
