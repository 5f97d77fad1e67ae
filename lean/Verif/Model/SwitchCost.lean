/-
What `type_switch` does, step by step (include/anyany/utility.hpp:36-75): the functions of Model/TypeSwitch.lean again, with a list of what is done on the way. `T` is the
dynamic type of the value. Functions have no other effects than their result, `none` if they return `nullopt`.
-/
namespace AnyAny.SwitchCost

/-- Steps that cost something: the type of the value is asked for and compared with `t` (utility.hpp:40, anyany.hpp:1582), the function of case number `i` is called
(utility.hpp:42, 45), the function given to `default_` is called (64). -/
inductive Ev where
  | compare (t : Nat)
  | call (i : Nat)
  | default
  deriving DecidableEq, Repr

/-- `.case_<T>(f)` or `.cases<Ts...>(f)`: the types, and what `f` returns (utility.hpp:36-58). -/
structure Case where
  types : List Nat
  gives : Option Nat

/-- `case_<t>(f)` (utility.hpp:36-49), `i` the number of the case, `res` the member `result`. -/
def caseT (T i : Nat) (g : Option Nat) (t : Nat) : Option Nat → Option Nat × List Ev
  | some r => (some r, [])
  | none => if T = t then (g, [.compare t, .call i]) else (none, [.compare t])

/-- `cases<ts...>(f)` (utility.hpp:51-58). -/
def casesT (T i : Nat) (g : Option Nat) : List Nat → Option Nat → Option Nat × List Ev
  | [], res => (res, [])
  | t :: ts, res =>
    let r := caseT T i g t res
    let q := casesT T i g ts r.1
    (q.1, r.2 ++ q.2)

/-- A chain of cases (utility.hpp:36-58), the first with number `i`. -/
def switchT (T : Nat) : Nat → List Case → Option Nat → Option Nat × List Ev
  | _, [], res => (res, [])
  | i, c :: cs, res =>
    let r := casesT T i c.gives c.types res
    let q := switchT T (i + 1) cs r.1
    (q.1, r.2 ++ q.2)

/-- The chain with `default_(f)` at the end, where `f` returns `d` (utility.hpp:60-65). -/
def defaultT (T : Nat) (cs : List Case) (d : Nat) : Nat × List Ev :=
  let q := switchT T 0 cs none
  match q.1 with
  | some r => (r, q.2)
  | none => (d, q.2 ++ [.default])

end AnyAny.SwitchCost
