import Verif.Model.Compare
/-
Model of `type_switch` (include/anyany/utility.hpp:21-108). Results are in `Nat` (for `type_switch<void>` the result stands
for `non_void`, utility.hpp:24-28). Callbacks of cases are arbitrary programs; what they return is assigned to a `std::optional<Result>`, so that they are
modelled with results in `Option Nat`: `none` if they return `std::nullopt` or an empty `std::optional<Result>`.
-/
namespace AnyAny.Poly
open AnyAny.Mem (Method)

/-- `&value` in `type_switch` (utility.hpp:101-108) for an any (anyany.hpp:1184-1189; `cst` for a const one) and
a `poly_ref`/`const_poly_ref` (833-847). -/
def switchPtr (cst : Bool) : Opd → PM RefObj
  | .any a => do
    let s ← liftMem (Mem.getAny a)
    ptrOfAny (if cst then .constPolyPtr else .polyPtr) s.ms (some a)
  | .ref n => addrOfRef (.var n)

/-- `case_<T>(f)` (utility.hpp:36-49); `p` is the member `value`, `res` the member `result`; `result = f(*v)` leaves it empty if `f` returns
`nullopt` (45). -/
def caseFn (p : RId) (f : Addr → PM (Option Nat)) (t : Nat) (res : Option Nat) : PM (Option Nat) :=
  match res with
  | some r => pure (some r)
  | none => do
    let v ← anyCastPtr p t
    match v with
    | none => pure none
    | some a => f a

/-- `cases<Ts...>(f)` (utility.hpp:51-58). -/
def casesFn (p : RId) (f : Addr → PM (Option Nat)) : List Nat → Option Nat → PM (Option Nat)
  | [], res => pure res
  | t :: ts, res => do
    let res ← caseFn p f t res
    casesFn p f ts res

/-- A sequence of `.case_<T>(f)` (a list with one type) and `.cases<Ts...>(f)`.
    (utility.hpp:36-58.) -/
def switchCases (p : RId) : List (List Nat × (Addr → PM (Option Nat))) → Option Nat → PM (Option Nat)
  | [], res => pure res
  | c :: cs, res => do
    let res ← casesFn p c.2 c.1 res
    switchCases p cs res

/-- How the switch ends: `default_(f)`, `default_(v)`, `no_default()` (utility.hpp:60-75). -/
inductive Finish where
  | callable (d : RefObj → PM Nat)
  | value (v : Nat)
  | noDefault

/-- `default_` and `no_default` (utility.hpp:60-75). -/
def finishFn (p : RId) : Finish → Option Nat → PM (Option Nat)
  | _, some r => pure (some r)
  | .callable d, none => do
    let o ← derefPtr p
    let r ← d o
    pure (some r)
  | .value v, none => pure (some v)
  | .noDefault, none => pure none

/-- `type_switch(x).case_...` as one expression: the switch object lives to its end. A null `value` fails the
assertion in the constructor (utility.hpp:33). -/
def typeSwitch (cst : Bool) (x : Opd) (cs : List (List Nat × (Addr → PM (Option Nat)))) (fin : Finish) : PM (Option Nat) := do
  let o ← switchPtr cst x
  withTemp o fun p => do
    if o.val.isNone then ub
    else do
      let res ← switchCases p cs none
      finishFn p fin res

end AnyAny.Poly
