/-
Model of the objects made by `type_switch` (include/anyany/utility.hpp:21-108) as a user writes programs with them: what can be given to
`type_switch`, which result types and functions compile, which of the two functions `default_` a call selects, and what a sequence of calls
on one object does, also after `default_` or `no_default`. Which case matches is in Model/TypeSwitch.lean; here the value keeps
one dynamic type during the life of the object. Left out: functions that return references; result types that can be made from
`std::nullopt` or `std::optional`; `default_` with names of functions or arrays.
-/
namespace AnyAny.SwitchUse

/-- Things that can be given to `type_switch` as `value`. -/
inductive Given where
  | any | polyRef | constPolyRef | polyPtr | constPolyPtr | statefulRef | statefulCref | variant | other
deriving DecidableEq, Repr

/-- `polymorphic` (anyany.hpp:111; type_descriptor.hpp:88): has `aa_polymorphic_tag` (anyany.hpp:534, 548, 657, 739, 865, 932, 1110). -/
def Given.polymorphic : Given → Bool
  | .variant | .other => false
  | _ => true

/-- Whether `&value` is a call of an `operator&` (anyany.hpp:604, 648, 1184, 1187) and not a built-in pointer. -/
def Given.ampersand : Given → Bool
  | .any | .polyRef | .constPolyRef => true
  | _ => false

/-- `type_switch(value)` (utility.hpp:101-108) compiles. Where `&value` is a built-in pointer (104) the constructor of the switch, which
takes an rvalue (31), is called with the lvalue `value` (105). -/
def Given.compiles (g : Given) : Bool :=
  g.polymorphic && g.ampersand

/-- Types of objects: those of the user and `type_switch_fn::non_void` (utility.hpp:24-28). -/
inductive Ty where
  | user (n : Nat)
  | nonVoid
deriving DecidableEq, Repr

/-- What functions return: nothing, an object, `std::nullopt`, or a `std::optional` of the result type. -/
inductive RTy where
  | void
  | obj (t : Ty)
  | nullopt
  | opt
deriving DecidableEq, Repr

/-- The types of the user (first argument: the target): conversions that are implicit or explicit, assignment, construction
from rvalues and from lvalues; values after conversion and after having been moved from. -/
structure World where
  implicit : Nat → Nat → Bool
  explicit : Nat → Nat → Bool
  assign : Nat → Nat → Bool
  movable : Nat → Bool
  copyable : Nat → Bool
  moveAssign : Nat → Bool
  conv : Nat → Nat → Nat → Nat
  moved : Nat → Nat → Nat

/-- `non_void` is a class with nothing but an explicit default constructor (utility.hpp:24-27). -/
def World.moves (W : World) : Ty → Bool
  | .user t => W.movable t
  | .nonVoid => true

/-- See `World.moves`. -/
def World.copies (W : World) : Ty → Bool
  | .user t => W.copyable t
  | .nonVoid => true

/-- An object of type `u` converts to `t`, another type, implicitly. -/
def World.converts (W : World) : Ty → Ty → Bool
  | .user t, .user u => W.implicit t u
  | _, _ => false

/-- `std::is_constructible<T, U>` and `std::is_assignable<T&, U>`, for different types. -/
def World.makesAndAssigns (W : World) : Ty → Ty → Bool
  | .user t, .user u => (W.implicit t u || W.explicit t u) && W.assign t u
  | _, _ => false

/-- The value after conversion. -/
def World.value (W : World) : Ty → Ty → Nat → Nat
  | .user t, .user u, v => if u = t then v else W.conv t u v
  | _, _, v => v

/-- The value that is left in an object moved from. -/
def World.left (W : World) : Ty → Nat → Nat
  | .user t, v => W.moved t v
  | .nonVoid, v => v

/-- `Result` (utility.hpp:28) for `type_switch<ResultT>`; `none` is `void`. -/
def resultTy : Option Nat → Ty
  | none => .nonVoid
  | some t => .user t

/-- What a call of a function does; `empty` if it returns `std::nullopt` or an empty `std::optional`. -/
inductive Out where
  | ret (v : Nat)
  | empty
  | throws
deriving DecidableEq, Repr

structure Fn where
  ty : RTy
  out : Out
deriving DecidableEq, Repr

inductive Cat where
  | lvalue | xvalue | prvalue
deriving DecidableEq, Repr

/-- An argument of `default_`; `fn` if it can be called with what `*value` is. -/
structure Arg where
  ty : Ty
  cat : Cat
  val : Nat
  fn : Option Fn
deriving DecidableEq, Repr

inductive Call where
  | cases (ts : List Nat) (f : Fn)
  | dflt (a : Arg)
  | noDefault
deriving DecidableEq, Repr

/-- `result = f(*v)` compiles (utility.hpp:45): `std::optional<Result>` is assigned a `Result`, what a `Result` can be made from and
assigned from, what converts to it, `std::nullopt`, or another one. For `void` the result is ignored (41-43). -/
def caseOk (W : World) : Option Nat → RTy → Bool
  | none, _ => true
  | some _, .void => false
  | some t, .obj u =>
    if u = .user t then W.movable t && W.moveAssign t
    else W.makesAndAssigns (.user t) u || (W.converts (.user t) u && W.movable t && W.moveAssign t)
  | some _, .nullopt => true
  | some t, .opt => W.movable t && W.moveAssign t

/-- Which `default_` is called (utility.hpp:60-71): `true` for the one with a function, `false` for the one with a `Result`. The function
is the better match unless the argument has the type `Result`, when the one that is not a template is. -/
def overload (W : World) (t : Ty) (a : Arg) : Option Bool :=
  match a.fn with
  | some _ => some (a.ty != t)
  | none => if a.ty = t || W.converts t a.ty then some false else none

/-- `default_(a)` compiles: both functions have `return std::move(*result)` (63, 69); the first returns what `f` returns (64), the second gets a
`Result` from the argument (67). -/
def dfltOk (W : World) (t : Ty) (a : Arg) : Bool :=
  W.moves t &&
  match overload W t a with
  | none => false
  | some true =>
    match a.fn with
    | none => false
    | some f =>
      match f.ty with
      | .obj u => u == t || W.converts t u
      | _ => false
  | some false =>
    if a.ty = t then
      match a.cat with
      | .lvalue => W.copies t
      | .xvalue => W.moves t
      | .prvalue => true
    else W.converts t a.ty

/-- Whether the call compiles; `no_default` needs the move constructor of `std::optional<Result>` (utility.hpp:74). -/
def Call.ok (W : World) (r : Option Nat) : Call → Bool
  | .cases _ f => caseOk W r f.ty
  | .dflt a => dfltOk W (resultTy r) a
  | .noDefault => W.moves (resultTy r)

/-- What the call gives to the caller. -/
inductive Ans where
  | self
  | value (v : Nat)
  | opt (o : Option Nat)
  | exn
deriving DecidableEq, Repr

structure Step where
  called : Bool
  ans : Ans
deriving DecidableEq, Repr

/-- What `result` gets from the value a function of a case returns (utility.hpp:41-46). -/
def stored (W : World) (r : Option Nat) (f : Fn) : Option Nat :=
  match r, f.ty, f.out with
  | none, _, _ => some 0
  | some t, .obj u, .ret v => some (W.value (.user t) u v)
  | some _, .opt, .ret v => some v
  | _, _, _ => none

/-- One call (utility.hpp:36-75): `d` is the dynamic type of the value, `s` the member `result`. -/
def exec (W : World) (r : Option Nat) (d : Nat) (s : Option Nat) : Call → Step × Option Nat
  | .cases ts f =>
    if s.isSome then (⟨false, .self⟩, s)
    else if ts.contains d then
      match f.out with
      | .throws => (⟨true, .exn⟩, s)
      | _ => (⟨true, .self⟩, stored W r f)
    else (⟨false, .self⟩, s)
  | .dflt a =>
    match s with
    | some v => (⟨false, .value v⟩, some (W.left (resultTy r) v))
    | none =>
      match overload W (resultTy r) a, a.fn with
      | some true, some ⟨.obj u, .ret v⟩ => (⟨true, .value (W.value (resultTy r) u v)⟩, none)
      | some true, _ => (⟨true, .exn⟩, none)
      | _, _ => (⟨false, .value (W.value (resultTy r) a.ty a.val)⟩, none)
  | .noDefault =>
    match s with
    | some v => (⟨false, .opt (some v)⟩, some (W.left (resultTy r) v))
    | none => (⟨false, .opt none⟩, none)

/-- A sequence of calls on one object, after `s`.
    (utility.hpp:36-75.) -/
def runFrom (W : World) (r : Option Nat) (d : Nat) (s : Option Nat) : List Call → List Step
  | [] => []
  | c :: cs => (exec W r d s c).1 :: runFrom W r d (exec W r d s c).2 cs

/-- A program with one switch: it compiles if all calls do; the object starts without result (utility.hpp:82). -/
def run (W : World) (r : Option Nat) (d : Nat) (cs : List Call) : Option (List Step) :=
  if cs.all (Call.ok W r) then some (runFrom W r d none cs) else none

end AnyAny.SwitchUse
