/-
Results of methods: how the value or reference that `do_invoke` returns travels back to the caller of
`invoke<Method>` and of `operator()` of `call<...>`.

Sources: include/anyany/anyany.hpp:177-193 (invoker_for), 388-392 (vtable::invoke), 1013-1056 (invoke_fn),
1929-1953 (call).

Simplifications: types are numbers; the result type of a method is `void`, an object type, or a reference to a
possibly const type; user-defined conversions take their operand by `const&` and do not throw; conversion
functions that return references are not modelled.
-/
namespace AnyAny.Call

/-- The types of a program. Language rule, no code of the library; the types that results of
    methods (anyany.hpp:177-193, 1929-1953) can have. -/
structure Types where
  /-- `base b d`: `b` is an accessible, unambiguous, non-virtual base class of `d` (and not `d` itself) -/
  base : Nat → Nat → Bool
  /-- value of the subobject of type `b` of an object of type `d` -/
  slice : Nat → Nat → Nat → Nat
  copyable : Nat → Bool
  /-- has a move constructor of its own (otherwise rvalues are copied) -/
  movable : Nat → Bool
  /-- value of an object after being moved from -/
  movedFrom : Nat → Nat → Nat
  /-- user-defined implicit conversion from the first type to the second -/
  conv : Nat → Nat → Option (Nat → Nat)
  /-- user-defined explicit conversion -/
  econv : Nat → Nat → Option (Nat → Nat)

/-- Result types: `void`, `T`, `T&` or `const T&`, `T&&` or `const T&&`. `result_t<Method>`
    (anyany.hpp:177-193), `Ret` of `call` (1929-1932). -/
inductive Ret where
  | void
  | val (t : Nat)
  | lref (isConst : Bool) (t : Nat)
  | rref (isConst : Bool) (t : Nat)
deriving DecidableEq, Repr

/-- Expressions, with constness and static type: a prvalue is a value not yet materialised, the others
designate an object. Language rule, no code of the library; the operands of the `return`
  statements at anyany.hpp:190, 391, 1023-1054, 1935, 1945. -/
inductive Expr where
  | void
  | prval (isConst : Bool) (t v : Nat)
  | lval (isConst : Bool) (t i : Nat)
  | xval (isConst : Bool) (t i : Nat)
deriving DecidableEq, Repr

/-- An object: its dynamic type and value. Language rule, no code of the library; an object that a
    result of anyany.hpp:177-193 designates. -/
structure Obj where
  ty : Nat
  val : Nat
deriving DecidableEq, Repr

/-- The objects of the program, and counters of copies and moves. Language rule, no code of the
    library; used for anyany.hpp:177-193, 1929-1953. -/
structure Store where
  objs : Nat → Option Obj
  next : Nat
  copies : Nat
  moves : Nat

/-- Evaluation inside a function: the result, the temporaries created so far, the new store. `none`: does not
compile (or uses an object that does not exist). Language rule, no code of the library; the body
  of a function of anyany.hpp:177-193, 388-392, 1019-1056, 1932-1946. -/
abbrev Frame (α : Type) := Store → Option (α × List Nat × Store)

/-- Language rule, no code of the library; beginning or end of the lifetime of an object, for the
    results of anyany.hpp:177-193. -/
def setObj (f : Nat → Option Obj) (i : Nat) (o : Option Obj) : Nat → Option Obj := fun j => if j = i then o else f j

/-- Temporary materialisation: a temporary that lives until the end of the full expression.
    (Language rule.) Language rule, no code of the library; used for the `return` statements of
    anyany.hpp:177-193, 1932-1946. -/
def materialise (t v : Nat) : Frame Nat := fun s =>
  some (s.next, [s.next], { s with objs := setObj s.objs s.next (some ⟨t, v⟩), next := s.next + 1 })

/-- A reference to a temporary. Language rule, no code of the library; used for the `return`
    statements of anyany.hpp:177-193, 1932-1946. -/
def bindTemp (t v : Nat) (mk : Nat → Expr) : Frame Expr := fun s => do
  let (i, ts, s) ← materialise t v s
  some (mk i, ts, s)

variable (H : Types)

/-- `t` and `u` are the same type, or `t` is a base class of `u`: "`t` is reference-related to
    `u`". Language rule, no code of the library; used for the `return` statements of
    anyany.hpp:177-193, 1932-1946. -/
def related (t u : Nat) : Bool := u == t || H.base t u

/-- Value of an object of static type `u` seen as a `t`. Language rule, no code of the library;
    used for the `return` statements of anyany.hpp:177-193, 1932-1946. -/
def seenAs (t u v : Nat) : Nat := if u = t then v else H.slice t u v

/-- The user-defined conversion that an initialisation uses; direct initialisation (`static_cast`) also
considers explicit ones. Language rule, no code of the library; used for the `return` statements
  of anyany.hpp:177-193 and the `static_cast` at 1935, 1943. -/
def conversion (cast : Bool) (u t : Nat) : Option (Nat → Nat) :=
  match H.conv u t with
  | some f => some f
  | none => if cast then H.econv u t else none

/-- Read the value of an object. Language rule, no code of the library; used for the `return`
    statements of anyany.hpp:177-193, 1932-1946. -/
def valueOf (s : Store) (i : Nat) : Option Nat := (s.objs i).map (·.val)

/-- Copy or move an object of type `u` into a new `t` of the same or a base type. Language rule,
    no code of the library; used for the `return` statements of anyany.hpp:177-193, 1932-1946. -/
def construct (t u i : Nat) (mayMove : Bool) : Frame Expr := fun s => do
  let o ← s.objs i
  if mayMove && H.movable t then
    some (.prval false t (seenAs H t u o.val), [],
      { s with objs := setObj s.objs i (some ⟨o.ty, H.movedFrom o.ty o.val⟩), moves := s.moves + 1 })
  else if H.copyable t then some (.prval false t (seenAs H t u o.val), [], { s with copies := s.copies + 1 })
  else none

/-- Initialise a `T`, `T&` or `T&&` with an expression: implicitly (`cast = false`; a `return` statement) or with
`static_cast` (`cast = true`). (Language rules [dcl.init], [dcl.init.ref], [expr.static.cast]: `static_cast` also
casts references to a base class down to a derived one, lvalues to rvalue references, anything to `void`, and
uses explicit conversions.) No code of the library; used for the `return` statements of
  anyany.hpp:177-193 and the `static_cast` at 1932-1946. -/
def init (cast : Bool) (r : Ret) (e : Expr) : Frame Expr := fun s =>
  match r, e with
  | .void, .void => some (.void, [], s)
  | .void, _ => if cast then some (.void, [], s) else none
  | _, .void => none
  -- objects
  | .val t, .prval c u v =>
    if u = t then some (.prval false t v, [], s)
    else if H.base t u then do
      let (i, ts, s) ← materialise u v s
      let (e, ts', s) ← construct H t u i (!c) s
      some (e, ts ++ ts', s)
    else do
      let f ← conversion H cast u t
      some (.prval false t (f v), [], s)
  | .val t, .lval _ u i =>
    if related H t u then construct H t u i false s
    else do
      let f ← conversion H cast u t
      let v ← valueOf s i
      some (.prval false t (f v), [], s)
  | .val t, .xval c u i =>
    if related H t u then construct H t u i (!c) s
    else do
      let f ← conversion H cast u t
      let v ← valueOf s i
      some (.prval false t (f v), [], s)
  -- lvalue references
  | .lref c t, .lval c' u i =>
    if (!c' || c) && (related H t u || (cast && H.base u t)) then some (.lval c t i, [], s)
    else if c then do
      let f ← conversion H cast u t
      let v ← valueOf s i
      bindTemp t (f v) (.lval true t) s
    else none
  | .lref c t, .xval _ u i =>
    if !c then none
    else if related H t u then some (.lval true t i, [], s)
    else do
      let f ← conversion H cast u t
      let v ← valueOf s i
      bindTemp t (f v) (.lval true t) s
  | .lref c t, .prval _ u v =>
    if !c then none
    else if related H t u then bindTemp u v (.lval true t) s
    else do
      let f ← conversion H cast u t
      bindTemp t (f v) (.lval true t) s
  -- rvalue references
  | .rref c t, .lval c' u i =>
    if related H t u then (if cast && (!c' || c) then some (.xval c t i, [], s) else none)
    else do
      let f ← conversion H cast u t
      let v ← valueOf s i
      bindTemp t (f v) (.xval c t) s
  | .rref c t, .xval c' u i =>
    if related H t u then (if !c' || c then some (.xval c t i, [], s) else none)
    else if cast && H.base u t && (!c' || c) then some (.xval c t i, [], s)
    else do
      let f ← conversion H cast u t
      let v ← valueOf s i
      bindTemp t (f v) (.xval c t) s
  | .rref c t, .prval c' u v =>
    if related H t u then (if !c' || c then bindTemp u v (.xval c t) s else none)
    else do
      let f ← conversion H cast u t
      bindTemp t (f v) (.xval c t) s

/-- The temporaries of a function die when it returns. Language rule, no code of the library; the
    end of the functions of anyany.hpp:177-193, 388-392, 1019-1056, 1932-1946. -/
def kill (f : Nat → Option Obj) : List Nat → Nat → Option Obj
  | [], i => f i
  | t :: ts, i => if i = t then none else kill f ts i

/-- What a call gives: a result, an exception, or `std::terminate`. Language rule, no code of the
    library; used for anyany.hpp:177-193, 388-392, 1019-1056, 1932-1946. -/
inductive Out where
  | ret (e : Expr) (s : Store)
  | exn (s : Store)
  | term

/-- A function `r f() { return <m>; }`, possibly `noexcept`, where the operand of the return statement is already
evaluated to `o` and then passes through `m`. `none`: does not compile. Language rule, no code of
  the library; the functions of anyany.hpp:177-193, 388-392, 1019-1056, 1932-1946. -/
def function (noexc : Bool) (m : Expr → Frame Expr) (o : Out) : Option Out :=
  match o with
  | .ret e s => do
    let (e, ts, s) ← m e s
    some (.ret e { s with objs := kill s.objs ts })
  | .exn s => some (if noexc then .term else .exn s)
  | .term => some .term

/-- `return e;` in a function with result type `r`. The form of anyany.hpp:179-193, 388-392,
    1019-1056. -/
def returns (noexc : Bool) (r : Ret) (o : Out) : Option Out := function noexc (init H false r) o

/-- `return static_cast<r>(e);` in a function with result type `r`. The form of
    anyany.hpp:1932-1936, 1938-1946. -/
def returnsCast (noexc : Bool) (r : Ret) (o : Out) : Option Out :=
  function noexc (fun e s => do
    let (e, ts, s) ← init H true r e s
    let (e, ts', s) ← init H false r e s
    some (e, ts ++ ts', s)) o

/-- `invoke<Method>(x, args...)` of a method with result type `r`, where `o` is what `do_invoke` gives:
`invoker_for::value` (anyany.hpp:179-193) called by `vtable::invoke` (388-392), called by `invoke_fn::operator()`
(1019-1056). All three are functions with result type `result_t<Method>`. -/
def invokeResult (r : Ret) (o : Out) : Option Out := do
  let o ← returns H false r o
  let o ← returns H false r o
  returns H false r o

/-- `call<Ret(Args...) CONST NOEXCEPT>::do_invoke` (anyany.hpp:1932-1936), where `o` is what the call operator of
the contained object gives. -/
def callDoInvoke (noexc : Bool) (r : Ret) (o : Out) : Option Out := returnsCast H noexc r o

/-- `invoke<call<Ret(Args...)>>(x, args...)`. (anyany.hpp:1929-1936, 1019-1056.) -/
def callInvoke (noexc : Bool) (r : Ret) (o : Out) : Option Out := do
  let o ← callDoInvoke H noexc r o
  invokeResult H r o

/-- `x(args...)`: `call<Ret(Args...)>::plugin::operator()` (anyany.hpp:1938-1946). -/
def callOperator (noexc : Bool) (r : Ret) (o : Out) : Option Out := do
  let o ← callInvoke H noexc r o
  returnsCast H noexc r o

/-- `do_invoke` of a method declared with `anyany_method` or `anyany_extern_method` (anyany_macro.hpp:111-115, 124-128),
where `o` is what the expression in `requires(...)` gives, called with `invoke<Method>(x, args...)`. -/
def macroInvoke (r : Ret) (o : Out) : Option Out := do
  let o ← returnsCast H false r o
  invokeResult H r o

/-- `x.NAME(args...)`: the member function that `anyany_method` adds (anyany_macro.hpp:87-104). -/
def macroMember (r : Ret) (o : Out) : Option Out := do
  let o ← macroInvoke H r o
  returns H false r o

end AnyAny.Call
