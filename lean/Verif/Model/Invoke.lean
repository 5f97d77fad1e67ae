/-
`aa::invoke<Method>`: which overload of `invoke_fn::operator()` is chosen for which operand, and how the
arguments travel from the call to `do_invoke`.

Sources: include/anyany/anyany.hpp:1009-1058 (invoke_fn), 177-193 (invoker_for), 388-392 (vtable::invoke),
1919-1937 (call<...>::plugin), noexport/anyany_details.hpp:103-124 (any_method_traits).
-/
namespace AnyAny.Invoke

/-! ### Overload resolution -/

/-- Value category of an expression; prvalues behave as xvalues for overload resolution. Language
    rule, no code of the library; used for the operands of anyany.hpp:1013-1056. -/
inductive Cat where
  | lvalue
  | rvalue
deriving DecidableEq, Repr

/-- The five class templates `invoke_fn` accepts. (anyany.hpp:1019-1056.) -/
inductive Cls where
  | any
  | polyRef
  | constPolyRef
  | statefulRef
  | statefulCref
deriving DecidableEq, Repr

/-- The type and category of the first operand of `invoke<Method>(x, ...)`.
    (anyany.hpp:1019-1056.) -/
structure Operand where
  cls : Cls
  isConst : Bool
  cat : Cat
deriving DecidableEq, Repr

/-- Parameter types after deduction: by value or a reference to a possibly const type. The first
    parameters at anyany.hpp:1019-1056. -/
inductive PTy where
  | byValue
  | lref (isConst : Bool)
  | rref (isConst : Bool)
deriving DecidableEq, Repr

/-- The overloads of `invoke_fn::operator()`, in the order of their declaration (anyany.hpp:1020-1056). -/
inductive Ovl where
  | anyFwd       -- U&&, is_any<U>
  | anyConst     -- const U&, is_any<U>
  | polyRef      -- poly_ref<Methods...>
  | constPolyRef -- const_poly_ref<Methods...>
  | statefulRef  -- const stateful::ref<Methods...>&
  | statefulCref -- const stateful::cref<Methods...>&
deriving DecidableEq, Repr

/-- The overloads of `invoke_fn::operator()` (anyany.hpp:1019-1056). -/
def overloads : List Ovl := [.anyFwd, .anyConst, .polyRef, .constPolyRef, .statefulRef, .statefulCref]

/-- Template argument deduction: the parameter type of the overload for this operand, if it is viable.
`U&&` is a forwarding reference; `is_any<U>` looks at `decay_t<U>` (noexport/file_begin.hpp:54-72). A class
template parameter is deduced from an operand of that template only. -/
def deduce : Ovl → Operand → Option PTy
  | .anyFwd, ⟨.any, c, .lvalue⟩ => some (.lref c)
  | .anyFwd, ⟨.any, c, .rvalue⟩ => some (.rref c)
  | .anyConst, ⟨.any, _, _⟩ => some (.lref true)
  | .polyRef, ⟨.polyRef, _, _⟩ => some .byValue
  | .constPolyRef, ⟨.constPolyRef, _, _⟩ => some .byValue
  | .statefulRef, ⟨.statefulRef, _, _⟩ => some (.lref true)
  | .statefulCref, ⟨.statefulCref, _, _⟩ => some (.lref true)
  | _, _ => none

/-- Is binding the operand to `p` a better conversion than to `q`? ([over.ics.rank] 3.2.3: an rvalue prefers
an rvalue reference; 3.2.6: otherwise the less cv-qualified reference.) Used for the overloads at
  anyany.hpp:1019-1056; no code of its own. -/
def betterConv (x : Operand) (p q : PTy) : Bool :=
  match p, q with
  | .rref _, .lref _ => x.cat == .rvalue
  | .lref false, .lref true => true
  | .rref false, .rref true => true
  | _, _ => false

/-- Partial ordering of the two templates for any objects ([temp.deduct.partial] 9): `const U&` is more
specialised than the forwarding reference `U&&`. Used for the overloads at anyany.hpp:1019-1032;
  no code of its own. -/
def moreSpecialised : Ovl → Ovl → Bool
  | .anyConst, .anyFwd => true
  | _, _ => false

/-- [over.match.best]: a better conversion, or equally good conversions and a more specialised
    template. Used for the overloads at anyany.hpp:1019-1056; no code of its own. -/
def betterOvl (x : Operand) (f g : Ovl × PTy) : Bool :=
  betterConv x f.2 g.2 || (!betterConv x g.2 f.2 && moreSpecialised f.1 g.1)

/-- Can a parameter of this type be initialised by the operand? ([dcl.init.ref]; poly references
    are copyable.) Used for the parameters at anyany.hpp:1019-1056; no code of its own. -/
def binds (x : Operand) : PTy → Bool
  | .byValue => true
  | .lref c => c || (!x.isConst && x.cat == .lvalue)
  | .rref c => x.cat == .rvalue && (c || !x.isConst)

/-- Language rule, no code of the library; the overloads of anyany.hpp:1019-1056 that are viable
    for the operand. -/
def viable (x : Operand) : List (Ovl × PTy) := (overloads.filterMap fun f => (deduce f x).map fun p => (f, p)).filter fun p => binds x p.2

/-- The overload chosen: the one better than all others; `none`: no viable overload, or ambiguous.
    Language rule, no code of the library; overload resolution among anyany.hpp:1019-1056. -/
def resolve (x : Operand) : Option Ovl :=
  ((viable x).find? fun f => (viable x).all fun g => f.1 == g.1 || betterOvl x f g).map (·.1)

/-- Overloads with `static_assert(is_const_method_v<Method>)` (anyany.hpp:1028, 1041, 1053). -/
def Ovl.assertsConst : Ovl → Bool
  | .anyConst | .constPolyRef | .statefulCref => true
  | .anyFwd | .polyRef | .statefulRef => false

/-- `invoke<Method>(x, args...)` compiles, for a method that is const or not
    (`is_const_method_v`). (anyany.hpp:1013-1056.) -/
def compiles (constMethod : Bool) (x : Operand) : Bool :=
  match resolve x with
  | none => false
  | some f => !f.assertsConst || constMethod

/-! ### Arguments -/

/-- Declared types of the method's arguments: `T`, `T&`, `const T&`, `T&&`. `Args...` of a method
    (anyany.hpp:177-193, 388-392, 1013-1056). -/
inductive ArgTy where
  | value
  | lref
  | clref
  | rref
deriving DecidableEq, Repr

/-- Objects of the argument types: their values, the number of copy and move constructions so far. An object
that was moved from has the value `moved v`. Language rule, no code of the library; the arguments
  passed by anyany.hpp:177-193, 388-392, 1013-1056. -/
inductive Val where
  | val (v : Nat)
  | moved (v : Val)
deriving DecidableEq, Repr

/-- Language rule, no code of the library; the objects that arguments of anyany.hpp:177-193,
    388-392, 1013-1056 designate; the counters are ghost. -/
structure Store where
  objs : Nat → Option Val
  next : Nat
  copies : Nat
  moves : Nat

/-- Expressions: an lvalue or xvalue designates an object; a prvalue is a value not yet
    materialised. Language rule, no code of the library; the arguments at anyany.hpp:189-191,
    390-391, 1019-1056. -/
inductive Expr where
  | lval (i : Nat)
  | xval (i : Nat)
  | prval (v : Val)
deriving DecidableEq, Repr

/-- Language rule, no code of the library; evaluation of arguments of anyany.hpp:177-193, 388-392,
    1013-1056; `none`: does not compile. -/
abbrev M (α : Type) := Store → Option (α × Store)

/-- Language rule, no code of the library; an object gets a value; for the arguments of
    anyany.hpp:177-193, 388-392. -/
def setObj (f : Nat → Option Val) (i : Nat) (v : Val) : Nat → Option Val := fun j => if j = i then some v else f j

/-- A new object with a value: materialisation, or the result of a copy or move. Language rule, no
    code of the library; for the parameters of anyany.hpp:177-193, 388-392, 1019-1056. -/
def fresh (v : Val) : M Nat := fun s => some (s.next, { s with objs := setObj s.objs s.next v, next := s.next + 1 })

/-- Initialise a parameter of a declared type from an expression; the result is the object the parameter is or
refers to. `none`: does not compile. (Language rule.) No code of the library; for the parameters
  of anyany.hpp:177-193, 388-392, 1019-1056. -/
def initParam (t : ArgTy) (e : Expr) : M Nat := fun s =>
  match t, e with
  | .value, .prval v => fresh v s
  | .value, .lval i => do
    let v ← s.objs i
    fresh v { s with copies := s.copies + 1 }
  | .value, .xval i => do
    let v ← s.objs i
    fresh v { s with objs := setObj s.objs i (.moved v), moves := s.moves + 1 }
  | .lref, .lval i => some (i, s)
  | .clref, .lval i | .clref, .xval i => some (i, s)
  | .clref, .prval v => fresh v s
  | .rref, .xval i => some (i, s)
  | .rref, .prval v => fresh v s
  | .lref, .xval _ | .lref, .prval _ | .rref, .lval _ => none

/-- The parameters in order. Language rule, no code of the library; for anyany.hpp:177-193,
    388-392, 1019-1056. -/
def initParams : List ArgTy → List Expr → M (List Nat)
  | [], [] => fun s => some ([], s)
  | t :: ts, e :: es => fun s => do
    let (p, s) ← initParam t e s
    let (ps, s) ← initParams ts es s
    some (p :: ps, s)
  | _, _ => fun _ => none

/-- `static_cast<Args&&>(args)` for a parameter `args` of type `Args` (anyany.hpp:1013, 186, 188, 1932). -/
def castFwd : ArgTy → Nat → Expr
  | .value, i | .rref, i => .xval i
  | .lref, i | .clref, i => .lval i

/-- `Args&&` as a parameter type: reference collapsing. Language rule, no code of the library; for
    the parameters `Args&&...` at anyany.hpp:388, 1020. -/
def addRref : ArgTy → ArgTy
  | .value | .rref => .rref
  | .lref => .lref
  | .clref => .clref

/-- A forwarding reference `X&& x` followed by `std::forward<X>(x)` passes the expression on
(anyany.hpp:388-392, `vtable::invoke`). -/
def forwarded : Expr → M Expr := fun e s =>
  match e with
  | .prval v => do
    let (i, s) ← fresh v s
    some (.xval i, s)
  | e => some (e, s)

/-- `std::forward<Args>(args)...` for all arguments (anyany.hpp:1019-1056). -/
def forwardedAll : List Expr → M (List Expr)
  | [] => fun s => some ([], s)
  | e :: es => fun s => do
    let (e, s) ← forwarded e s
    let (es, s) ← forwardedAll es s
    some (e :: es, s)

/-- `invoker_for<T, Method>::value(self, Args&&... args)` (anyany.hpp:179-193): the parameters of `do_invoke`. -/
def invokerValue (ts : List ArgTy) (es : List Expr) : M (List Nat) := fun s => do
  let (ps, s) ← initParams (ts.map addRref) es s
  initParams ts (List.zipWith castFwd ts ps) s

/-- `invoke<Method>(x, es...)` (anyany.hpp:1019-1056): the parameters with which `do_invoke` is entered. -/
def invokeArgs (ts : List ArgTy) (es : List Expr) : M (List Nat) := fun s => do
  let (ps, s) ← initParams ts es s
  let (fs, s) ← forwardedAll (List.zipWith castFwd ts ps) s
  invokerValue ts fs s

/-- `x(es...)` with the plugin of `call<Ret(Args...)>` (anyany.hpp:1928-1934). -/
def pluginArgs (ts : List ArgTy) (es : List Expr) : M (List Nat) := fun s => do
  let (ps, s) ← initParams ts es s
  invokeArgs ts (List.zipWith castFwd ts ps) s

end AnyAny.Invoke
