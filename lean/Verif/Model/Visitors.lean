import Verif.Model.Compare
import Verif.Model.TypeList
/-
Model of visitor interfaces (include/anyany/utility.hpp:150-262).
-/
namespace AnyAny.Visitors
open AnyAny.Mem (Method)
open AnyAny.Poly
open AnyAny.TypeList

/-- A visitable type `T`: an object type, and whether `T` is const. (utility.hpp:180, 216.) -/
abbrev VTy := Nat × Bool

/-- The methods: `visit1<T>` (utility.hpp:180-208) is `visit [T]`, `visit2<T, U>` (216-246) is
`visit [T, U]`; `visitor_interface_tag` (151-173). -/
inductive VM where
  | visit (params : List VTy)
  | tag
deriving DecidableEq, Repr

/-- `visitor_interface<Ts...>` (utility.hpp:211-212). -/
def visitorInterface (ts : List VTy) : Option (List VM) :=
  interfaceAlias (ts.map (fun t => .leaf (.visit [t])) ++ [.leaf .tag])

/-- `noexport::visit_one_with_all_others<T, Ts...>` (utility.hpp:250-251). -/
def visitOneWithAllOthers (t : VTy) (us : List VTy) : Option (List VM) :=
  interfaceAlias (us.map fun u => .leaf (.visit [t, u]))

/-- `visitor2_interface<L1, L2>` (utility.hpp:253-262). -/
def visitor2Interface (l1 l2 : List VTy) : Option (List VM) :=
  interfaceAlias (l1.map (fun t => .list (((visitOneWithAllOthers t l2).getD []).map .leaf)) ++ [.leaf .tag])

/-- A visited object as an expression: type, value category and address. (utility.hpp:204-205,
    241-243.) -/
structure VArg where
  ty : Nat
  /-- a const lvalue or an rvalue: binds only to `const T&` -/
  needConst : Bool
  addr : Addr

/-- The classes of the program: `base b d` if `b` is a base of `d` (not `d` itself) to which references to a `d` can be converted. Language
rule, no code of the library; for utility.hpp:204-206, 241-244. -/
structure Classes where
  base : Nat → Nat → Bool

/-- `T&` can be bound to the argument: to the object, or to its base `T`. (User-defined conversions, which give a temporary for `const T&`, are
not modelled.) Language rule, no code of the library; for utility.hpp:204-206, 241-244. -/
def binds (C : Classes) (t : VTy) (a : VArg) : Bool := (t.1 == a.ty || C.base t.1 a.ty) && (t.2 || !a.needConst)

/-- Language rule, no code of the library; for utility.hpp:204-206, 241-244. -/
def bindsAll (C : Classes) : List VTy → List VArg → Bool
  | [], [] => true
  | t :: ts, a :: as => binds C t a && bindsAll C ts as
  | _, _ => false

/-- Binding `p` is better than binding `q`: a class is better than its bases, and `T&` than `const T&`.
Language rule, no code of the library; for utility.hpp:204-206, 241-244. -/
def betterParam (C : Classes) (p q : VTy) : Bool :=
  if p.1 == q.1 then !p.2 && q.2 else C.base q.1 p.1

/-- `ps` is a better match than `qs` (both viable): no parameter is worse, and one is better. Language rule, no
code of the library; for utility.hpp:204-206, 241-244. -/
def better (C : Classes) (ps qs : List VTy) : Bool :=
  (ps.zip qs).all (fun pq => !betterParam C pq.2 pq.1) && (ps.zip qs).any fun pq => betterParam C pq.1 pq.2

/-- The candidates found by argument dependent lookup: the friends `anyany_adl_visit1` (utility.hpp:204-206)
or `anyany_adl_visit2` (241-244) of the plugins of all methods. -/
def viable (C : Classes) (ms : List VM) (as : List VArg) : List (List VTy) :=
  ms.filterMap fun
    | .visit ps => if bindsAll C ps as then some ps else none
    | .tag => none

/-- `plugin::visit(v...)` and `plugin::operator()(v...)` (utility.hpp:159-171): overload resolution; `none` does
not compile. -/
def pick (C : Classes) (ms : List VM) (as : List VArg) : Option (List VTy) :=
  (viable C ms as).find? fun ps => (viable C ms as).all fun qs => qs == ps || better C ps qs

/-- The body of the chosen function compiles: `std::addressof(v)` is given for a `void*` (utility.hpp:187, 205, 224, 242-243), to which a pointer to a
const object does not convert. -/
def bodyOk (ps : List VTy) : Bool := ps.all fun p => !p.2

/-- A call of a visitor: its type and address, the overload and the addresses of the objects, of which the parts with the types of the
parameters are passed. (utility.hpp:183-188, 219-225.) -/
structure VCall where
  visitor : Nat
  self : Addr
  params : List VTy
  objects : List Addr
deriving DecidableEq, Repr

/-- `anyany_adl_visit1/2` (utility.hpp:204-206, 241-244) for the chosen method: the function stored in the vtable by
`do_value` (193-200, 230-237), called with the visitor's value pointer. `isNoop V ps`: the overload of visitor type
`V` returns `aa::noop`; `num` numbers the methods of the program. Result: the calls made. -/
def callVisit (num : VM → Nat) (isNoop : Nat → List VTy → Bool) (x : Opd) (ps : List VTy) (as : List VArg) : PM (List VCall) := do
  let V ← entryTy x (.user (num (.visit ps)))
  let p ← valuePtr x
  if isNoop V ps then pure [] else pure [⟨V, p, ps, as.map (·.addr)⟩]

/-- `x.visit(v...)`, `x(v...)`. (utility.hpp:157-172.) -/
def visit (C : Classes) (num : VM → Nat) (isNoop : Nat → List VTy → Bool) (ms : List VM) (x : Opd) (as : List VArg) : Option (PM (List VCall)) :=
  match pick C ms as with
  | none => none
  | some ps => if bodyOk ps then some (callVisit num isNoop x ps as) else none

end AnyAny.Visitors
