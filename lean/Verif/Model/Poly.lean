import Verif.Model.AnyMem
/-
Model of polymorphic references and pointers (include/anyany/anyany.hpp:354-1075, 1579-1691,
1877-1918, 1979-2025): `vtable`, `subtable_ptr`, `vtable_view`, `poly_ref`, `const_poly_ref`, `poly_ptr`,
`const_poly_ptr`, `stateful::ref`, `stateful::cref`, their conversions, `invoke` and `any_cast` on them.

The objects referred to are values contained in any objects (the world of Model/AnyMem.lean) or plain
variables. Reference objects are objects too: a `poly_ref` with one method and a stateful reference
contain their vtable, so a pointer to such a vtable dangles when the reference object dies. Parameters
passed by value are temporary reference objects.

Simplifications: a vtable entry is the pair (method, type) for `&invoker_for<type, method>::value`;
compile-time constraints that only concern the user's types (`exist_for`) are not modelled; a conversion
that does not compile is `ub`.
-/
namespace AnyAny.Poly
open AnyAny.TypeList (numberOfFirst findSubsequence hasSubsequence)
open AnyAny.Mem (Method SelfKind TyInfo Cfg Ptr VtPtr World AnySt Obj upd cellAt)

/-- `&invoker_for<ty, m>::value` (anyany.hpp:177-209). -/
structure Entry where
  m : Method
  ty : Nat
deriving DecidableEq, Repr

/-- Names of reference objects: variables of the client, and temporaries. Language rule, no code
    of the library; objects of the classes at anyany.hpp:562-1005. -/
inductive RId where
  | var (n : Nat)
  | tmp (n : Nat)
deriving DecidableEq, Repr

/-- `const vtable<Methods...>*`: into a static table `vtable_for` (anyany.hpp:452-458), or to entry `off`
of the vtable stored inside the reference object `r`. -/
inductive VP where
  | static (v : VtPtr)
  | inRef (r : RId) (off : Nat)
deriving DecidableEq, Repr

/-- The vtable part of a reference: `vtable_view<Methods...>` (anyany.hpp:532-559) holds a pointer, or
for one method the vtable itself; stateful references hold the vtable itself (869-870). A null entry is
what `vtable_value{}` contains. -/
inductive View where
  | ptr (p : Option VP)
  | value (es : List (Option Entry))
deriving DecidableEq, Repr

/-- Address of an object: storage of an any, or a variable. What `value_ptr` points to
    (anyany.hpp:567, 614, 660, 742, 868, 935). -/
inductive Addr where
  | mem (p : Ptr)
  | var (x : Nat)
deriving DecidableEq, Repr

/-- The six class templates. (anyany.hpp:565, 610, 656, 738, 864, 931.) -/
inductive Kind where
  | polyRef
  | constPolyRef
  | polyPtr
  | constPolyPtr
  | ref
  | cref
deriving DecidableEq, Repr

/-- `const_poly_ref` (anyany.hpp:610), `const_poly_ptr` (738), `stateful::cref` (931). -/
def Kind.isConst : Kind → Bool
  | .constPolyRef | .constPolyPtr | .cref => true
  | _ => false

/-- `poly_ptr` (anyany.hpp:656), `const_poly_ptr` (738). -/
def Kind.isPtr : Kind → Bool
  | .polyPtr | .constPolyPtr => true
  | _ => false

/-- `stateful::ref` (anyany.hpp:864), `stateful::cref` (931). -/
def Kind.isStateful : Kind → Bool
  | .ref | .cref => true
  | _ => false

/-- A reference object (anyany.hpp:564-567, 609-614, 655-661, 737-743, 863-870, 930-937). `val` is
`value_ptr`, `none` is null. -/
structure RefObj where
  kind : Kind
  ms : List Method
  view : View
  val : Option Addr
deriving DecidableEq, Repr

/-- The state: any objects (anyany.hpp:1115-1122), variables, reference objects (562-1005). -/
structure PW where
  mem : World
  /-- variables: type and value -/
  vars : Nat → Option (Nat × Nat)
  refs : RId → Option RefObj
  /-- number of temporaries so far -/
  tmps : Nat

/-- Language rule, no code of the library; the ways a call of a function of anyany.hpp:562-1005
    can end. -/
inductive PRes (α : Type) where
  | ok (a : α) (w : PW)
  | exn (w : PW)
  | ub
  | term

/-- Language rule, no code of the library; a statement of anyany.hpp:562-1005. -/
abbrev PM (α : Type) := PW → PRes α

/-- Language rule, no code of the library; the empty statement, for anyany.hpp:562-1005. Language
    rule, no code of the library; sequencing, for anyany.hpp:562-1005. -/
@[inline] def PM.pure {α} (a : α) : PM α := fun w => .ok a w
@[inline] def PM.bind {α β} (m : PM α) (f : α → PM β) : PM β := fun w =>
  match m w with
  | .ok a w' => f a w'
  | .exn w' => .exn w'
  | .ub => .ub
  | .term => .term

instance : Monad PM where
  pure := PM.pure
  bind := PM.bind

/-- Language rule, no code of the library; an undefined operation, or a violated `assert`
    (anyany.hpp:723, 1021). -/
def ub {α} : PM α := fun _ => .ub
/-- Language rule, no code of the library; `throw` (anyany.hpp:1649, 1668). -/
def throwExn {α} : PM α := fun w => .exn w

/-- An operation on any objects. A function of anyany.hpp:1103-1508. -/
def liftMem {α} (m : Mem.M α) : PM α := fun w =>
  match m w.mem with
  | .ok a w' => .ok a { w with mem := w' }
  | .exn w' => .exn { w with mem := w' }
  | .ub => .ub
  | .term => .term

/-- No code of the library: update of the state of reference objects (anyany.hpp:562-1005). -/
def updR (f : RId → Option RefObj) (k : RId) (v : Option RefObj) : RId → Option RefObj :=
  fun x => if x = k then v else f x

/-- Reading the members of a reference object (anyany.hpp:567, 614, 660, 742, 868, 935) that
    exists. -/
def getRef (r : RId) : PM RefObj := fun w =>
  match w.refs r with
  | some o => .ok o w
  | none => .ub

/-- Writing the members of a reference object (anyany.hpp:567, 614, 660, 742, 868, 935). -/
def setRef (r : RId) (o : Option RefObj) : PM Unit := fun w => .ok () { w with refs := updR w.refs r o }

/-- Run `f` with a temporary reference object (a parameter passed by value, or a local variable), which
is destroyed afterwards, also when `f` throws. Language rule, no code of the library; for the
  parameters by value at anyany.hpp:771-792, 849-854, 1034-1042, 1629-1683. -/
def withTemp {α} (o : RefObj) (f : RId → PM α) : PM α := fun w =>
  let t := RId.tmp w.tmps
  match f t { w with refs := updR w.refs t (some o), tmps := w.tmps + 1 } with
  | .ok a w' => .ok a { w' with refs := updR w'.refs t none }
  | .exn w' => .exn { w' with refs := updR w'.refs t none }
  | .ub => .ub
  | .term => .term

variable (cfg : Cfg)

/-! ### vtables -/

/-- `get<i>(*p)` (noexport/anyany_details.hpp:56-64) read through a vtable pointer: `ub` if the reference
object containing the vtable is gone or there is no such entry. -/
def entryAt (p : VP) (i : Nat) : PM (Option Entry) := fun w =>
  match p with
  | .static v =>
    match v.table[v.off + i]? with
    | some m => .ok (some ⟨m, v.ty⟩) w
    | none => .ub
  | .inRef r off =>
    match w.refs r with
    | some ⟨_, _, .value es, _⟩ =>
      match es[off + i]? with
      | some e => .ok e w
      | none => .ub
    | _ => .ub

/-- Copying a vtable of `n` entries: `*p`. Nothing is read for an empty vtable. Copies of vtables:
    anyany.hpp:532-559 (one entry), 909-910, 951-952 (all). -/
def loadTable (p : VP) : Nat → PM (List (Option Entry))
  | 0 => pure []
  | n + 1 => do
    let es ← loadTable p n
    let e ← entryAt p n
    pure (es ++ [e])

/-- `subtable_ptr<To...>(p)` (anyany.hpp:417-442): the same pointer for the same list; otherwise the
address of the first entry of the sublist, computed with `get<Index>(*p)`, i.e. dereferencing `p`. -/
def subtable (msTo msFrom : List Method) (p : VP) : PM VP :=
  if msTo = msFrom then pure p
  else
    match findSubsequence msTo msFrom with
    | none => ub
    | some i => do
      let _ ← entryAt p i
      match p with
      | .static v => pure (.static { v with off := v.off + i })
      | .inRef r off => pure (.inRef r (off + i))

/-- Is `vtable_view<ms...>` the specialisation that contains the vtable (anyany.hpp:546-559)? The vtable
of one method is assumed to be trivially copyable. -/
def byValue (ms : List Method) : Bool := ms.length == 1

/-- `vtable_view()` (anyany.hpp:540, 555). -/
def nullView (ms : List Method) : View := if byValue ms then .value [none] else .ptr none

/-- `vtable_view(vtable_ptr)` (anyany.hpp:541-543, 556-558) and `mate::set_vtable_ptr` (489-495). -/
def mkView (ms : List Method) (p : Option VP) : PM View :=
  if byValue ms then
    match p with
    | none => ub
    | some p => do
      let es ← loadTable p 1
      pure (.value es)
  else pure (.ptr p)

/-- `mate::get_vtable_ptr` (anyany.hpp:480-487). -/
def vtablePtr (r : RId) : PM (Option VP) := do
  let o ← getRef r
  match o.view with
  | .ptr p => pure p
  | .value _ => pure (some (.inRef r 0))

/-- A null pointer where a vtable is needed is `ub` (`assert` at anyany.hpp:423, or a null dereference). -/
def nonNull {α} : Option α → PM α
  | some a => pure a
  | none => ub

/-! ### construction from variables and any objects -/

/-- `poly_ref(T&)`, `const_poly_ref(const T&)` (anyany.hpp:588-595, 625-630), `poly_ptr(T*)`,
`const_poly_ptr(const T*)` (672-678, 753-758) for a variable `x`. -/
def polyOfVar (k : Kind) (ms : List Method) (x : Nat) : PM RefObj := fun w =>
  match w.vars x with
  | none => .ub
  | some (t, _) => (do
      let v ← mkView ms (some (.static ⟨t, ms, 0⟩))
      pure ⟨k, ms, v, some (.var x)⟩ : PM RefObj) w

/-- `poly_ptr(T* ptr)`, `const_poly_ptr(const T* ptr)` with a null `ptr` (anyany.hpp:672-678, 753-758). -/
def ptrOfNullT (k : Kind) (ms : List Method) (t : Nat) : PM RefObj := do
  let v ← mkView ms (some (.static ⟨t, ms, 0⟩))
  pure ⟨k, ms, v, none⟩

/-- `poly_ptr()`, `poly_ptr(nullptr)` and the same for `const_poly_ptr` (anyany.hpp:664-666, 745-747). -/
def ptrNull (k : Kind) (ms : List Method) : RefObj := ⟨k, ms, nullView ms, none⟩

/-- `poly_ptr(Any* ptr)`, `const_poly_ptr(const Any*)` (anyany.hpp:679-689, 759-769); `none` is a null
`ptr`. `operator&` of an any is this constructor (1184-1189). -/
def ptrOfAny (k : Kind) (ms : List Method) (a : Option Nat) : PM RefObj :=
  match a with
  | none => pure (ptrNull k ms)
  | some a => do
    let s ← liftMem (Mem.getAny a)
    match s.vt with
    | none => pure (ptrNull k ms)
    | some v =>
      let p ← subtable ms s.ms (.static v)
      let vw ← mkView ms (some p)
      pure ⟨k, ms, vw, some (.mem s.vp)⟩

/-- `stateful::ref(T&)`, `stateful::cref(const T&)` (anyany.hpp:900-907, 943-949). -/
def statefulOfVar (k : Kind) (ms : List Method) (x : Nat) : PM RefObj := fun w =>
  match w.vars x with
  | none => .ub
  | some (t, _) => .ok ⟨k, ms, .value (ms.map fun m => some ⟨m, t⟩), some (.var x)⟩ w

/-! ### conversions -/

/-- `poly_ref(poly_ref<From...>)`, `const_poly_ref(const_poly_ref<From...>)`,
`const_poly_ref(poly_ref<From...>)` (anyany.hpp:597-602, 632-646). -/
def convRef (k : Kind) (ms : List Method) (src : RId) : PM RefObj := do
  let o ← getRef src
  withTemp o fun r => do
    let p ← vtablePtr r
    let p ← nonNull p
    let p' ← subtable ms o.ms p
    let v ← mkView ms (some p')
    pure ⟨k, ms, v, o.val⟩

/-- `poly_ptr(poly_ptr<From...>)` (anyany.hpp:690-698) and `const_poly_ptr(const_poly_ptr<From...>)`
(775-786), called with the parameter `p`. -/
def convPtrFrom (k : Kind) (ms : List Method) (p : RId) : PM RefObj := do
  let o ← getRef p
  match o.val with
  | none => pure (ptrNull k ms)
  | some v => do
    let q ← vtablePtr p
    let q ← nonNull q
    let q' ← subtable ms o.ms q
    let vw ← mkView ms (some q')
    pure ⟨k, ms, vw, some v⟩

/-- Converting constructors of pointers, the argument by value (anyany.hpp:691-699, 776-792). -/
def convPtr (k : Kind) (ms : List Method) (src : RId) : PM RefObj := do
  let o ← getRef src
  withTemp o (convPtrFrom k ms)

/-- Copying vtable pointer and value pointer without a check, into an object of the same methods:
`const_poly_ptr(poly_ptr<Methods...>)` (anyany.hpp:771-774), `const_pointer_cast` (849-854),
`poly_ref::operator&` and `const_poly_ref::operator&` (832-845). The first two take their argument by
value, so it is a temporary. -/
def blindFrom (k : Kind) (p : RId) : PM RefObj := do
  let o ← getRef p
  let q ← vtablePtr p
  let v ← mkView o.ms q
  pure ⟨k, o.ms, v, o.val⟩

/-- `const_poly_ptr(poly_ptr<Methods...>)` (anyany.hpp:771-774). -/
def constPtr (src : RId) : PM RefObj := do
  let o ← getRef src
  withTemp o (blindFrom .constPolyPtr)

/-- `const_pointer_cast` (anyany.hpp:849-854). -/
def constPointerCast (src : RId) : PM RefObj := do
  let o ← getRef src
  withTemp o (blindFrom .polyPtr)

/-- `poly_ref::operator&`, `const_poly_ref::operator&`. (anyany.hpp:832-845.) -/
def addrOfRef (src : RId) : PM RefObj := do
  let o ← getRef src
  blindFrom (if o.kind.isConst then .constPolyPtr else .polyPtr) src

/-- `const_poly_ptr(poly_ptr<From...> p) : const_poly_ptr(const_poly_ptr<From...>{p})`
(anyany.hpp:787-792). -/
def constPtrConv (ms : List Method) (src : RId) : PM RefObj := do
  let o ← getRef src
  withTemp o fun p => do
    let c ← constPtr p
    withTemp c (convPtrFrom .constPolyPtr ms)

/-- `poly_ptr::operator*` (anyany.hpp:722-725) with its assertion, and `const_poly_ptr::operator*`
(815-817) without one: a copy of the reference inside. -/
def derefPtr (src : RId) : PM RefObj := do
  let o ← getRef src
  if o.kind.isConst then pure { o with kind := .constPolyRef }
  else if o.val.isNone then ub
  else pure { o with kind := .polyRef }

/-- `stateful::ref(poly_ref<Methods...>)` and `stateful::cref(const_poly_ref<Methods...>)`
(anyany.hpp:909-911, 951-953): copies the vtable. The parameter is passed by value. -/
def statefulOfPoly (k : Kind) (src : RId) : PM RefObj := do
  let o ← getRef src
  withTemp o fun r => do
    let p ← vtablePtr r
    let p ← nonNull p
    let es ← loadTable p o.ms.length
    pure ⟨k, o.ms, .value es, o.val⟩

/-- `get<number_of_first<Methods, Methods2...>>(table)...` (anyany.hpp:883, 892, 972): the entries of the
methods `ms` from a table of the methods `from'`. -/
def gather (p : VP) (from' : List Method) : List Method → PM (List (Option Entry))
  | [] => pure []
  | m :: ms =>
    match numberOfFirst m from' with
    | none => ub
    | some i => do
      let e ← entryAt p i
      let es ← gather p from' ms
      pure (e :: es)

/-- `stateful::ref::FOO(poly_ref<Methods2...>)` (anyany.hpp:877-885). -/
def gatherPoly (ms : List Method) (src : RId) : PM RefObj := do
  let o ← getRef src
  withTemp o fun r => do
    let p ← vtablePtr r
    let p ← nonNull p
    let es ← gather p o.ms ms
    pure ⟨.ref, ms, .value es, o.val⟩

/-- `FOO(const stateful::ref<Methods2...>&)` in `ref` (anyany.hpp:887-895), and
`FOO(const stateful::cref<Methods2...>&)` in `cref` (965-972). -/
def gatherStateful (k : Kind) (ms : List Method) (src : RId) : PM RefObj := do
  let o ← getRef src
  let es ← gather (.inRef src 0) o.ms ms
  pure ⟨k, ms, .value es, o.val⟩

/-- `cref(const stateful::ref<Methods...>&)` (anyany.hpp:958-960). -/
def crefOfRef (src : RId) : PM RefObj := do
  let o ← getRef src
  pure { o with kind := .cref }

/-- `cref(poly_ref<Methods...> r) : cref(const_poly_ref(r))` (anyany.hpp:955-956). -/
def crefOfPolyRef (src : RId) : PM RefObj := do
  let o ← getRef src
  withTemp o fun r => do
    let c ← convRef .constPolyRef o.ms r
    withTemp c (statefulOfPoly .cref)

/-- `cref::FOO(const stateful::ref<Methods2...>&)` (anyany.hpp:974-978). -/
def crefGatherRef (ms : List Method) (src : RId) : PM RefObj := do
  let c ← crefOfRef src
  withTemp c (gatherStateful .cref ms)

/-- `cref::FOO(poly_ref<Methods2...> r)` (anyany.hpp:980-984). -/
def crefGatherPoly (ms : List Method) (src : RId) : PM RefObj := do
  let o ← getRef src
  withTemp o fun r => do
    let x ← gatherPoly ms r
    withTemp x crefOfRef

/-- `cref::FOO(const_poly_ref<Methods2...> p)`: `FOO(*aa::const_pointer_cast(&p))` (anyany.hpp:986-990). -/
def crefGatherConst (ms : List Method) (src : RId) : PM RefObj := do
  let o ← getRef src
  withTemp o fun p => do
    let q ← addrOfRef p
    withTemp q fun q => do
      let c ← constPointerCast q
      withTemp c fun c => do
        let d ← derefPtr c
        withTemp d (crefGatherPoly ms)

/-- Constructing an object of class `k<ms...>` from the reference object `src`: the constructor that
overload resolution selects. Combinations without a constructor do not compile; `ub` here.
  (anyany.hpp:579-646, 664-699, 746-792, 875-918, 939-998.) -/
def convert (k : Kind) (ms : List Method) (src : RId) : PM RefObj := do
  let o ← getRef src
  match k, o.kind with
  | .polyRef, .polyRef | .constPolyRef, .constPolyRef =>
    if ms = o.ms then pure o else convRef k ms src
  | .constPolyRef, .polyRef => convRef k ms src
  | .polyPtr, .polyPtr | .constPolyPtr, .constPolyPtr =>
    if ms = o.ms then pure o else convPtr k ms src
  | .constPolyPtr, .polyPtr => if ms = o.ms then constPtr src else constPtrConv ms src
  | .ref, .polyRef => if ms = o.ms then statefulOfPoly .ref src else gatherPoly ms src
  | .ref, .ref | .cref, .cref => if ms = o.ms then pure o else gatherStateful k ms src
  | .cref, .polyRef => if ms = o.ms then crefOfPolyRef src else crefGatherPoly ms src
  | .cref, .constPolyRef => if ms = o.ms then statefulOfPoly .cref src else crefGatherConst ms src
  | .cref, .ref => if ms = o.ms then crefOfRef src else crefGatherRef ms src
  | _, _ => ub

/-- `stateful::ref::get_view()` / `stateful::cref::get_view()` (anyany.hpp:919-924, 999-1004): a local
poly pointer is given the address of the vtable inside the stateful reference. -/
def getView (src : RId) : PM RefObj := do
  let o ← getRef src
  let v ← mkView o.ms (some (.inRef src 0))
  withTemp ⟨if o.kind.isConst then .constPolyPtr else .polyPtr, o.ms, v, o.val⟩ derefPtr

/-! ### use -/

/-- Reading the object of type `t` at an address. Language rule, no code of the library; the
    access of a method or of the user through the address (anyany.hpp:183-188). -/
def readAddr (p : Addr) (t : Nat) : PM Nat :=
  match p with
  | .mem q => do
    let o ← liftMem (Mem.readObj q t)
    pure o.val
  | .var x => fun w =>
    match w.vars x with
    | some (t', v) => if t' = t then .ok v w else .ub
    | none => .ub

/-- Language rule, no code of the library; assignment by a method or by the user through the
    address (anyany.hpp:183-188). -/
def writeAddr (p : Addr) (t v : Nat) : PM Unit :=
  match p with
  | .mem q => liftMem (Mem.writeObj q t v)
  | .var x => fun w =>
    match w.vars x with
    | some (t', _) => if t' = t then .ok () { w with vars := upd w.vars x (some (t, v)) } else .ub
    | none => .ub

/-- Where and for which type a call of method `m` through the reference object `r` arrives:
`mate::get_vtable_ptr(r)->invoke<Method>(mate::get_value_ptr(r), ...)` (anyany.hpp:1013-1056) with
`vtable::invoke` (387-403). -/
def dispatchAt (r : RId) (m : Method) : PM (Nat × Option Addr) := do
  let o ← getRef r
  let p ← vtablePtr r
  let p ← nonNull p
  match numberOfFirst m o.ms with
  | none => ub
  | some i =>
    let e ← entryAt p i
    let e ← nonNull e
    if e.m = m then pure (e.ty, o.val) else ub

/-- Poly references are passed by value to `invoke` (anyany.hpp:1035-1043), stateful ones by reference
(1047-1055). -/
def dispatch (r : RId) (m : Method) : PM (Nat × Option Addr) := do
  let o ← getRef r
  if o.kind.isStateful then dispatchAt r m else withTemp o fun t => dispatchAt t m

/-- `m`; if it throws, `cleanup` runs before the exception goes on. Used for what a method did
    before it threw. Language rule, no code of the library; for methods called at
    anyany.hpp:183-188. -/
def onFail {α} (m : PM α) (cleanup : PM Unit) : PM α := fun w =>
  match m w with
  | .exn w' =>
    match cleanup w' with
    | .ok _ w'' => .exn w''
    | .exn _ => .term
    | .ub => .ub
    | .term => .term
  | r => r

/-- `invoker_for<T, Method>::value(self, args...)` (anyany.hpp:177-193). The method is user code that may throw. -/
def callEntry (m t : Nat) (self : Addr) (arg : Nat) : PM Nat := do
  let v ← readAddr self t
  match cfg.kind m with
  | .constRef =>
    liftMem (Mem.mayThrow cfg (cfg.methodNothrow m t))
    pure (cfg.impl m t v arg).1
  | .mutRef =>
    onFail (liftMem (Mem.mayThrow cfg (cfg.methodNothrow m t))) (writeAddr self t (cfg.partway m t v arg))
    writeAddr self t (cfg.impl m t v arg).2
    pure (cfg.impl m t v arg).1
  | .byValue =>
    liftMem (Mem.mayThrow cfg (cfg.ty t).nothrowCopy)
    liftMem (Mem.mayThrow cfg (cfg.methodNothrow m t))
    pure (cfg.impl m t v arg).1

/-- `invoke<Method>(ref, args...)` (anyany.hpp:1035-1055). -/
def invokeRef (r : RId) (m arg : Nat) : PM Nat := do
  let d ← dispatch r (.user m)
  let p ← nonNull d.2
  callEntry cfg m d.1 p arg

/-- The vtable entry that gives the type descriptor, reached through the reference object `r`
(anyany.hpp:1779, 1824, 1871; see `Mem.descMethod`). -/
def descAt (r : RId) : PM Nat := do
  let o ← getRef r
  match Mem.descMethod o.ms with
  | none => ub
  | some m => do
    let d ← dispatchAt r m
    pure d.1

/-- `type_descriptor()` of a reference (anyany.hpp:1769-1779, 1824, 1871 with 1062-1069) and of a pointer (730-733,
823-826): `none` is the descriptor of `void`. References never have `has_value`. -/
def typeDescriptor (r : RId) : PM (Option Nat) := do
  let o ← getRef r
  if o.kind.isPtr && o.val.isNone then pure none
  else if o.kind.isPtr then do
    let o' ← derefPtr r
    withTemp o' fun t => do
      let d ← descAt t
      pure (some d)
  else do
    let d ← descAt r
    pure (some d)

/-- `any_cast<T>(poly_ptr)` / `any_cast<T>(const_poly_ptr)` (anyany.hpp:1631-1642), `p` the parameter. -/
def anyCastPtrAt (t : Nat) (p : RId) : PM (Option Addr) := do
  let o ← getRef p
  if o.val.isNone then pure none
  else do
    let d ← typeDescriptor p
    if d ≠ some t then pure none else pure o.val

/-- The parameter is passed by value (anyany.hpp:1629-1640). -/
def anyCastPtr (r : RId) (t : Nat) : PM (Option Addr) := do
  let o ← getRef r
  withTemp o (anyCastPtrAt t)

/-- `any_cast<T&>(poly_ref)` / `any_cast<T&>(const_poly_ref)` (anyany.hpp:1643-1683): `&p` of the
parameter, then the pointer form; null throws `bad_cast`. -/
def anyCastRefAt (t : Nat) (p : RId) : PM Addr := do
  let q ← addrOfRef p
  let res ← withTemp q (anyCastPtrAt t)
  match res with
  | none => throwExn
  | some a => pure a

/-- For stateful references through `get_view()` (anyany.hpp:1685-1692). -/
def anyCastRef (r : RId) (t : Nat) : PM Addr := do
  let o ← getRef r
  if o.kind.isStateful then do
    let v ← getView r
    withTemp v (anyCastRefAt t)
  else withTemp o (anyCastRefAt t)

/-- `raw()` (anyany.hpp:701-703, 795-797). -/
def raw (r : RId) : PM (Option Addr) := do
  let o ← getRef r
  pure o.val

/-- `has_value()` / `operator bool` / `!= nullptr` (anyany.hpp:704-719, 798-813). -/
def hasValue (r : RId) : PM Bool := do
  let p ← raw r
  pure p.isSome

/-- `operator==(poly_ptr, poly_ptr)`, `operator==(const_poly_ptr, const_poly_ptr)` (anyany.hpp:1877-1886),
`l` and `r` the parameters. -/
def ptrEqAt (l r : RId) : PM Bool := do
  let a ← raw l
  let b ← raw r
  if a = b then do
    let d ← typeDescriptor l
    let e ← typeDescriptor r
    pure (d == e)
  else pure false

/-- All four comparisons: the mixed ones convert the mutable pointer and compare it, on the left,
with the other one (anyany.hpp:1887-1891; `const == mutable` is rewritten to it by C++20). -/
def ptrEq (l r : RId) : PM Bool := do
  let a ← getRef l
  let b ← getRef r
  withTemp a fun x => withTemp b fun y => do
    if a.kind.isConst == b.kind.isConst then ptrEqAt x y
    else if b.kind.isConst then do
      let c ← constPtr x
      withTemp c fun z => withTemp b fun y' => ptrEqAt z y'
    else do
      let c ← constPtr y
      withTemp c fun z => withTemp a fun x' => ptrEqAt z x'

/-- Does `std::hash<void*>{}(p.raw())` compile? `raw()` of a `const_poly_ptr` is a `const void*` (anyany.hpp:701, 795, 2017, 2023). -/
def hashCompiles (k : Kind) : Bool := !k.isConst

/-- `std::hash<poly_ptr>` and `std::hash<const_poly_ptr>` (anyany.hpp:2012-2025), with an arbitrary hash of addresses. `none`: does not
compile. -/
def ptrHash (h : Option Addr → Nat) (r : RId) : PM (Option Nat) := do
  let o ← getRef r
  let p ← raw r
  pure (if hashCompiles o.kind then some (h p) else none)

/-- The vtable pointer and value pointer that `materialize` stores in the new any
(anyany.hpp:1516-1517, 1528-1536): those of `const_poly_ref(r)`, or of `const_poly_ref(r.get_view())` for a
stateful reference. -/
def materializeParts (r : RId) : PM (Option VP × Option Addr) := do
  let o ← getRef r
  if o.kind.isStateful then do
    let v ← getView r
    withTemp v fun t => do
      let c ← convRef .constPolyRef o.ms t
      withTemp c fun u => do
        let p ← vtablePtr u
        pure (p, c.val)
  else do
    let c ← convRef .constPolyRef o.ms r
    withTemp c fun u => do
      let p ← vtablePtr u
      pure (p, c.val)

/-! ### which conversions compile -/

/-- Constraint of `poly_ptr<Ms...>(Any*)` (anyany.hpp:680-683). -/
def polyPtrFromAnyOk (ms anyMs : List Method) : Bool := hasSubsequence ms anyMs

/-- Constraint of `const_poly_ptr<Ms...>(const Any*)` (anyany.hpp:760-763), with the arguments in the
order of the code. -/
def constPolyPtrFromAnyOk (ms anyMs : List Method) : Bool := hasSubsequence anyMs ms

/-- The body of `const_poly_ptr(const Any*)` calls `subtable_ptr` (anyany.hpp:766), which has its own
constraint (420-422); so a call compiles only if both hold. -/
def constPolyPtrFromAnyCompiles (ms anyMs : List Method) : Bool :=
  constPolyPtrFromAnyOk ms anyMs && hasSubsequence ms anyMs

end AnyAny.Poly
