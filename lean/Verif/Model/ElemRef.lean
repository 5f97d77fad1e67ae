/-
References to elements of `data_parallel_vector` as operands: `proxy` (include/anyany/data_parallel_vector.hpp:66-165) and `const_proxy`
(173-221). Which initialisations, assignments, comparisons and swaps compile, and which member they call. Overload resolution and the
implicitly declared members follow C++20 ([class.copy.ctor], [over.match.best], [over.match.oper], [over.ics.rank], [dcl.init]).

What the called members do to the elements is in Model/Dpv.lean. The element type is described by what its fields allow. Its own
comparisons are not candidates here: for two references they are not found, since these classes are nested in `data_parallel_impl<T, …>`,
so that `T` is not associated with them ([basic.lookup.argdep]); for a reference and a `T` they need a conversion and lose to the
comparisons below, which need none.
-/
namespace AnyAny.ElemRef

/-- The element type `T`, `proxy` (data_parallel_vector.hpp:66) and `const_proxy` (173). -/
inductive Ty where
  | val | ref | cref
  deriving DecidableEq, Repr

/-- Value categories. Language rule, for the operands of data_parallel_vector.hpp:91-221. -/
inductive Cat where
  | lvalue | xvalue | prvalue
  deriving DecidableEq, Repr

/-- An operand. Language rule, for the operands of data_parallel_vector.hpp:91-221. -/
structure Arg where
  ty : Ty
  const : Bool
  cat : Cat
  deriving DecidableEq, Repr

/-- What the fields of `T` allow: copies (construction and assignment), `<=>`. They can always be moved. -/
structure Elem where
  copyable : Bool
  ordered : Bool
  deriving DecidableEq, Repr

/-! ### Implicitly declared constructors -/

/-- Which of its special members a class declares. -/
structure Decl where
  copyCtor : Bool
  moveCtor : Bool
  copyAssign : Bool
  moveAssign : Bool
  dtor : Bool
  deriving DecidableEq, Repr

/-- `proxy` (data_parallel_vector.hpp:91-107): its assignments take `const proxy&` and `proxy&&`; that they are const members makes no
difference. -/
def proxyDecl : Decl := ⟨false, false, true, true, false⟩

/-- `const_proxy` (data_parallel_vector.hpp:195-198): deleted assignments are declared ones. -/
def constProxyDecl : Decl := ⟨false, false, true, true, false⟩

/-- Is there a copy constructor that is not deleted? Language rule ([class.copy.ctor] 6), for data_parallel_vector.hpp:66-221. -/
def Decl.copies (d : Decl) : Bool := d.copyCtor || !(d.moveCtor || d.moveAssign)

/-- Is a move constructor declared? Language rule ([class.copy.ctor] 8), for data_parallel_vector.hpp:66-221. -/
def Decl.moves (d : Decl) : Bool := d.moveCtor || !(d.copyCtor || d.copyAssign || d.moveAssign || d.dtor)

/-! ### Conversions -/

/-- Conversion functions and converting constructors: `proxy::operator value_type` (data_parallel_vector.hpp:83-90),
`const_proxy::operator value_type` (200-202), `const_proxy(const proxy&)` (192-193). -/
inductive Conv where
  | refToVal | crefToVal | refToCref
  deriving DecidableEq, Repr

/-- The conversion between two of the types; there is at most one. (data_parallel_vector.hpp:83-90, 192-193, 200-202.) -/
def convOf : Ty → Ty → Option Conv
  | .ref, .val => some .refToVal
  | .cref, .val => some .crefToVal
  | .ref, .cref => some .refToCref
  | _, _ => none

/-- A parameter: a reference to one of the types. Language rule, for the parameters at data_parallel_vector.hpp:91-221. -/
structure Param where
  ty : Ty
  const : Bool
  rvalue : Bool
  deriving DecidableEq, Repr

/-- An implicit conversion: by which conversion function, and how the parameter binds. Language rule, for
data_parallel_vector.hpp:91-221. -/
structure Ics where
  conv : Option Conv
  toRvalue : Bool
  const : Bool
  deriving DecidableEq, Repr

/-- Can the reference bind to an expression of this constness and category? Language rule ([dcl.init.ref]). -/
def Param.binds (p : Param) (const : Bool) (c : Cat) : Bool :=
  (p.const || !const) && (if p.rvalue then c ≠ .lvalue else (c = .lvalue || p.const))

/-- The implicit conversion of an operand to a parameter. Conversion functions give prvalues. Language rule ([over.best.ics]), for
data_parallel_vector.hpp:91-221. -/
def Param.ics (p : Param) (a : Arg) : Option Ics :=
  if a.ty = p.ty then (if p.binds a.const a.cat then some ⟨none, p.rvalue, p.const⟩ else none)
  else match convOf a.ty p.ty with
    | some f => if p.binds false .prvalue then some ⟨some f, p.rvalue, p.const⟩ else none
    | none => none

/-- Which conversion is better: none rather than some; of two that use the same function, or none, the binding decides: to an rvalue
reference, if both bind an rvalue, then the less const one. Language rule ([over.ics.rank]); `rv`: both bind an rvalue. -/
def Ics.better (rv : Bool) (i j : Ics) : Bool :=
  match i.conv, j.conv with
  | none, some _ => true
  | some _, none => false
  | x, y => x == y && (if (rv || x.isSome) && i.toRvalue != j.toRvalue then i.toRvalue else !i.const && j.const)

/-- A candidate for an operator with two operands: the member called, what the operands convert to, whether the operands are reversed.
Language rule ([over.match.oper]), for data_parallel_vector.hpp:91-221. -/
structure Cand (β : Type) where
  act : β
  left : Option Ics
  right : Option Ics
  reversed : Bool

/-- Language rule ([over.match.best]), for data_parallel_vector.hpp:91-221. -/
def Cand.better {β : Type} (l r : Arg) (x y : Cand β) : Bool :=
  match x.left, x.right, y.left, y.right with
  | some a, some b, some c, some d =>
    let lv := l.cat ≠ .lvalue
    let rv := r.cat ≠ .lvalue
    !c.better lv a && !d.better rv b && (a.better lv c || b.better rv d || (!x.reversed && y.reversed))
  | _, _, _, _ => false

/-- The best viable candidate; `none`: none is viable, or the call is ambiguous. Language rule, for data_parallel_vector.hpp:91-221. -/
def resolve {β : Type} (l r : Arg) (cs : List (Cand β)) : Option β :=
  let vs := cs.filter fun c => c.left.isSome && c.right.isSome
  (vs.zipIdx.find? fun (c, i) => vs.zipIdx.all fun (d, j) => i == j || c.better l r d).map (·.1.act)

/-! ### Initialisation -/

/-- How an object is initialised. `elide`: the prvalue is the object. -/
inductive Init where
  | elide
  /-- `T`'s own copy and move constructors -/
  | copyT | moveT
  | conv (f : Conv)
  | copyRef | moveRef
  deriving DecidableEq, Repr

/-- Initialise a `proxy` from a `proxy` (data_parallel_vector.hpp:66-165), by its implicit constructors. -/
def initRef (a : Arg) : Option Init :=
  if a.cat = .prvalue then some .elide
  else if proxyDecl.moves && a.cat = .xvalue && !a.const then some .moveRef
  else if proxyDecl.copies then some .copyRef
  else none

/-- Does the body of the conversion compile? `value_type(field...)` copies the fields (data_parallel_vector.hpp:83-90, 200-202);
`const_proxy(const proxy& p) : p(p)` copies the argument (192-193). -/
def Conv.compiles (e : Elem) : Conv → Bool
  | .refToVal => e.copyable
  | .crefToVal => e.copyable
  | .refToCref => (initRef ⟨.ref, true, .lvalue⟩).isSome

/-- `X x = a;`, also a parameter or result of type `X` by value. `none`: does not compile. (data_parallel_vector.hpp:66-221.) -/
def init (e : Elem) (t : Ty) (a : Arg) : Option Init :=
  if a.ty = t then
    match t with
    | .val => if a.cat = .prvalue then some .elide else if a.cat = .xvalue && !a.const then some .moveT else if e.copyable then some .copyT else none
    | .ref => initRef a
    | .cref =>
      if a.cat = .prvalue then some .elide
      else if constProxyDecl.moves && a.cat = .xvalue && !a.const then some .moveRef
      else if constProxyDecl.copies then some .copyRef
      else none
  else match convOf a.ty t with
    | some f => if f.compiles e then some (.conv f) else none
    | none => none

/-! ### Assignment -/

/-- The assignments of `proxy`: `operator=(value_type&&)` (data_parallel_vector.hpp:92-96), `operator=(const value_type&)` (97-100),
`operator=(const proxy&)` (101-104), `operator=(proxy&&)` (105-107), and those of `T`. -/
inductive Assign where
  | moveVal | copyVal | copyRef | moveRef
  /-- `T`'s own -/
  | copyT | moveT
  deriving DecidableEq, Repr

/-- The object parameter of a const member binds to everything (data_parallel_vector.hpp:92-107). -/
def self : Option Ics := some ⟨none, false, true⟩

/-- The assignments of `proxy` (data_parallel_vector.hpp:92-107). -/
def refAssigns (r : Arg) : List (Cand Assign) :=
  [⟨.moveVal, self, Param.ics ⟨.val, false, true⟩ r, false⟩, ⟨.copyVal, self, Param.ics ⟨.val, true, false⟩ r, false⟩,
   ⟨.copyRef, self, Param.ics ⟨.ref, true, false⟩ r, false⟩, ⟨.moveRef, self, Param.ics ⟨.ref, false, true⟩ r, false⟩]

/-- The assignments of the element type, which are those of any class whose fields can be moved and, if `copyable`, copied. No code of
the library; for assignments from `*it` (data_parallel_vector.hpp:83-90). -/
def valAssigns (e : Elem) (r : Arg) : List (Cand Assign) :=
  [⟨.moveT, self, Param.ics ⟨.val, false, true⟩ r, false⟩] ++
  (if e.copyable then [⟨.copyT, self, Param.ics ⟨.val, true, false⟩ r, false⟩] else [])

/-- Does the body of the assignment compile? All but `operator=(value_type&&)` copy fields; `operator=(proxy&&)` is `*this = other`
(data_parallel_vector.hpp:92-107). -/
def Assign.compiles (e : Elem) : Assign → Bool
  | .moveVal => true
  | .copyVal => e.copyable
  | .copyRef => e.copyable
  | .moveRef => e.copyable
  | .copyT => e.copyable
  | .moveT => true

/-- Do the conversions of the right operand compile? (data_parallel_vector.hpp:83-90, 192-193, 200-202.) -/
def convCompiles (e : Elem) (from_ to : Ty) : Bool :=
  match convOf from_ to with
  | some f => f.compiles e
  | none => true

/-- The type of the parameter of the assignments (data_parallel_vector.hpp:92-107). -/
def Assign.param : Assign → Ty
  | .moveVal | .copyVal | .copyT | .moveT => .val
  | .copyRef | .moveRef => .ref

/-- `l = r`. `none`: does not compile. All assignments of `const_proxy` are deleted (data_parallel_vector.hpp:195-198); so whichever of them is chosen,
or if the choice is ambiguous, it does not compile. The assignments of the element type are not const. (92-107, 195-198.) -/
def assign (e : Elem) (l r : Arg) : Option Assign :=
  match l.ty with
  | .cref => none
  | .ref =>
    match resolve l r (refAssigns r) with
    | some f => if f.compiles e && convCompiles e r.ty f.param then some f else none
    | none => none
  | .val =>
    if l.const then none
    else match resolve l r (valAssigns e r) with
      | some f => if f.compiles e && convCompiles e r.ty f.param then some f else none
      | none => none

/-! ### Comparisons -/

/-- The comparisons: with a value, and with another reference of the same class, of `proxy` (data_parallel_vector.hpp:150-164) and of
`const_proxy` (207-220). -/
inductive Cmp where
  | refVal | refRef | crefVal | crefCref
  deriving DecidableEq, Repr

/-- Class of the left operand and type of the parameter (data_parallel_vector.hpp:150-164, 207-220). -/
def Cmp.sig : Cmp → Ty × Ty
  | .refVal => (.ref, .val)
  | .refRef => (.ref, .ref)
  | .crefVal => (.cref, .val)
  | .crefCref => (.cref, .cref)

/-- Conversion of an operand to the object parameter: none, the operand must be of the class. Language rule ([over.match.funcs]), for the members at
data_parallel_vector.hpp:150-164, 207-220, which are const. -/
def asObject (t : Ty) (a : Arg) : Option Ics := if a.ty = t then some ⟨none, false, true⟩ else none

/-- Conversion of an operand to the parameter `const X&` of `==` with a value, a template for this type only
(data_parallel_vector.hpp:150-153, 207-210), and of the other comparisons. -/
def asParam (template : Bool) (t : Ty) (a : Arg) : Option Ics :=
  if template then asObject t a else Param.ics ⟨t, true, false⟩ a

/-- A comparison as a candidate, and with the operands reversed. (data_parallel_vector.hpp:150-164, 207-220.) -/
def cmpCands (template : Cmp → Bool) (l r : Arg) (c : Cmp) : List (Cand (Cmp × Bool)) :=
  [⟨(c, false), asObject c.sig.1 l, asParam (template c) c.sig.2 r, false⟩,
   ⟨(c, true), asParam (template c) c.sig.2 l, asObject c.sig.1 r, true⟩]

/-- The comparisons with values are templates in the case of `==` (data_parallel_vector.hpp:150-153, 207-210). -/
def eqTemplate : Cmp → Bool
  | .refVal | .crefVal => true
  | _ => false

/-- The member called, for operands at least one of which is a reference to an element; second component: with the operands reversed.
(data_parallel_vector.hpp:150-164, 207-220.) -/
def compareBy (template : Cmp → Bool) (l r : Arg) : Option (Cmp × Bool) :=
  resolve l r ([Cmp.refVal, .refRef, .crefVal, .crefCref].flatMap (cmpCands template l r))

/-- Do the conversion of the argument and the body compile? (data_parallel_vector.hpp:113-164, 207-220.) -/
def cmpCompiles (e : Elem) (l r : Arg) (c : Cmp × Bool) : Bool :=
  e.ordered && convCompiles e (if c.2 then l.ty else r.ty) c.1.sig.2

/-- `l == r` (data_parallel_vector.hpp:150-157, 207-214). -/
def eq (e : Elem) (l r : Arg) : Option (Cmp × Bool) :=
  (compareBy eqTemplate l r).filter (cmpCompiles e l r)

/-- `l <=> r` (data_parallel_vector.hpp:159-164, 215-220). -/
def spaceship (e : Elem) (l r : Arg) : Option (Cmp × Bool) :=
  (compareBy (fun _ => false) l r).filter (cmpCompiles e l r)

/-! ### swap -/

/-- `using std::swap; swap(l, r)`: the friend of `proxy` (data_parallel_vector.hpp:109-111), or `std::swap<X>(X&, X&)`. -/
inductive Swap where
  | friend | std
  deriving DecidableEq, Repr

/-- Is the class move constructible and move assignable, as `std::swap` requires? No code of the library; for `proxy`
(data_parallel_vector.hpp:91-107) and `const_proxy` (195-198), whose assignments are deleted. -/
def stdSwappable : Ty → Bool
  | .val => true
  | .ref => proxyDecl.moves || proxyDecl.copies
  | .cref => false

/-- `using std::swap; swap(l, r)`. The friend of `proxy` takes `const proxy&` and is found if an operand is a `proxy`; `std::swap` takes
non-const lvalues of one type. (data_parallel_vector.hpp:109-111.) -/
def swap (l r : Arg) : Option Swap :=
  resolve l r
    ([⟨.friend, if l.ty = .ref || r.ty = .ref then Param.ics ⟨.ref, true, false⟩ l else none, Param.ics ⟨.ref, true, false⟩ r, false⟩,
      ⟨.std, if l.ty = r.ty && stdSwappable l.ty then Param.ics ⟨l.ty, false, false⟩ l else none, Param.ics ⟨l.ty, false, false⟩ r, false⟩])

end AnyAny.ElemRef
