import Verif.Model.TypeList
/-
Model of the constructors and assignment operators of `aa::basic_any` as an overload set (include/anyany/anyany.hpp:1195-1384):
which of them a given initialisation or assignment calls. What the called one does is modelled in Model/AnyMem.lean.

The overload resolution is that of C++20 (where the copy and move members are constrained) for these declarations: a candidate is viable if its constraints hold and its parameter
can bind to the argument; conversions are compared by rank, then rvalue reference over lvalue reference, then by qualification;
then non-templates win over templates and more specialised templates over less specialised ones. Initialisation from a prvalue of the
same type calls no constructor and is not modelled. Left out: the overloads with `std::initializer_list` (they differ in how the
contained object is constructed). Initialisation with braces, `basic_any a{x}`, is that without, because no constructor has a first parameter
`std::initializer_list`.
-/
namespace AnyAny.Ctor
open AnyAny.TypeList

/-- Methods: `copy_with<Alloc, SooS>` (277-312, 338-339), `move` (255-269), `destroy` (232-253), any other. -/
inductive Meth where
  | copy (alloc soo : Nat)
  | move
  | destroy
  | other (k : Nat)
deriving DecidableEq, Repr

/-- `basic_any<Alloc, SooS, Methods...>` (1108-1109). Allocator types are numbers. -/
structure AnyTy where
  alloc : Nat
  soo : Nat
  methods : List Meth
deriving DecidableEq, Repr

/-- Types of arguments after `std::decay`: an any; a class derived from an any; a reference or pointer with an interface (`poly_ref`,
`poly_ptr`, …); any type that is none of these. The types the constraints at anyany.hpp:1266-1373
  distinguish. -/
inductive Ty where
  | any (a : AnyTy)
  | derived (a : AnyTy) (k : Nat)
  | poly (k : Nat)
  | plain (k : Nat)
deriving DecidableEq, Repr

/-- Arguments: type, constness, lvalue or rvalue. The arguments of the constructors and
    assignments of anyany.hpp:1195-1384. -/
structure Arg where
  ty : Ty
  const : Bool
  rvalue : Bool
deriving DecidableEq, Repr

/-- `is_polymorphic` (type_descriptor.hpp:88, file_begin.hpp:54-69): `aa_polymorphic_tag` is a member of any types (1110), hence of classes derived from
them, and of the reference types. The type is decayed first. -/
def isPolymorphic : Ty → Bool
  | .any _ | .derived _ _ | .poly _ => true
  | .plain _ => false

/-- `exist_for` (216-227): all methods exist for the decayed type; `ex` says which do. -/
def existFor (ex : Ty → Meth → Bool) (t : Ty) (ms : List Meth) : Bool := ms.all (ex t)

/-- `some_copy_method` and `noexport::has_move` (316-332). -/
def Meth.isCopy : Meth → Bool
  | .copy _ _ => true
  | _ => false

/-- `noexport::has_move` (anyany.hpp:326-332). -/
def hasMoveMethod (ms : List Meth) : Bool := ms.any Meth.isCopy || containsV .move ms

/-- `has_copy`, `has_move` (1164-1165). -/
def AnyTy.hasCopy (a : AnyTy) : Bool := containsV (.copy a.alloc a.soo) a.methods
/-- `has_move` (anyany.hpp:1165). -/
def AnyTy.hasMove (a : AnyTy) : Bool := hasMoveMethod a.methods || a.soo == 0

/-- What a constructor does: copy or move from an any of the same type, or from one with other methods; contain a value constructed from
the argument, of this type. The bodies of the constructors (anyany.hpp:1198-1218, 1306-1311,
  1325-1350). -/
inductive Act where
  | copy
  | move
  | transmuteCopy
  | transmuteMove
  | contain (t : Ty)
deriving DecidableEq, Repr

/-- The conversion of the argument to a parameter: rank (0 identity, 1 derived-to-base, 2 user-defined), whether the parameter is an rvalue
reference bound to an rvalue, whether the reference is to const. Language rule, no code of the
  library; implicit conversion sequences of arguments of anyany.hpp:1195-1384. -/
structure Ics where
  rank : Nat
  toRvalue : Bool
  toConst : Bool
deriving DecidableEq, Repr

/-- Which conversion is better. Language rule, no code of the library; used for the overloads of
    anyany.hpp:1195-1384. -/
def Ics.better (x y : Ics) : Bool :=
  x.rank < y.rank || (x.rank == y.rank && ((x.toRvalue && !y.toRvalue) || (x.toRvalue == y.toRvalue && !x.toConst && y.toConst)))

/-- A candidate. `spec`: 0 not a template, 1 a template for any types, 2 a template for all types.
    Language rule, no code of the library; the overloads of anyany.hpp:1195-1384. -/
structure Cand (β : Type) where
  act : β
  ics : Option Ics
  spec : Nat

/-- One viable candidate is better than another. Language rule, no code of the library; used for
    the overloads of anyany.hpp:1195-1384. -/
def Cand.better {β : Type} (x y : Cand β) : Bool :=
  match x.ics, y.ics with
  | some i, some j => i.better j || (!j.better i && x.spec < y.spec)
  | some _, none => true
  | none, _ => false

/-- The best viable candidate; `none`: no candidate is viable, or the call is ambiguous. Language
    rule, no code of the library; overload resolution, used for the overloads of
    anyany.hpp:1195-1384. -/
def resolve {β : Type} (cs : List (Cand β)) : Option β :=
  (cs.zipIdx.find? fun (c, i) => c.ics.isSome && cs.zipIdx.all fun (c', i') => i == i' || c.better c').map (·.1.act)

/-- The any an argument is or derives from, with the rank of that conversion. Language rule, no
    code of the library; the base class to which the parameters at anyany.hpp:1198, 1215, 1253,
    1219 bind. -/
def Ty.asAny : Ty → Option (AnyTy × Nat)
  | .any a => some (a, 0)
  | .derived a _ => some (a, 1)
  | _ => none

/-- A parameter `const basic_any<…>&`, for an argument that is or derives from the any `b`, if
    `ok`. (anyany.hpp:1198, 1253, 1328.) -/
def bindConstRef (x : Arg) (ok : AnyTy → Bool) : Option Ics :=
  match x.ty.asAny with
  | some (b, r) => if ok b then some ⟨r, false, true⟩ else none
  | none => none

/-- A parameter `basic_any<…>&&`. (anyany.hpp:1215, 1219, 1346.) -/
def bindRvalue (x : Arg) (ok : AnyTy → Bool) : Option Ics :=
  match x.ty.asAny with
  | some (b, r) => if ok b && x.rvalue && !x.const then some ⟨r, true, false⟩ else none
  | none => none

/-- A parameter `T&&`. (anyany.hpp:1271, 1310, 1369.) -/
def bindForward (x : Arg) (ok : Bool) : Option Ics := if ok then some ⟨0, x.rvalue, x.const⟩ else none

/-- `basic_any(const basic_any&)` (1198-1209). -/
def copyCtor (a : AnyTy) (x : Arg) : Cand Act := ⟨.copy, bindConstRef x fun b => b == a && a.hasCopy, 0⟩

/-- `basic_any(basic_any&&)` (1215-1218). -/
def moveCtor (a : AnyTy) (x : Arg) : Cand Act := ⟨.move, bindRvalue x fun b => b == a && a.hasMove, 0⟩

/-- `basic_any(const basic_any<Alloc, SooS, OtherMethods...>&)` (1326-1341). -/
def transmuteCopy (a : AnyTy) (x : Arg) : Cand Act :=
  ⟨.transmuteCopy,
   bindConstRef x fun b => b.alloc == a.alloc && b.soo == a.soo && (containsV (.copy a.alloc a.soo) b.methods && hasSubsequence a.methods b.methods), 1⟩

/-- `basic_any(basic_any<Alloc, SooS, OtherMethods...>&&)` (1342-1348). -/
def transmuteMove (a : AnyTy) (x : Arg) : Cand Act :=
  ⟨.transmuteMove,
   bindRvalue x fun b => b.alloc == a.alloc && b.soo == a.soo && (hasMoveMethod b.methods && hasSubsequence a.methods b.methods), 1⟩

/-- `basic_any(T&&)` (1308-1313). -/
def valueCtor (ex : Ty → Meth → Bool) (a : AnyTy) (x : Arg) : Cand Act :=
  ⟨.contain x.ty, bindForward x (!isPolymorphic x.ty && existFor ex x.ty a.methods), 2⟩

/-- `basic_any a(x)`. The constructors with one argument (anyany.hpp:1198-1218, 1306-1311,
    1325-1350). -/
def construct (ex : Ty → Meth → Bool) (a : AnyTy) (x : Arg) : Option Act :=
  resolve [copyCtor a x, moveCtor a x, valueCtor ex a x, transmuteCopy a x, transmuteMove a x]

/-- `basic_any a(aa::force_stable_pointers, x)` (1366-1372). -/
def constructStable (ex : Ty → Meth → Bool) (a : AnyTy) (x : Arg) : Option Act :=
  resolve [⟨.contain x.ty, bindForward x (!isPolymorphic x.ty && existFor ex x.ty a.methods), 2⟩]

/-- `basic_any a(std::allocator_arg, alloc, x)` (1316-1322): the constraint does not exclude polymorphic types. -/
def constructAlloc (ex : Ty → Meth → Bool) (a : AnyTy) (x : Arg) : Option Act :=
  resolve [⟨.contain x.ty, bindForward x (existFor ex x.ty a.methods), 2⟩]

/-- What an assignment does: `operator=(const basic_any&)`, `operator=(basic_any&&)`, from the argument or from a temporary constructed
from it (`via`), or `emplace` of a value of this type. The bodies of the assignments
  (anyany.hpp:1219-1273). -/
inductive AssignAct where
  | copyAssign (via : Option Act)
  | moveAssign (via : Option Act)
  | emplace (t : Ty)
deriving DecidableEq, Repr

/-- The implicit conversion of an argument to `a`: a temporary, if it is not an `a` itself.
    Language rule, no code of the library; used for the parameters of the assignments at
    anyany.hpp:1219, 1253. -/
def converted (ex : Ty → Meth → Bool) (a : AnyTy) (x : Arg) : Option Act :=
  match x.ty.asAny with
  | some (b, _) => if b == a then none else construct ex a x
  | none => construct ex a x

/-- `operator=(const basic_any&)` (1253-1264). -/
def copyAssign (ex : Ty → Meth → Bool) (a : AnyTy) (x : Arg) : Cand AssignAct :=
  match bindConstRef x fun b => b == a && a.hasCopy with
  | some i => ⟨.copyAssign none, some i, 0⟩
  | none =>
    match converted ex a x with
    | some c => ⟨.copyAssign (some c), if a.hasCopy then some ⟨2, false, true⟩ else none, 0⟩
    | none => ⟨.copyAssign none, none, 0⟩

/-- `operator=(basic_any&&)` (1219-1251). -/
def moveAssign (ex : Ty → Meth → Bool) (a : AnyTy) (x : Arg) : Cand AssignAct :=
  match bindRvalue x fun b => b == a && a.hasMove with
  | some i => ⟨.moveAssign none, some i, 0⟩
  | none =>
    match converted ex a x with
    | some c => ⟨.moveAssign (some c), if a.hasMove then some ⟨2, true, false⟩ else none, 0⟩
    | none => ⟨.moveAssign none, none, 0⟩

/-- `operator=(V&&)` (1271-1275). -/
def valueAssign (ex : Ty → Meth → Bool) (a : AnyTy) (x : Arg) : Cand AssignAct :=
  ⟨.emplace x.ty, bindForward x (!isPolymorphic x.ty && existFor ex x.ty a.methods), 2⟩

/-- `a = x`. The assignments (anyany.hpp:1219-1273). -/
def assign (ex : Ty → Meth → Bool) (a : AnyTy) (x : Arg) : Option AssignAct :=
  resolve [moveAssign ex a x, copyAssign ex a x, valueAssign ex a x]

/-- `a = {x}`: the template at anyany.hpp:1271 cannot deduce `V` from braces; for the other assignments (1219-1264) braces with one
element are the element, or a temporary initialised from it. -/
def assignBraces (ex : Ty → Meth → Bool) (a : AnyTy) (x : Arg) : Option AssignAct :=
  resolve [moveAssign ex a x, copyAssign ex a x]

/-- `a = {}`: the assignments (anyany.hpp:1219-1264) from a temporary made by the default constructor (1191); is it the move assignment? -/
def assignEmptyBraces (a : AnyTy) : Option Bool :=
  resolve [⟨true, if a.hasMove then some ⟨2, true, false⟩ else none, 0⟩, ⟨false, if a.hasCopy then some ⟨2, false, true⟩ else none, 0⟩]

end AnyAny.Ctor
