import Verif.Model.Ctor
import Verif.Model.Poly
/-
Model of the constructors and assignment operators of `aa::poly_ref`, `aa::const_poly_ref`, `aa::poly_ptr`, `aa::const_poly_ptr`,
`aa::stateful::ref` and `aa::stateful::cref` as overload sets (include/anyany/anyany.hpp:562-841, 859-1005): which initialisations and
assignments compile, and which constructor they call. What the called one does is modelled in Model/Poly.lean.

Overload resolution is that of Model/Ctor.lean. A parameter passed by value is treated as a non-const lvalue reference: the only candidates it competes with at equal
rank are templates, and it is not one. A constructor template never gives a constructor with a parameter of its own class by value
([class.copy.ctor]). Left out: classes derived from any types or references; `volatile`; conversion functions of the user's types; `{}`.
-/
namespace AnyAny.RefCtor
open AnyAny.TypeList (hasSubsequence containsV)
open AnyAny.Poly (Kind)
open AnyAny.Ctor (Ics Cand resolve)

variable {M : Type} [DecidableEq M]

/-- One of the six class templates and its methods. (anyany.hpp:565, 610, 656, 738, 864, 931.) -/
structure RT (M : Type) where
  kind : Kind
  ms : List M
deriving DecidableEq, Repr

/-- What raw pointers point to: an object that is not polymorphic, an any, a reference object. The
    types the constraints at anyany.hpp:673-690, 754-770 distinguish. -/
inductive Pointee (M : Type) where
  | plain (k : Nat)
  | any (ms : List M)
  | ref (r : RT M)
deriving DecidableEq, Repr

/-- Types of arguments, without `const`. `ptr p c`: a pointer to (if `c`, to const) `p`. The types
    the constraints at anyany.hpp:562-1005 distinguish. -/
inductive Ty (M : Type) where
  | plain (k : Nat)
  | any (ms : List M)
  | ref (r : RT M)
  | ptr (p : Pointee M) (c : Bool)
  | null
deriving DecidableEq, Repr

/-- Language rule, no code of the library; the type of `*p` for the constructors at
    anyany.hpp:673-690, 754-770. -/
def Pointee.ty : Pointee M → Ty M
  | .plain k => .plain k
  | .any ms => .any ms
  | .ref r => .ref r

/-- Arguments: type, constness, lvalue or rvalue. The arguments of the constructors of
    anyany.hpp:562-1005. -/
structure Arg (M : Type) where
  ty : Ty M
  const : Bool
  rvalue : Bool
deriving DecidableEq, Repr

/-- `is_polymorphic` (type_descriptor.hpp:88): any types (1110) and the reference types (533, 550, 657, 739, 864, 931) have the tag. -/
def isPolymorphic : Ty M → Bool
  | .any _ | .ref _ => true
  | _ => false

/-- `exist_for` (216-227); `ex` says which methods exist for which types. -/
def existFor (ex : Ty M → M → Bool) (t : Ty M) (ms : List M) : Bool := ms.all (ex t)

/-- What a constructor does. `viaPtr`: `const_poly_ptr(poly_ptr<Methods...>)` with a temporary
    `poly_ptr`. (anyany.hpp:579-646, 664-699, 746-792, 875-918, 939-998.) -/
inductive Act where
  | copy
  | ofValue
  | ofRef
  | ofPtr
  | ofAny
  | null
  | viaPtr
deriving DecidableEq, Repr

/-- A viable candidate binds with this conversion. Language rule, no code of the library; used for
    the overloads of anyany.hpp:562-1005. -/
def bindIf (b : Bool) (i : Ics) : Option Ics := if b then some i else none

/-- Copy and move constructors (579-580, 586, 623, 898, 942; implicit for the pointers). -/
def copyCtor (R : RT M) (x : Arg M) : Cand Act := ⟨.copy, bindIf (x.ty == .ref R) ⟨0, false, true⟩, 0⟩
/-- (anyany.hpp:579-580, 586, 623, 898, 942; implicit for the pointers.) -/
def moveCtor (R : RT M) (x : Arg M) : Cand Act := ⟨.copy, bindIf (x.ty == .ref R && (x.rvalue && !x.const)) ⟨0, true, false⟩, 0⟩

/-- `poly_ref(T&)` (589-595), `stateful::ref(T&)` (900-907): `T` is deduced as a const type for const arguments, and `not_const_type` fails; rvalues do
not bind. -/
def lvalueCtor (ex : Ty M → M → Bool) (R : RT M) (x : Arg M) : Cand Act :=
  ⟨.ofValue, bindIf (!x.rvalue && !x.const && !isPolymorphic x.ty && existFor ex x.ty R.ms) ⟨0, false, false⟩, 2⟩

/-- `const_poly_ref(const T&)` (626-630), `stateful::cref(const T&)` (945-949). -/
def constRefCtor (ex : Ty M → M → Bool) (R : RT M) (x : Arg M) : Cand Act :=
  ⟨.ofValue, bindIf (!isPolymorphic x.ty && existFor ex x.ty R.ms) ⟨0, false, true⟩, 2⟩

/-- A parameter of type `kind<Methods...>` with the methods of `R`, exactly: `const_poly_ref(poly_ref<Methods...>)` (632-634),
`const_poly_ptr(poly_ptr<Methods...>)` (772-775), `ref(poly_ref<Methods...>)` (909-911), `cref(const_poly_ref<Methods...>)`, `cref(poly_ref<Methods...>)`,
`cref(const stateful::ref<Methods...>&)` (951-960). -/
def exactCtor (k : Kind) (R : RT M) (x : Arg M) : Cand Act := ⟨.ofRef, bindIf (x.ty == .ref ⟨k, R.ms⟩) ⟨0, false, false⟩, 0⟩

/-- A template with parameter `kind<FromMethods...>` that requires a contiguous sublist: `poly_ref` (596-601), `const_poly_ref` (635-646), `poly_ptr`
(690-698), `const_poly_ptr` (776-792). -/
def subCtor (k : Kind) (R : RT M) (x : Arg M) : Cand Act :=
  match x.ty with
  | .ref ⟨k', f⟩ => ⟨.ofRef, bindIf (k' == k && (⟨k', f⟩ : RT M) != R && hasSubsequence R.ms f) ⟨0, false, false⟩, 1⟩
  | _ => ⟨.ofRef, none, 1⟩

/-- Is there an overload of `FOO` for this type of reference with methods `f`: `ref::FOO` (877-895), `cref::FOO` (962-990). All methods of `R`
must be among `f`, in any order. -/
def foo (R : RT M) (k : Kind) (f : List M) : Bool :=
  (match R.kind with
    | .ref => k == .polyRef || k == .ref
    | .cref => k == .polyRef || k == .constPolyRef || k == .ref || k == .cref
    | _ => false) && R.ms.all fun m => containsV m f

/-- `ref(const X&)` (915-918), `cref(const X&)` (995-998). -/
def fooCtor (R : RT M) (x : Arg M) : Cand Act :=
  match x.ty with
  | .ref ⟨k, f⟩ => ⟨.ofRef, bindIf (foo R k f) ⟨0, false, true⟩, 2⟩
  | _ => ⟨.ofRef, none, 2⟩

/-- `poly_ptr(std::nullptr_t)` (665-666), `const_poly_ptr(std::nullptr_t)` (747-748). -/
def nullCtor (x : Arg M) : Cand Act := ⟨.null, bindIf (x.ty == .null) ⟨0, false, false⟩, 0⟩

/-- `poly_ptr(T*)` (673-679): `T` is not const and not an any. -/
def ptrCtor (ex : Ty M → M → Bool) (R : RT M) (x : Arg M) : Cand Act :=
  match x.ty with
  | .ptr p c => ⟨.ofPtr, bindIf (!c && (match p with | .any _ => false | _ => true) && existFor ex p.ty R.ms) ⟨0, false, false⟩, 1⟩
  | _ => ⟨.ofPtr, none, 1⟩

/-- `poly_ptr(Any*)` (680-689). -/
def anyPtrCtor (R : RT M) (x : Arg M) : Cand Act :=
  match x.ty with
  | .ptr (.any am) c => ⟨.ofAny, bindIf (!c && hasSubsequence R.ms am) ⟨0, false, false⟩, 1⟩
  | _ => ⟨.ofAny, none, 1⟩

/-- `const_poly_ptr(const T*)` (754-759): `T` is not polymorphic. -/
def constPtrCtor (ex : Ty M → M → Bool) (R : RT M) (x : Arg M) : Cand Act :=
  match x.ty with
  | .ptr p _ => ⟨.ofPtr, bindIf (!isPolymorphic p.ty && existFor ex p.ty R.ms) ⟨0, false, true⟩, 1⟩
  | _ => ⟨.ofPtr, none, 1⟩

/-- `const_poly_ptr(const Any*)` (760-770): the arguments of `has_subsequence` in the order of the code. -/
def constAnyPtrCtor (R : RT M) (x : Arg M) : Cand Act :=
  match x.ty with
  | .ptr (.any am) _ => ⟨.ofAny, bindIf (hasSubsequence am R.ms) ⟨0, false, true⟩, 1⟩
  | _ => ⟨.ofAny, none, 1⟩

/-- The constructors of `poly_ptr`. (anyany.hpp:664-699.) -/
def polyPtrCtors (ex : Ty M → M → Bool) (R : RT M) (x : Arg M) : List (Cand Act) :=
  [copyCtor R x, moveCtor R x, nullCtor x, ptrCtor ex R x, anyPtrCtor R x, subCtor .polyPtr R x]

/-- `const_poly_ptr(poly_ptr<Methods...>)` (772-775) with an argument that must be converted to `poly_ptr<Methods...>`: such conversions are considered for
direct initialisation only. -/
def viaPtrCtor (direct : Bool) (ex : Ty M → M → Bool) (R : RT M) (x : Arg M) : Cand Act :=
  ⟨.viaPtr, bindIf (direct && x.ty != .ref ⟨.polyPtr, R.ms⟩ && (resolve (polyPtrCtors ex ⟨.polyPtr, R.ms⟩ x)).isSome) ⟨2, false, false⟩, 0⟩

/-- The overload set. The other parameters that are references of an exact type (`exactCtor`) could be converted to as well in
direct initialisation: every argument that converts to such a type is accepted, at better rank, by another constructor of the same class (theorem
`exact_covered`). (anyany.hpp:579-646, 664-699, 746-792, 875-918, 939-998.) -/
def ctors (direct : Bool) (ex : Ty M → M → Bool) (R : RT M) (x : Arg M) : List (Cand Act) :=
  match R.kind with
  | .polyRef => [copyCtor R x, moveCtor R x, lvalueCtor ex R x, subCtor .polyRef R x]
  | .constPolyRef => [copyCtor R x, moveCtor R x, constRefCtor ex R x, exactCtor .polyRef R x, subCtor .constPolyRef R x, subCtor .polyRef R x]
  | .polyPtr => polyPtrCtors ex R x
  | .constPolyPtr => [copyCtor R x, moveCtor R x, nullCtor x, constPtrCtor ex R x, constAnyPtrCtor R x, exactCtor .polyPtr R x, viaPtrCtor direct ex R x,
      subCtor .constPolyPtr R x, subCtor .polyPtr R x]
  | .ref => [copyCtor R x, moveCtor R x, lvalueCtor ex R x, exactCtor .polyRef R x, fooCtor R x]
  | .cref => [copyCtor R x, moveCtor R x, constRefCtor ex R x, exactCtor .constPolyRef R x, exactCtor .polyRef R x, exactCtor .ref R x, fooCtor R x]

/-- The constructor called by `R r(x)` (`direct`) or `R r = x`, also `f(x)` with a parameter `R`. This is what `std::is_constructible`,
`std::is_convertible` see. (anyany.hpp:579-646, 664-699, 746-792, 875-918, 939-998.) -/
def construct (direct : Bool) (ex : Ty M → M → Bool) (R : RT M) (x : Arg M) : Option Act := resolve (ctors direct ex R x)

/-- Does the body of the called constructor compile: `subtable_ptr` in `const_poly_ptr(const Any*)` (766) has its own constraint (420-422). -/
def bodyOk (R : RT M) (x : Arg M) (a : Act) : Bool :=
  match R.kind, a, x.ty with
  | .constPolyPtr, .ofAny, .ptr (.any am) _ => hasSubsequence R.ms am
  | _, _, _ => true

/-- The initialisation compiles. (anyany.hpp:562-1005.) -/
def compiles (direct : Bool) (ex : Ty M → M → Bool) (R : RT M) (x : Arg M) : Bool :=
  match construct direct ex R x with
  | some a => bodyOk R x a
  | none => false

/-- What an assignment calls: `operator=` of the class, with the argument itself or with a
    temporary constructed from it; `= nullptr`; a deleted function. (anyany.hpp:581-586, 623,
    667-670, 749-752.) -/
inductive AssignAct where
  | rebind (via : Option Act)
  | null
  | deleted
deriving DecidableEq, Repr

/-- `template <typename X> void operator=(X&&) = delete` (583-584) and the copy and move assignment (581-582) of the four reference types; the
defaulted ones and `operator=(std::nullptr_t)` (667-670, 749-752) of the two pointer types. Arguments of other types are converted implicitly. -/
def assign (ex : Ty M → M → Bool) (R : RT M) (x : Arg M) : Option AssignAct :=
  let conv := if x.ty == .ref R then none else construct false ex R x
  let copy : Cand AssignAct := ⟨.rebind none, bindIf (x.ty == .ref R) ⟨0, false, true⟩, 0⟩
  let move : Cand AssignAct := ⟨.rebind none, bindIf (x.ty == .ref R && (x.rvalue && !x.const)) ⟨0, true, false⟩, 0⟩
  let copyTmp : Cand AssignAct := ⟨.rebind conv, bindIf conv.isSome ⟨2, false, true⟩, 0⟩
  let moveTmp : Cand AssignAct := ⟨.rebind conv, bindIf conv.isSome ⟨2, true, false⟩, 0⟩
  if R.kind.isPtr then resolve [copy, move, copyTmp, moveTmp, ⟨.null, bindIf (x.ty == .null) ⟨0, false, false⟩, 0⟩]
  else resolve [copy, move, copyTmp, moveTmp, ⟨.deleted, some ⟨0, x.rvalue, x.const⟩, 2⟩]

end AnyAny.RefCtor
