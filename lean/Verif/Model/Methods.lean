import Verif.Model.TypeList
/-
Methods as the library sees them: their signatures, what a method gets as `self`, which types have a method, the plugin of a method, and
what a reference to an object of an arbitrary C++ type (also an array or a function) consists of.
-/
namespace AnyAny.Methods

/-! ### Types -/

/-- C++ types without reference and top-level `const`: classes and scalars, pointers, arrays and
    functions. Language rule, no code of the library; the types that anyany.hpp:216-227, 588-630,
    900-960 are instantiated with. -/
inductive Ty where
  | obj (n : Nat)
  | ptr (t : Ty)
  | arr (t : Ty) (n : Nat)
  | fn (f : Nat)
deriving DecidableEq, Repr

/-- `std::decay_t`. No code of the library; used at anyany.hpp:218, 1310, type_descriptor.hpp:72.
    -/
def Ty.decay : Ty → Ty
  | .arr t _ => .ptr t
  | .fn f => .ptr (.fn f)
  | t => t

/-- Language rule, no code of the library; used for the lvalues of anyany.hpp:588-630, 900-960. -/
def Ty.isArray : Ty → Bool
  | .arr .. => true
  | _ => false

/-- Language rule, no code of the library; used for the lvalues of anyany.hpp:588-630, 900-960. -/
def Ty.isFunction : Ty → Bool
  | .fn _ => true
  | _ => false

/-- `erased_self_t`, an alias of `int` (noexport/common.hpp:5-7). -/
def erasedSelf : Ty := .obj 0

/-! ### Signatures -/

/-- How a function declares its first parameter: `Self`, `Self&`, `const Self&`, `Self&&`, `const
    Self&&`. The first parameter of `do_invoke` (noexport/anyany_details.hpp:100-125). -/
inductive Self where
  | val | lref | clref | rref | crref
deriving DecidableEq, Repr

/-- A function type `R(Self, Args...)`; result and argument types are opaque. (`noexcept` changes nothing in the traits:
noexport/anyany_details.hpp:115-125.) -/
structure Sig where
  result : Nat
  self : Self
  args : List Nat
deriving DecidableEq, Repr

/-- The type selected by `signature_t`: a function type (regular method) or another type
    (pseudomethod). (noexport/anyany_details.hpp:205-222.) -/
inductive Signature where
  | func (s : Sig)
  | value (t : Nat)
deriving DecidableEq, Repr

/-- What a Method class declares. The members that noexport/anyany_details.hpp:202-222 and
    anyany.hpp:177-227 look for. -/
structure Method where
  /-- `Method::signature_type` -/
  signatureType : Option Signature
  /-- type of `Method::do_invoke<T>`; `none`: there is no such function -/
  doInvoke : Ty → Option Sig
  /-- `Method::value_type` -/
  valueType : Option Nat
  /-- is `Method{}.do_value<T>()` valid? -/
  doValue : Ty → Bool

/-- `get_method_signature`, `signature_t` (noexport/anyany_details.hpp:214-223): `signature_type`, else the type of `do_invoke<erased_self_t>`,
else `value_type`. `none`: does not compile. -/
def Method.signature (m : Method) : Option Signature :=
  match m.signatureType with
  | some s => some s
  | none =>
    match m.doInvoke erasedSelf with
    | some s => some (.func s)
    | none => m.valueType.map .value

/-- `std::is_lvalue_reference_v`. Used at anyany.hpp:183. -/
def Self.isLvalueRef : Self → Bool
  | .lref | .clref => true
  | _ => false

/-- `any_method_traits<R(Self, Args...)>::is_const` (noexport/anyany_details.hpp:108-109). -/
def Self.isConst : Self → Bool
  | .val | .clref | .crref => true
  | .lref | .rref => false

/-- `is_const_method_v` (anyany.hpp:65-66): pseudomethods are const (noexport/anyany_details.hpp:97). -/
def Method.isConst (m : Method) : Bool :=
  match m.signature with
  | some (.func s) => s.self.isConst
  | _ => true

/-! ### Calling do_invoke -/

/-- What a call of a method can do to the object it is called on. Language rule, no code of the
    library; for the calls at anyany.hpp:183-188. -/
inductive Access where
  /-- it is bound to a reference to non-const -/
  | mutable
  /-- it is bound to a reference to const -/
  | const
  /-- it is copied, by the copy constructor -/
  | copy
  /-- the entry is a value computed from the type; no object is involved -/
  | value
deriving DecidableEq, Repr

/-- Initialisation of the parameter of `do_invoke` with an lvalue of type `T` or `const T` (C++ rules; `copyable`: `T` is copy constructible).
`none`: ill-formed. The calls at anyany.hpp:183-188. -/
def bindSelf (constLvalue copyable : Bool) : Self → Option Access
  | .lref => if constLvalue then none else some .mutable
  | .clref => some .const
  | .val => if copyable then some .copy else none
  | .rref | .crref => none

/-- `invoker_for<T, Method>::value` (anyany.hpp:168-208): what the vtable entry for `T` gives to the method. `copyable T`:
`std::is_copy_constructible_v<T>`. `none`: instantiation fails. (Simplification: `do_invoke<T>` must have the declared argument and result types;
the code also allows types that convert.) -/
def invoker (copyable : Ty → Bool) (m : Method) (t : Ty) : Option Access :=
  match m.signature with
  | none => none
  | some (.value _) => if m.doValue t then some .value else none
  | some (.func s) =>
    match m.doInvoke t with
    | none => none
    | some s' =>
      if s'.args = s.args ∧ s'.result = s.result then
        if s.self.isLvalueRef then bindSelf s.self.isConst (copyable t) s'.self
        else if copyable t then bindSelf true (copyable t) s'.self
        else none
      else none

/-- `exist_for<X, Method>` for one method (anyany.hpp:215-227). -/
def existFor1 (m : Method) (x : Ty) : Bool := (m.doInvoke x.decay).isSome || m.doValue x.decay

/-- `exist_for<X, Methods...>` (anyany.hpp:215-227). -/
def existFor (ms : List Method) (x : Ty) : Bool := ms.all fun m => existFor1 m x

/-- `vtable_for<T, Methods...>` compiles (anyany.hpp:452-454). -/
def vtableCompiles (copyable : Ty → Bool) (ms : List Method) (t : Ty) : Bool := ms.all fun m => (invoker copyable m t).isSome

/-! ### Objects, references and pointers -/

/-- Ways to make a polymorphic object from an lvalue of some type. (anyany.hpp:588-630, 673-679,
    754-759, 900-907, 943-949, 1281-1320.) -/
inductive Source where
  /-- `poly_ref(T&)` (anyany.hpp:588-595) -/
  | polyRef
  /-- `const_poly_ref(const T&)` (anyany.hpp:624-630) -/
  | constPolyRef
  /-- `stateful::ref(T&)` (anyany.hpp:900-907) -/
  | statefulRef
  /-- `stateful::cref(const T&)` (anyany.hpp:943-947) -/
  | statefulCref
  /-- `poly_ptr(T*)` from the address of the object (anyany.hpp:674-680) -/
  | polyPtr
  /-- `const_poly_ptr(const T*)` (anyany.hpp:754-759) -/
  | constPolyPtr
  /-- `basic_any(T&&)` (anyany.hpp:1303-1312, 1128-1148): a new object of the decayed type -/
  | any
deriving DecidableEq, Repr

/-- What was made: the type of the object at the stored address and the type whose entries are in
    the vtable. The members at anyany.hpp:567, 614, 660, 742, 868, 935, 1115-1116. -/
structure Made where
  object : Ty
  entries : Ty
deriving DecidableEq, Repr

/-- Make a polymorphic object from an lvalue of type `t`. References and pointers store the address of the lvalue itself, and the vtable of the
decayed type (`addr_vtable_for` decays, anyany.hpp:456-458; `invoker_for<std::decay_t<T>, Methods>`, 905, 946). The address of a function does not
convert to `void*`. An any stores the decayed value. `none`: does not compile. -/
def make (copyable : Ty → Bool) (ms : List Method) (src : Source) (t : Ty) : Option Made :=
  if existFor ms t && vtableCompiles copyable ms t.decay then
    match src with
    | .any => some ⟨t.decay, t.decay⟩
    | _ => if t.isFunction then none else some ⟨t, t.decay⟩
  else none

/-- Calling method `m` (a member of the vtable): the entry of type `entries` accesses the object at the stored address as an object of that type.
`none`: undefined behaviour, if there is an object of another type. `invoke<Method>`
  (anyany.hpp:1019-1056) through `invoker_for::value` (179-193). -/
def call (copyable : Ty → Bool) (m : Method) (o : Made) : Option Access :=
  match invoker copyable m o.entries with
  | some .value => some .value
  | some a => if o.object = o.entries then some a else none
  | none => none

/-! ### Plugins -/

/-- The plugin-related declarations of a method for a polymorphic class: a user specialization of `aa::plugin<Any, Method>` with or without a
member `type`, the member template `plugin<Any>` of the method, and its member type `plugin`.
  Plugins are numbers; `void` is not a plugin. (noexport/anyany_details.hpp:202-207;
  anyany.hpp:48-49, 511-524.) -/
structure PluginDecl where
  /-- the specialization itself and its member `type` -/
  specialization : Option (Option Nat × Option (Option Nat))
  memberTemplate : Option (Option Nat)
  memberType : Option (Option Nat)

/-- `get_plugin` (noexport/anyany_details.hpp:202-207). `none` is `void`. -/
def getPlugin (d : PluginDecl) : Option Nat :=
  match d.memberTemplate with
  | some p => p
  | none =>
    match d.memberType with
    | some p => p
    | none => none

/-- `plugin_t<Any, Method>` (anyany.hpp:48-49, 511-524): the member `type` of `plugin<Any, Method>`, or the specialization itself. -/
def pluginT (d : PluginDecl) : Option Nat :=
  match d.specialization with
  | some (self, some ty) => let _ := self; ty
  | some (self, none) => self
  | none => getPlugin d

/-- `construct_interface<CRTP, Methods...>` (anyany.hpp:525-527). -/
def constructInterface (base : Option Nat → Option Nat → Bool) (ds : List PluginDecl) : List (Option Nat) :=
  TypeList.inheritWithoutDuplicates Option.isNone base (ds.map pluginT) []

end AnyAny.Methods
