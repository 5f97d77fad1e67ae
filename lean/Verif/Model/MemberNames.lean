import Verif.Model.TypeList
/-
Member functions of polymorphic classes: what `x.name(...)` finds for an any or a reference `x`. Every method adds a plugin, a base class
(noexport/anyany_details.hpp:187-207, anyany.hpp:511-528); name lookup in a class and its bases follows [class.member.lookup].
-/
namespace AnyAny.MemberNames
open AnyAny.TypeList

/-- How a method takes `self`: `self`, `const& self`, `& self`, or by rvalue reference (anyany_macro.hpp:83-107). -/
inductive Self where
  | value | constRef | mutRef | rvalueRef
  deriving DecidableEq, Repr

/-- A method: declared by `anyany_method` (anyany_macro.hpp:83-117) with a name, in some namespace, with template arguments if it is a
template (a name of a member of the struct that the macro declares, such as `do_invoke`, is an error there); `aa::call<Signature>` (anyany.hpp:1919-1944); or one without plugin, such as those of `anyany_extern_method`
(anyany_macro.hpp:120-130), `aa::destroy` and `aa::move`. -/
inductive Meth where
  | named (name : String) (scope : Nat) (args : List Nat) (self : Self)
  | call (sig : Nat) (const : Bool)
  | noPlugin (n : Nat)
  deriving DecidableEq, Repr

/-- Is there no plugin? (`get_plugin(...) -> void`, noexport/anyany_details.hpp:206-207.) -/
def Meth.isVoid : Meth → Bool
  | .noPlugin _ => true
  | _ => false

/-- The name of the member function of the plugin: `Ret NAME(Args...)` of `make_plugin`, whose primary template, used for rvalue references, is
empty (anyany_macro.hpp:87-107); `operator()` of `call` (anyany.hpp:1934-1940). -/
def Meth.member : Meth → Option String
  | .named _ _ _ .rvalueRef => none
  | .named n _ _ _ => some n
  | .call _ _ => some "operator()"
  | .noPlugin _ => none

/-- Is the member function const? (anyany_macro.hpp:90-107: that for `self` by value is inherited from that for `const&`; anyany.hpp:1934.) -/
def Meth.constMember : Meth → Bool
  | .named _ _ _ .mutRef => false
  | .call _ c => c
  | _ => true

/-- Polymorphic classes with plugins. -/
inductive Kind where
  | any | polyRef | constPolyRef | ref | cref
  deriving DecidableEq, Repr

/-- The names declared in the class itself, private ones and the name of the class included: `basic_any` (anyany.hpp:1109-1511), `poly_ref`
(565-605), `const_poly_ref` (609-650), `stateful::ref` (863-921), `stateful::cref` (930-1006), and `inheritor_of`, the base that has the plugins
as bases (noexport/anyany_details.hpp:187) and hides their members with its own name. Operators are left out but for the call. -/
def Kind.own : Kind → List String
  | .any =>
    ["basic_any", "inheritor_of", "aa_polymorphic_tag", "vtable_ptr", "value_ptr", "data", "size_allocated", "alloc", "any_is_small_for", "emplace_in_empty",
     "alloc_traits", "alloc_pointer_type", "movable_alloc", "has_method", "has_copy", "has_move", "base_any_type", "methods_list", "ptr", "ref",
     "cptr", "cref", "const_ptr", "const_ref", "stateful_ref", "stateful_cref", "interface", "get_allocator", "emplace", "reset",
     "destroy_value", "replace_with_bytes", "capacity", "is_stable_pointers", "has_value", "sizeof_now", "get_move_fn", "emplace_decayed",
     "construct_value", "move_value_from", "memory_allocated", "deallocate_memory"]
  | .polyRef => ["poly_ref", "inheritor_of", "value_ptr", "vtable_view_t"]
  | .constPolyRef => ["const_poly_ref", "inheritor_of", "value_ptr", "vtable_view_t"]
  | .ref => ["ref", "inheritor_of", "aa_polymorphic_tag", "value_ptr", "vtable_value", "FOO", "get_view"]
  | .cref => ["cref", "inheritor_of", "aa_polymorphic_tag", "value_ptr", "vtable_value", "FOO", "get_view"]

/-- The names in the other base of `poly_ref` and `const_poly_ref`, `vtable_view`, which has a specialisation for one method
(anyany.hpp:532-560). -/
def Kind.view (k : Kind) (ms : List Meth) : List String :=
  match k with
  | .polyRef | .constPolyRef => ["aa_polymorphic_tag", if ms.length = 1 then "vtable_value" else "vtable_ptr", "vtable_view"]
  | _ => []

/-- The plugins a class inherits (anyany.hpp:527-528, noexport/anyany_details.hpp:189-200). Plugins of different methods are unrelated. -/
def plugins (ms : List Meth) : List Meth := inheritWithoutDuplicates Meth.isVoid (fun a b => a == b) ms []

/-- What a name denotes. -/
inductive Found where
  | nothing
  /-- a member of the class, or of `vtable_view` -/
  | library
  | plugin (m : Meth)
  | ambiguous
  deriving DecidableEq, Repr

/-- Name lookup: a member of the class hides those of the bases; members of different bases are ambiguous. Language rule, for
anyany.hpp:565, 610, 864, 931, 1109. -/
def lookup (k : Kind) (ms : List Meth) (n : String) : Found :=
  if n ∈ k.own then .library
  else match (plugins ms).filter (fun m => m.member == some n), (k.view ms).contains n with
    | [], true => .library
    | [], false => .nothing
    | [m], false => .plugin m
    | _, _ => .ambiguous

/-- Does the class give its methods mutable access? `invoke` passes the value of a `const_poly_ref` or `cref` as const
(anyany.hpp:610-612, 931-935), so a method taking `& self` is an error in the body of the member function. -/
def Kind.isConst : Kind → Bool
  | .constPolyRef | .cref => true
  | _ => false

/-- `x.n(args...)`: the method called; `none`: does not compile or calls something else. A member function that is not const needs an
object that is not (anyany_macro.hpp:90-105). -/
def calls (k : Kind) (ms : List Meth) (constObj : Bool) (n : String) : Option Meth :=
  match lookup k ms n with
  | .plugin m => if m.constMember || (!constObj && !k.isConst) then some m else none
  | _ => none

end AnyAny.MemberNames
