/-
Model of type descriptors (include/anyany/type_descriptor.hpp:25-72, 127-136 and
noexport/type_descriptor_details.hpp:16-54, the variant with type names; the other one is at the end).

A `const char*` is an address; `Mem` gives the characters from an address on. Characters are integers
(`char` may be signed). Reading past the end of the known characters is `none`.
-/
namespace AnyAny.Descriptor

/-- Characters from an address on. The strings behind `_value` (type_descriptor.hpp:23-43). -/
abbrev Mem := Nat → List Int

/-- `noexport::strcmp` (noexport/type_descriptor_details.hpp:22-31): advance while the characters are equal and
not the terminator, then compare them. -/
def strcmp : List Int → List Int → Option Ordering
  | l :: ls, r :: rs => if l = r ∧ l ≠ 0 then strcmp ls rs else some (compare l r)
  | _, _ => none

/-- `starts_with` (noexport/type_descriptor_details.hpp:16-20). -/
def startsWith : List Int → List Int → Option Bool
  | p :: ps, a :: as => if p = a ∧ p ≠ 0 then startsWith ps as else some (p == 0)
  | _, _ => none

/-- `n<T>()` with MSVC (noexport/type_descriptor_details.hpp:41-49): the name without `class ` or `struct `. -/
def stripMsvc (cls strct : List Int) (res : List Int) : Option (List Int) :=
  match startsWith (cls ++ [0]) res with
  | none => none
  | some true => some (res.drop (cls.length + 1))
  | some false =>
    match startsWith (strct ++ [0]) res with
    | none => none
    | some true => some (res.drop (strct.length + 1))
    | some false => some res

/-- `descriptor_t::operator==` (type_descriptor.hpp:39-54): equal pointers are equal; otherwise the names are
compared. -/
def descEq (m : Mem) (p q : Nat) : Option Bool :=
  if p = q then some true else (strcmp (m p) (m q)).map (· == .eq)

/-- The same during constant evaluation, and in C++17: without the shortcut (type_descriptor.hpp:44-52). -/
def descEqConst (m : Mem) (p q : Nat) : Option Bool := (strcmp (m p) (m q)).map (· == .eq)

/-- `descriptor_t::operator<=>` (type_descriptor.hpp:56-62). -/
def descCmp (m : Mem) (p q : Nat) : Option Ordering := strcmp (m p) (m q)

/-- `string_view(const char*)`: the characters before the terminator. No code of the library; used
    at type_descriptor.hpp:132. -/
def stringView : List Int → Option (List Int)
  | [] => none
  | c :: cs => if c = 0 then some [] else (stringView cs).map (c :: ·)

/-- `std::hash<descriptor_t>` (type_descriptor.hpp:127-136), with an arbitrary hash of strings. -/
def descHash (h : List Int → Nat) (m : Mem) (p : Nat) : Option Nat := (stringView (m p)).map h

/-! ### The variant without type names, for other compilers and with `ANYANY_ASSUME_NO_DLLS` (noexport/file_begin.hpp:27-40); its comparisons are in Model/Cpp17.lean -/

/-- The variables `descriptor<T>` (noexport/type_descriptor_details.hpp:12-14), each of which contains its own address: `var l t` is the one that code in the program or shared
library `l` uses for the type `t`. -/
abbrev Vars (L T : Type) := L → T → Nat

/-- `std::hash<descriptor_t>` (type_descriptor.hpp:130-131), with an arbitrary hash of pointers. -/
def descHashPtr (h : Nat → Nat) (p : Nat) : Nat := h p

end AnyAny.Descriptor
