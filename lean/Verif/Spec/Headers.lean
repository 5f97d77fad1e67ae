import Verif.Model.Headers
/-
What including the headers should do: the specification for C129.
-/
namespace AnyAny.Headers.Spec

/-- The headers that programs include. -/
def Public (f : File) : Prop :=
  f = .typeDescriptor ∨ f = .anyany ∨ f = .anyanyMacro ∨ f = .visitInvoke ∨ f = .utility ∨ f = .variantSwarm ∨ f = .dataParallelVector

/-- The program includes headers of the library and standard headers, and defines none of the macros of the library. -/
def Plain (p : List Item) : Prop := ∀ i ∈ p, (∃ f, i = .header f ∧ Public f) ∨ ∃ n, i = .std n

/-- The files whose declarations the code of a file uses. -/
def uses : File → List File
  | .typeDescriptor => [.typeDescriptorDetails]
  | .anyanyDetails => [.common]
  | .anyany => [.common, .anyanyDetails, .typeDescriptor]
  | .anyanyMacro => [.common]
  | .visitInvokeDetails => [.common, .anyanyDetails]
  | .visitInvoke => [.common, .anyanyDetails, .visitInvokeDetails, .typeDescriptor]
  | .utility => [.common, .anyanyDetails, .typeDescriptor, .anyany]
  | .variantSwarm => [.variantSwarmDetails]
  | .dataParallelVector => [.dataParallelVectorDetails]
  | _ => []

/-- Whether such a macro should be defined: `AA_HAS_CPP20`, `AA_CANT_GET_TYPENAME`. -/
def truth (c : Config) : Mac → Option Bool
  | .hasCpp20 => some c.cpp20
  | .cantGetTypename => some c.noTypename
  | _ => none

/-- What happens in the translation unit. -/
def events (c : Config) (p : List Item) : List Event := (run c p start).2

/-- Wherever code needs the declaration, a standard header with it has been included before. -/
def Supplied (c : Config) (p : List Item) (n : Need) : Prop :=
  ∀ a f b, events c p = a ++ .needed f n :: b → .std n ∈ a

/-- type_descriptor.hpp is included before all headers that include a standard header with `std::strong_ordering`. -/
def DescriptorFirst (p : List Item) : Prop :=
  ∃ a b, p = a ++ .header .typeDescriptor :: b ∧ ∀ i ∈ a, i = .header .anyanyMacro ∨ i = .std .uintptr

end AnyAny.Headers.Spec
