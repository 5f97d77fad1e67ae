import Verif.Spec.Headers
/-
What one `#include` does, from all states in which a program can include a header: computed by the kernel, for C129.
-/
namespace AnyAny.Headers
open Spec

variable {c : Config} {p : List Item} {f g : File} {m : Mac}

def publics : List File := [.typeDescriptor, .anyany, .anyanyMacro, .visitInvoke, .utility, .variantSwarm, .dataParallelVector]

/-- The sets of files that can have been included between two lines of a program: by some headers of the family of anyany.hpp, and by others. -/
def doneSets : List (List File) :=
  (([[], [.typeDescriptor], [.anyany], [.utility], [.visitInvoke], [.anyany, .visitInvoke], [.utility, .visitInvoke]] : List (List File)).flatMap fun a =>
    [[], [File.anyanyMacro]].flatMap fun b => [[], [File.variantSwarm]].flatMap fun d => [[], [File.dataParallelVector]].map fun e => a ++ b ++ d ++ e).map
    fun l => allFiles.filter fun g => l.any fun f => (closure f).contains g
where
  closure : File → List File
    | .typeDescriptor => [.typeDescriptor, .typeDescriptorDetails]
    | .anyany => [.anyany, .typeDescriptor, .typeDescriptorDetails, .anyanyDetails, .common]
    | .utility => [.utility, .anyany, .typeDescriptor, .typeDescriptorDetails, .anyanyDetails, .common]
    | .visitInvoke => [.visitInvoke, .typeDescriptor, .typeDescriptorDetails, .visitInvokeDetails, .anyanyDetails, .common]
    | .anyanyMacro => [.anyanyMacro, .common]
    | .variantSwarm => [.variantSwarm, .variantSwarmDetails]
    | .dataParallelVector => [.dataParallelVector, .dataParallelVectorDetails]
    | _ => []

/-- The macros that are defined then. -/
def left (d : List File) : List (Mac × Who) := if d.contains .anyanyMacro then [(.method, .library), (.helper, .library)] else []

def declsOf (es : List Event) : List File := es.filterMap fun | .decls f => some f | _ => none

/-- Declarations come once and after those they use; `d`: what is there before. -/
def ordered : List File → List File → Bool
  | _, [] => true
  | d, f :: fs => (uses f).all d.contains && !d.contains f && ordered (f :: d) fs

/-- The event is as it should be (standard headers aside). -/
def good (c : Config) : Event → Bool
  | .decls _ | .std _ | .needed _ _ => true
  | .used _ _ w => w == some .library
  | .asked _ m b => truth c m == some b
  | .askedInclude f m b => f == .typeDescriptorDetails && m == .hasCpp20 && !b
  | .redefined _ | .lost _ | .tooDeep => false

/-- The types of `<compare>` are there when they are needed; `b`: before. -/
def supplied : Bool → List Event → Bool
  | _, [] => true
  | _, .std .ordering :: es => supplied true es
  | b, .needed _ .ordering :: es => b && supplied b es
  | b, _ :: es => supplied b es

/-- Only files that include no standard headers. -/
def bare (d : List File) : Bool := d.all fun g => g == .common || g == .anyanyMacro

def okStep (c : Config) (d : List File) (f : File) : Bool :=
  d.contains f ||
  let r := include_ c 6 f ⟨left d, d⟩
  let ds := declsOf r.2
  doneSets.contains r.1.done && r.1.macros == left r.1.done && r.2.all (good c) && ordered d ds && r.1.done.contains f &&
    (allFiles.all fun g => r.1.done.contains g == (d.contains g || ds.contains g)) && ds.contains .anyanyMacro == (f == .anyanyMacro) &&
    (!bare d || supplied false r.2 == (f != .typeDescriptor || !c.cpp20 || c.noTypename)) && (f == .anyanyMacro || !c.cpp20 || r.2.contains (.std .ordering)) &&
    !r.2.contains (.std .uintptr) && r.2.contains (.needed .typeDescriptor .uintptr) == (ds.contains .typeDescriptor && c.cpp20 && c.noTypename)

set_option maxRecDepth 100000

theorem step20 : (doneSets.all fun d => publics.all fun f => okStep ⟨true, false, true⟩ d f) = true := by decide +kernel
theorem step20' : (doneSets.all fun d => publics.all fun f => okStep ⟨true, true, true⟩ d f) = true := by decide +kernel
theorem step17 : (doneSets.all fun d => publics.all fun f => okStep ⟨false, false, true⟩ d f) = true := by decide +kernel
theorem step17' : (doneSets.all fun d => publics.all fun f => okStep ⟨false, true, true⟩ d f) = true := by decide +kernel

theorem okStep_all (hc : c.hasAttribute = true) {d : List File} (hd : d ∈ doneSets) (hf : f ∈ publics) : okStep c d f = true := by
  obtain ⟨a, b, t⟩ := c
  cases hc
  have key : ∀ c' : Config, (doneSets.all fun d => publics.all fun f => okStep c' d f) = true → okStep c' d f = true := by
    intro c' h
    exact List.all_eq_true.1 (List.all_eq_true.1 h d hd) f hf
  cases a <;> cases b
  · exact key _ step17
  · exact key _ step17'
  · exact key _ step20
  · exact key _ step20'

end AnyAny.Headers
