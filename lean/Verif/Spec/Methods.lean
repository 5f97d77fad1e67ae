import Verif.Model.Methods
/-
What a user expects of methods.
-/
namespace AnyAny.Methods

/-- A method as the documentation describes it: `do_invoke` is a template whose signature is `s` for every type that has the method (in
particular `Self` has the same form for all of them), and `signature_type`, if given, agrees. -/
structure Regular (m : Method) (s : Sig) : Prop where
  sig : m.signature = some (.func s)
  uniform : ∀ t s', m.doInvoke t = some s' → s' = s
  noValue : ∀ t, m.doValue t = false

/-- A pseudomethod: a value computed from the type. -/
structure Pseudo (m : Method) : Prop where
  sig : ∃ v, m.signature = some (.value v)
  noInvoke : ∀ t, m.doInvoke t = none

/-- The signature of a method, in the order in which its declarations count: `signature_type`; the type of `do_invoke`, which must then be callable for any
`Self`; `value_type`. -/
inductive Declares (m : Method) : Signature → Prop
  | signatureType {g} (h : m.signatureType = some g) : Declares m g
  | doInvoke {s} (h : m.signatureType = none) (hd : m.doInvoke erasedSelf = some s) : Declares m (.func s)
  | valueType {v} (h : m.signatureType = none) (hd : m.doInvoke erasedSelf = none) (hv : m.valueType = some v) : Declares m (.value v)

/-- The type has the method: there is a `do_invoke` for it, or a value. -/
def Has (m : Method) (t : Ty) : Prop := (∃ s, m.doInvoke t = some s) ∨ m.doValue t = true

/-- What a parameter declaration promises. -/
def declared : Self → Option Access
  | .val => some .copy
  | .lref => some .mutable
  | .clref => some .const
  | .rref | .crref => none

/-- The plugin `p` of a method: the member `type` of a specialization of `aa::plugin`, or a specialization without it; without specialization the
method's member template `plugin`, or else its member type `plugin`. -/
inductive Selects : PluginDecl → Nat → Prop
  | specType {self : Option Nat} {p : Nat} {mt my} : Selects ⟨some (self, some (some p)), mt, my⟩ p
  | spec {p : Nat} {mt my} : Selects ⟨some (some p, none), mt, my⟩ p
  | template {p : Nat} {my} : Selects ⟨none, some (some p), my⟩ p
  | member {p : Nat} : Selects ⟨none, none, some (some p)⟩ p

end AnyAny.Methods
