import Verif.Model.RefCtor
/-
What the six class templates for references and pointers can be made from. `ex t m`: method `m` exists for type `t`.
-/
namespace AnyAny.RefCtor
open AnyAny.Poly (Kind)

variable {M : Type}

/-- All methods exist for the type. -/
def Has (ex : Ty M → M → Bool) (t : Ty M) (ms : List M) : Prop := ∀ m ∈ ms, ex t m = true

/-- An object that is neither an any nor a reference. -/
def Object (t : Ty M) : Prop := (∀ ms, t ≠ .any ms) ∧ ∀ r, t ≠ .ref r

/-- The documented sources of the six class templates (README, comments at anyany.hpp:588, 625-634, 671-689, 754-775, 912-914, 992-994): mutable references from
mutable lvalues, const references from every object; from other references with at least these methods (contiguous for the stateless ones), a const one also from
a mutable one; pointers from pointers, from pointers to anys, from null. -/
def Accepts (ex : Ty M → M → Bool) (R : RT M) (x : Arg M) : Prop :=
  match R.kind with
  | .polyRef => (Object x.ty ∧ x.const = false ∧ x.rvalue = false ∧ Has ex x.ty R.ms) ∨ ∃ f, x.ty = .ref ⟨.polyRef, f⟩ ∧ R.ms <:+: f
  | .constPolyRef => (Object x.ty ∧ Has ex x.ty R.ms) ∨ ∃ k f, (k = .polyRef ∨ k = .constPolyRef) ∧ x.ty = .ref ⟨k, f⟩ ∧ R.ms <:+: f
  | .polyPtr => x.ty = .null ∨ (∃ p, x.ty = .ptr p false ∧ (∀ am, p ≠ .any am) ∧ Has ex p.ty R.ms) ∨
      (∃ am, x.ty = .ptr (.any am) false ∧ R.ms <:+: am) ∨ ∃ f, x.ty = .ref ⟨.polyPtr, f⟩ ∧ R.ms <:+: f
  | .constPolyPtr => x.ty = .null ∨ (∃ p c, x.ty = .ptr p c ∧ Object p.ty ∧ Has ex p.ty R.ms) ∨
      (∃ am c, x.ty = .ptr (.any am) c ∧ R.ms <:+: am) ∨ ∃ k f, (k = .polyPtr ∨ k = .constPolyPtr) ∧ x.ty = .ref ⟨k, f⟩ ∧ R.ms <:+: f
  | .ref => (Object x.ty ∧ x.const = false ∧ x.rvalue = false ∧ Has ex x.ty R.ms) ∨
      ∃ k f, (k = .polyRef ∨ k = .ref) ∧ x.ty = .ref ⟨k, f⟩ ∧ ∀ m ∈ R.ms, m ∈ f
  | .cref => (Object x.ty ∧ Has ex x.ty R.ms) ∨ ∃ k f, k.isPtr = false ∧ x.ty = .ref ⟨k, f⟩ ∧ ∀ m ∈ R.ms, m ∈ f

/-- The argument gives access to a mutable object, for pointers: it is null, a pointer to non-const or a `poly_ptr`; for references: it is a
non-const lvalue or a mutable reference. -/
def Mutable (R : RT M) (x : Arg M) : Prop :=
  if R.kind.isPtr then x.ty = .null ∨ (∃ p, x.ty = .ptr p false) ∨ ∃ f, x.ty = .ref ⟨.polyPtr, f⟩
  else (x.const = false ∧ x.rvalue = false) ∨ ∃ k f, k.isConst = false ∧ x.ty = .ref ⟨k, f⟩

end AnyAny.RefCtor
