import Verif.Props.UsesAlloc
import Verif.Props.Ctor
/-
Validation of the lists of arguments of Model/UsesAlloc.lean: for the arguments that Model/Ctor.lean has, both select the same constructor.
-/
namespace AnyAny.Check
open AnyAny.Ctor

private theorem resolve_one {β : Type} (f : β) (x : Arg) (ok : Bool) (s : Nat) : resolve [⟨f, bindForward x ok, s⟩] = if ok then some f else none := by
  cases ok <;> simp [resolve, bindForward]

/-- `basic_any(aa::force_stable_pointers, x)`. -/
theorem ctor_stable_agrees (ex : UsesAlloc.ATy → Meth → Bool) (a : AnyTy) (x : Arg) (c r : Bool) :
    UsesAlloc.ctor ex a [⟨.stable, c, r⟩, ⟨.of x.ty, x.const, x.rvalue⟩] = (constructStable (fun t => ex (.of t)) a x).map fun _ =>
      ⟨.dflt, .value (.of x.ty) [⟨.of x.ty, x.const, x.rvalue⟩] true⟩ := by
  simp only [UsesAlloc.ctor, UsesAlloc.stable, constructStable, resolve_one, UsesAlloc.ATy.isPolymorphic, UsesAlloc.existFor, existFor, List.isEmpty_nil, Bool.true_and]
  split <;> rfl

/-- `basic_any(std::allocator_arg, alloc, x)`. -/
theorem ctor_alloc_agrees (ex : UsesAlloc.ATy → Meth → Bool) (a : AnyTy) (x : Arg) :
    UsesAlloc.ctor ex a [UsesAlloc.tag, UsesAlloc.given, ⟨.of x.ty, x.const, x.rvalue⟩] = (constructAlloc (fun t => ex (.of t)) a x).map fun _ =>
      ⟨.given, .value (.of x.ty) [⟨.of x.ty, x.const, x.rvalue⟩] false⟩ := by
  simp only [UsesAlloc.ctor, UsesAlloc.withAlloc, UsesAlloc.tag, UsesAlloc.given, constructAlloc, resolve_one, UsesAlloc.existFor, existFor]
  by_cases h : a.methods.all (ex (.of x.ty)) = true
  · rw [if_pos h]; exact if_pos h
  · rw [if_neg h]; exact if_neg h

end AnyAny.Check
