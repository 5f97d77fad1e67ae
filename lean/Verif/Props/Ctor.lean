import Verif.Model.Ctor
import Verif.Props.TypeList
/-
C73: which constructor or assignment an initialisation from an any, a reference or a value calls.

`ex t m`: method `m` exists for type `t`; arbitrary in all theorems.
-/
namespace AnyAny.Ctor
open AnyAny.TypeList

variable {ex : Ty → Meth → Bool} {a : AnyTy} {x : Arg}

/-- `a` can be copied: it has `copy_with` with its own allocator and buffer size. -/
def Copyable (a : AnyTy) : Prop := .copy a.alloc a.soo ∈ a.methods

/-- The methods contain a way to move: `move` or some `copy_with`. -/
def Moves (ms : List Meth) : Prop := .move ∈ ms ∨ ∃ al s, .copy al s ∈ ms

/-- `b` offers the methods of `a`, in this order, and has the same allocator type and buffer size. -/
def Offers (b a : AnyTy) : Prop := b.alloc = a.alloc ∧ b.soo = a.soo ∧ a.methods <:+: b.methods

theorem hasCopy_iff : a.hasCopy = true ↔ Copyable a := by
  simp [AnyTy.hasCopy, Copyable, containsV_iff]

theorem hasMoveMethod_iff {ms : List Meth} : hasMoveMethod ms = true ↔ Moves ms := by
  simp only [hasMoveMethod, Bool.or_eq_true, containsV_iff, List.any_eq_true, Moves]
  constructor
  · rintro (⟨m, hm, hc⟩ | h)
    · cases m <;> simp [Meth.isCopy] at hc
      exact .inr ⟨_, _, hm⟩
    · exact .inl h
  · rintro (h | ⟨al, s, h⟩)
    · exact .inr h
    · exact .inl ⟨_, h, rfl⟩

theorem hasMove_of_copy (h : a.hasCopy = true) : a.hasMove = true := by
  have := hasMoveMethod_iff.mpr (.inr ⟨_, _, hasCopy_iff.mp h⟩)
  simp [AnyTy.hasMove, this]

/-- The overload set with the conditions as truth values: same type and copyable, same type and movable, other methods and copyable, other
methods and movable, whether a non-const rvalue is given. -/
theorem resolve_any (r : Nat) (rv cp mv tc tm : Bool) (t : Act) :
    resolve [⟨Act.copy, if cp then some ⟨r, false, true⟩ else none, 0⟩, ⟨Act.move, if mv && rv then some ⟨r, true, false⟩ else none, 0⟩,
      ⟨t, none, 2⟩, ⟨Act.transmuteCopy, if tc then some ⟨r, false, true⟩ else none, 1⟩,
      ⟨Act.transmuteMove, if tm && rv then some ⟨r, true, false⟩ else none, 1⟩] =
    if rv && mv then some .move else if rv && tm then some .transmuteMove else if cp then some .copy else if tc then some .transmuteCopy else none := by
  cases rv <;> cases cp <;> cases mv <;> cases tc <;> cases tm <;>
    simp [resolve, Cand.better, Ics.better, List.zipIdx, List.find?]

theorem construct_any {b : AnyTy} {r : Nat} (h : x.ty.asAny = some (b, r)) (hp : isPolymorphic x.ty = true) :
    construct ex a x = if b = a then (if (x.rvalue && !x.const && a.hasMove) = true then some .move else if a.hasCopy = true then some .copy else none)
      else if b.alloc = a.alloc ∧ b.soo = a.soo ∧ hasSubsequence a.methods b.methods = true then
        (if (x.rvalue && !x.const && hasMoveMethod b.methods) = true then some .transmuteMove
         else if containsV (.copy a.alloc a.soo) b.methods = true then some .transmuteCopy else none)
      else none := by
  have hm := hasMove_of_copy (a := a)
  have key := resolve_any r (x.rvalue && !x.const) (b == a && a.hasCopy) (b == a && a.hasMove)
    (b.alloc == a.alloc && b.soo == a.soo && (containsV (.copy a.alloc a.soo) b.methods && hasSubsequence a.methods b.methods))
    (b.alloc == a.alloc && b.soo == a.soo && (hasMoveMethod b.methods && hasSubsequence a.methods b.methods)) (.contain x.ty)
  simp only [construct, copyCtor, moveCtor, valueCtor, transmuteCopy, transmuteMove, bindConstRef, bindRvalue, bindForward, h, hp,
    Bool.not_true, Bool.false_and, Bool.false_eq_true, if_false, Bool.and_assoc] at key ⊢
  rw [key]
  by_cases hb : b = a
  · subst hb
    have h1 : containsV (.copy b.alloc b.soo) b.methods = b.hasCopy := rfl
    have h2 : hasMoveMethod b.methods = true → b.hasMove = true := fun h => by simp [AnyTy.hasMove, h]
    rw [h1]
    cases hc : b.hasCopy <;> cases hmv : b.hasMove <;> cases hmm : hasMoveMethod b.methods <;> cases x.rvalue <;> cases x.const <;> simp_all
  · have hb' : (b == a) = false := by simpa using hb
    cases hs : hasSubsequence a.methods b.methods <;> cases hmm : hasMoveMethod b.methods <;> cases hcc : containsV (.copy a.alloc a.soo) b.methods <;>
      cases x.rvalue <;> cases x.const <;> by_cases ha : b.alloc = a.alloc <;> by_cases hq : b.soo = a.soo <;> simp [hb, hb', ha, hq]

theorem asAny_polymorphic {t : Ty} {b : AnyTy} {r : Nat} (h : t.asAny = some (b, r)) : isPolymorphic t = true := by
  cases t <;> simp [Ty.asAny, isPolymorphic] at h ⊢

/-- Initialisation from an any (or a class derived from one) of the same type: a non-const rvalue is moved, everything else copied, if the
any can be moved or copied; otherwise the program is ill-formed. -/
theorem C73_same_any {r : Nat} (h : x.ty.asAny = some (a, r)) :
    (construct ex a x = some .move ↔ (x.rvalue = true ∧ x.const = false) ∧ (Moves a.methods ∨ a.soo = 0)) ∧
    (construct ex a x = some .copy ↔ ¬(x.rvalue = true ∧ x.const = false) ∧ Copyable a) ∧
    (construct ex a x = some .move ∨ construct ex a x = some .copy ∨ construct ex a x = none) := by
  rw [construct_any h (asAny_polymorphic h), if_pos rfl]
  have h1 : a.hasMove = true ↔ Moves a.methods ∨ a.soo = 0 := by simp [AnyTy.hasMove, hasMoveMethod_iff]
  have h2 := hasMove_of_copy (a := a)
  rw [← h1, ← hasCopy_iff]
  cases x.rvalue <;> cases x.const <;> cases hm : a.hasMove <;> cases hc : a.hasCopy <;> simp_all

/-- Initialisation from an any of another type that offers the methods: the value of a non-const rvalue is moved if it can be moved, otherwise
copied if it can be copied. From all other anys the program is ill-formed. -/
theorem C73_other_any {b : AnyTy} {r : Nat} (h : x.ty.asAny = some (b, r)) (hne : b ≠ a) :
    (construct ex a x = some .transmuteMove ↔ Offers b a ∧ (x.rvalue = true ∧ x.const = false) ∧ Moves b.methods) ∧
    (construct ex a x = some .transmuteCopy ↔ Offers b a ∧ ¬((x.rvalue = true ∧ x.const = false) ∧ Moves b.methods) ∧ Copyable b) ∧
    (construct ex a x = some .transmuteMove ∨ construct ex a x = some .transmuteCopy ∨ construct ex a x = none) := by
  rw [construct_any h (asAny_polymorphic h), if_neg hne]
  have h1 : Offers b a ↔ b.alloc = a.alloc ∧ b.soo = a.soo ∧ hasSubsequence a.methods b.methods = true := by
    simp [Offers, C23_hasSubsequence_iff_infix]
  rw [h1, ← hasCopy_iff, ← hasMoveMethod_iff]
  by_cases ho : b.alloc = a.alloc ∧ b.soo = a.soo ∧ hasSubsequence a.methods b.methods = true
  · rw [if_pos ho]
    have : containsV (.copy a.alloc a.soo) b.methods = b.hasCopy := by simp [AnyTy.hasCopy, ho.1, ho.2.1]
    rw [this]
    cases x.rvalue <;> cases x.const <;> cases hm : hasMoveMethod b.methods <;> cases hc : b.hasCopy <;> simp_all
  · rw [if_neg ho]; simp [ho]

/-- References and pointers with an interface do not initialise an any. -/
theorem C73_references {k : Nat} (h : x.ty = .poly k) : construct ex a x = none ∧ constructStable ex a x = none ∧ assign ex a x = none := by
  have hc : construct ex a x = none := by
    simp [construct, resolve, copyCtor, moveCtor, valueCtor, transmuteCopy, transmuteMove, bindConstRef, bindRvalue, bindForward, h, Ty.asAny, isPolymorphic,
      List.zipIdx, List.find?]
  refine ⟨hc, ?_, ?_⟩
  · simp [constructStable, resolve, bindForward, h, isPolymorphic, List.zipIdx]
  · have hv : converted ex a x = none := by simp [converted, h, Ty.asAny, hc]
    simp [assign, resolve, moveAssign, copyAssign, valueAssign, bindConstRef, bindRvalue, bindForward, hv, h, Ty.asAny, isPolymorphic, List.zipIdx, List.find?]

/-- A value of any other type, const or not, lvalue or rvalue, initialises an any that contains a value of its decayed type, exactly if all
methods exist for it; assignment emplaces it. Otherwise the program is ill-formed. -/
theorem C73_values {k : Nat} (h : x.ty = .plain k) :
    ((∀ m ∈ a.methods, ex (.plain k) m = true) → construct ex a x = some (.contain (.plain k)) ∧ constructStable ex a x = some (.contain (.plain k)) ∧
      constructAlloc ex a x = some (.contain (.plain k)) ∧ assign ex a x = some (.emplace (.plain k))) ∧
    (¬(∀ m ∈ a.methods, ex (.plain k) m = true) → construct ex a x = none ∧ constructStable ex a x = none ∧
      constructAlloc ex a x = none ∧ assign ex a x = none) := by
  have hc : construct ex a x = if existFor ex (.plain k) a.methods then some (.contain (.plain k)) else none := by
    cases he : existFor ex (.plain k) a.methods <;>
    simp [construct, resolve, copyCtor, moveCtor, valueCtor, transmuteCopy, transmuteMove, bindConstRef, bindRvalue, bindForward, h, Ty.asAny, isPolymorphic,
      List.zipIdx, List.find?, Cand.better, he]
  have hv : converted ex a x = construct ex a x := by simp [converted, h, Ty.asAny]
  have he : existFor ex (.plain k) a.methods = true ↔ ∀ m ∈ a.methods, ex (.plain k) m = true := by simp [existFor]
  rw [hc, ← he]
  cases hx : existFor ex (.plain k) a.methods
  · simp [constructStable, constructAlloc, assign, resolve, moveAssign, copyAssign, valueAssign, bindConstRef, bindRvalue, bindForward, hv, hc, h, hx,
      Ty.asAny, isPolymorphic, List.zipIdx, List.find?]
  · cases hm : a.hasMove <;> cases hp : a.hasCopy <;>
    simp [hm, hp, constructStable, constructAlloc, assign, resolve, moveAssign, copyAssign, valueAssign, bindConstRef, bindRvalue, bindForward, hv, hc, h, hx,
      Ty.asAny, isPolymorphic, List.zipIdx, List.find?, Cand.better, Ics.better]

theorem assign_same {r : Nat} (h : x.ty.asAny = some (a, r)) :
    assign ex a x = if (x.rvalue && !x.const && a.hasMove) = true then some (.moveAssign none) else if a.hasCopy = true then some (.copyAssign none) else none := by
  have hp := asAny_polymorphic h
  have hv : converted ex a x = none := by simp [converted, h]
  have h2 := hasMove_of_copy (a := a)
  cases hr : x.rvalue <;> cases hk : x.const <;> cases hm : a.hasMove <;> cases hc : a.hasCopy <;>
    simp_all [assign, resolve, moveAssign, copyAssign, valueAssign, bindConstRef, bindRvalue, bindForward, List.zipIdx, List.find?, Cand.better, Ics.better]

theorem assign_other {b : AnyTy} {r : Nat} (h : x.ty.asAny = some (b, r)) (hne : b ≠ a) :
    assign ex a x = match construct ex a x with
      | some c => if a.hasMove = true then some (.moveAssign (some c)) else none
      | none => none := by
  have hp := asAny_polymorphic h
  have hne' : (b == a) = false := by simpa using hne
  have hv : converted ex a x = construct ex a x := by simp [converted, h, hne']
  have h2 := hasMove_of_copy (a := a)
  cases hk : construct ex a x <;> cases hm : a.hasMove <;> cases hc : a.hasCopy <;>
    simp_all [assign, resolve, moveAssign, copyAssign, valueAssign, bindConstRef, bindRvalue, bindForward, List.zipIdx, List.find?, Cand.better, Ics.better]

/-- Assignment from an any of the same type is the move assignment for non-const rvalues and the copy assignment for everything else. -/
theorem C73_assign_same_any {r : Nat} (h : x.ty.asAny = some (a, r)) :
    (assign ex a x = some (.moveAssign none) ↔ (x.rvalue = true ∧ x.const = false) ∧ (Moves a.methods ∨ a.soo = 0)) ∧
    (assign ex a x = some (.copyAssign none) ↔ ¬(x.rvalue = true ∧ x.const = false) ∧ Copyable a) ∧
    (assign ex a x = some (.moveAssign none) ∨ assign ex a x = some (.copyAssign none) ∨ assign ex a x = none) := by
  rw [assign_same h]
  have h1 : a.hasMove = true ↔ Moves a.methods ∨ a.soo = 0 := by simp [AnyTy.hasMove, hasMoveMethod_iff]
  have h2 := hasMove_of_copy (a := a)
  rw [← h1, ← hasCopy_iff]
  cases x.rvalue <;> cases x.const <;> cases hm : a.hasMove <;> cases hc : a.hasCopy <;> simp_all

/-- Assignment from an any of another type is the move assignment from a temporary that is initialised from it. -/
theorem C73_assign_other_any {b : AnyTy} {r : Nat} (h : x.ty.asAny = some (b, r)) (hne : b ≠ a) (c : AssignAct) :
    assign ex a x = some c ↔ (Moves a.methods ∨ a.soo = 0) ∧ ∃ t, construct ex a x = some t ∧ c = .moveAssign (some t) := by
  have h1 : a.hasMove = true ↔ Moves a.methods ∨ a.soo = 0 := by simp [AnyTy.hasMove, hasMoveMethod_iff]
  rw [assign_other h hne, ← h1]
  cases hk : construct ex a x <;> cases hm : a.hasMove <;> simp [eq_comm]

/-- Initialisation and assignment from an any (or a class derived from one) or a reference never make an any that contains it. -/
theorem C73_never_nests_partial (hp : isPolymorphic x.ty = true) (t : Ty) :
    construct ex a x ≠ some (.contain t) ∧ constructStable ex a x ≠ some (.contain t) ∧ assign ex a x ≠ some (.emplace t) ∧
    assign ex a x ≠ some (.copyAssign (some (.contain t))) ∧ assign ex a x ≠ some (.moveAssign (some (.contain t))) := by
  have hst : constructStable ex a x ≠ some (.contain t) := by simp [constructStable, resolve, bindForward, hp, List.zipIdx]
  cases hty : x.ty.asAny with
  | none =>
    have : ∃ k, x.ty = .poly k := by
      cases hx : x.ty <;> simp [hx, Ty.asAny, isPolymorphic] at hty hp ⊢
    obtain ⟨k, hk⟩ := this
    obtain ⟨h1, h2, h3⟩ := C73_references (ex := ex) (a := a) hk
    simp [h1, h2, h3]
  | some br =>
    obtain ⟨b, r⟩ := br
    by_cases hb : b = a
    · subst hb
      have h1 := (C73_same_any (ex := ex) hty).2.2
      have h2 := (C73_assign_same_any (ex := ex) hty).2.2
      refine ⟨?_, hst, ?_, ?_, ?_⟩
      · rcases h1 with h1 | h1 | h1 <;> simp [h1]
      all_goals rcases h2 with h2 | h2 | h2 <;> simp [h2]
    · have h1 := (C73_other_any (ex := ex) hty hb).2.2
      have hn : construct ex a x ≠ some (.contain t) := by rcases h1 with h1 | h1 | h1 <;> simp [h1]
      refine ⟨hn, hst, ?_, ?_, ?_⟩ <;> rw [Ne, C73_assign_other_any hty hb]
      · rintro ⟨_, t, _, h⟩; cases h
      · rintro ⟨_, t, _, h⟩; cases h
      · rintro ⟨_, t, h', h⟩; cases h; exact hn h'

/-- `a = {}` is the move assignment of an empty any, if anys of the type can be moved; otherwise the program is ill-formed. -/
theorem C73_empty_braces (m : Bool) : assignEmptyBraces a = some m ↔ m = true ∧ (Moves a.methods ∨ a.soo = 0) := by
  have h1 : a.hasMove = true ↔ Moves a.methods ∨ a.soo = 0 := by simp [AnyTy.hasMove, hasMoveMethod_iff]
  have h2 := hasMove_of_copy (a := a)
  have h3 : assignEmptyBraces a = if a.hasMove = true then some true else none := by
    cases hm : a.hasMove <;> cases hc : a.hasCopy <;>
      simp_all [assignEmptyBraces, resolve, List.zipIdx, List.find?, Cand.better, Ics.better]
  rw [← h1, h3]
  cases a.hasMove <;> cases m <;> simp

/-- `a = {x}` from an any is `a = x`. -/
theorem C73_braces_any (h : ∀ k, x.ty ≠ .plain k) : assignBraces ex a x = assign ex a x := by
  have hp : isPolymorphic x.ty = true := by
    cases hx : x.ty with
    | plain k => exact absurd hx (h k)
    | _ => rfl
  have hv : (valueAssign ex a x).ics = none := by simp [valueAssign, bindForward, hp]
  cases hm : (moveAssign ex a x).ics <;> cases hc : (copyAssign ex a x).ics <;>
    simp [assignBraces, assign, resolve, List.zipIdx, List.find?, Cand.better, hv, hm, hc]

/-- `a = {x}` from a value of any other type does not emplace it but makes an any that contains it and move-assigns that: so that `a`
keeps its value if the construction throws. It is well-formed exactly if `a = x` is and anys of the type can be moved. -/
theorem C73_braces_values {k : Nat} (h : x.ty = .plain k) (c : AssignAct) :
    assignBraces ex a x = some c ↔ c = .moveAssign (some (.contain (.plain k))) ∧ (∀ m ∈ a.methods, ex (.plain k) m = true) ∧
      (Moves a.methods ∨ a.soo = 0) := by
  have h1 : a.hasMove = true ↔ Moves a.methods ∨ a.soo = 0 := by simp [AnyTy.hasMove, hasMoveMethod_iff]
  have h2 := hasMove_of_copy (a := a)
  have hv : converted ex a x = construct ex a x := by simp [converted, h, Ty.asAny]
  rw [← h1]
  obtain ⟨hy, hn⟩ := C73_values (ex := ex) (a := a) h
  by_cases he : ∀ m ∈ a.methods, ex (.plain k) m = true
  · have hk := (hy he).1
    have h3 : assignBraces ex a x = if a.hasMove = true then some (.moveAssign (some (.contain (.plain k)))) else none := by
      cases hm : a.hasMove <;> cases hc : a.hasCopy <;>
        simp_all [assignBraces, resolve, moveAssign, copyAssign, bindConstRef, bindRvalue, Ty.asAny, List.zipIdx, List.find?, Cand.better,
          Ics.better]
    rw [h3]
    cases a.hasMove
    · simp
    · exact ⟨fun h => ⟨(Option.some.inj h).symm, he, rfl⟩, fun h => by rw [h.1]; rfl⟩
  · have hk := (hn he).1
    simp [assignBraces, resolve, moveAssign, copyAssign, bindConstRef, bindRvalue, Ty.asAny, List.zipIdx, List.find?, hv, hk, he, h]

/-- The property fails for `basic_any(std::allocator_arg, alloc, x)`: whenever it compiles, an any is put into the new any instead of being copied or
moved. It compiles for every any or reference type for which the methods exist. -/
theorem C73_allocator_arg_fails (t : Act) : constructAlloc ex a x = some t ↔ t = .contain x.ty ∧ ∀ m ∈ a.methods, ex x.ty m = true := by
  have he : existFor ex x.ty a.methods = true ↔ ∀ m ∈ a.methods, ex x.ty m = true := by simp [existFor]
  rw [← he]
  cases hx : existFor ex x.ty a.methods <;> simp [constructAlloc, resolve, bindForward, hx, List.zipIdx, eq_comm]

/-! Examples: `any_with<copy, draw>`, `any_with<copy, draw, print>`, and the methods that exist: `copy_with` for what can be copied and moved,
`draw` and `print` for anys that have them (their plugins are members of the any). -/

def exDraw : AnyTy := ⟨0, 40, [.destroy, .copy 0 40, .other 0]⟩
def exDrawPrint : AnyTy := ⟨0, 40, [.destroy, .copy 0 40, .other 0, .other 1]⟩

def exExists : Ty → Meth → Bool
  | .any b, .copy _ _ | .derived b _, .copy _ _ => b.hasCopy && b.hasMove
  | .any b, .move | .derived b _, .move => b.hasMove
  | .any b, .other k | .derived b _, .other k => b.methods.contains (.other k)
  | .plain k, .other m => m ≤ k
  | .poly _, .other _ => false
  | _, _ => true

example : construct exExists exDraw ⟨.any exDraw, false, false⟩ = some .copy ∧ construct exExists exDraw ⟨.any exDraw, false, true⟩ = some .move ∧
    construct exExists exDraw ⟨.any exDraw, true, true⟩ = some .copy ∧ construct exExists exDraw ⟨.derived exDraw 3, false, false⟩ = some .copy ∧
    construct exExists exDraw ⟨.any exDrawPrint, false, true⟩ = some .transmuteMove ∧
    construct exExists exDraw ⟨.any exDrawPrint, false, false⟩ = some .transmuteCopy ∧
    construct exExists exDrawPrint ⟨.any exDraw, false, false⟩ = none ∧
    construct exExists exDrawPrint ⟨.plain 1, true, false⟩ = some (.contain (.plain 1)) ∧ construct exExists exDrawPrint ⟨.plain 0, true, false⟩ = none ∧
    assign exExists exDraw ⟨.any exDrawPrint, false, false⟩ = some (.moveAssign (some .transmuteCopy)) ∧
    assign exExists exDraw ⟨.any exDraw, false, false⟩ = some (.copyAssign none) := by decide +kernel

example : assignEmptyBraces exDraw = some true ∧ assignBraces exExists exDraw ⟨.any exDraw, false, false⟩ = some (.copyAssign none) ∧
    assignBraces exExists exDraw ⟨.plain 1, true, false⟩ = some (.moveAssign (some (.contain (.plain 1)))) ∧
    assignBraces exExists ⟨0, 40, [.destroy, .other 0]⟩ ⟨.plain 1, true, false⟩ = none ∧ assignEmptyBraces ⟨0, 40, [.destroy]⟩ = none := by
  decide +kernel

/-- The methods of `any_with<copy, draw>` exist for itself, so that the failing constructor compiles for it. -/
example : constructAlloc exExists exDraw ⟨.any exDraw, true, false⟩ = some (.contain (.any exDraw)) := by decide +kernel

example : Offers exDrawPrint exDraw ∧ Moves exDraw.methods ∧ Copyable exDraw := ⟨⟨rfl, rfl, ⟨[], [.other 1], rfl⟩⟩, .inr ⟨0, 40, by decide⟩, hasCopy_iff.mp (by decide)⟩

end AnyAny.Ctor
