import Verif.Spec.RefCtor
import Verif.Props.TypeList
import Verif.Spec.PolyHist
/-
C81: which references and pointers can be made from what, and what assignment to them does. C36: the exact extent.

`ex t m`: method `m` exists for type `t`; arbitrary in all theorems.
-/
namespace AnyAny.RefCtor
open AnyAny.TypeList
open AnyAny.Poly (Kind)
open AnyAny.Ctor (Ics Cand resolve)

variable {M : Type} [DecidableEq M] {ex : Ty M → M → Bool} {R : RT M} {x : Arg M} {direct : Bool}

omit [DecidableEq M] in
theorem object_iff (t : Ty M) : isPolymorphic t = false ↔ Object t := by
  cases t <;> simp [isPolymorphic, Object]

omit [DecidableEq M] in
theorem existFor_iff (t : Ty M) (ms : List M) : existFor ex t ms = true ↔ Has ex t ms := by simp [existFor, Has]

theorem foo_all (ms f : List M) : (ms.all fun m => containsV m f) = true ↔ ∀ m ∈ ms, m ∈ f := by simp [containsV_iff]

/-! The overload sets with the conditions as truth values. -/

theorem resolve_ref (same rv val sub : Bool) : (resolve [⟨Act.copy, bindIf same ⟨0, false, true⟩, 0⟩, ⟨.copy, bindIf (same && rv) ⟨0, true, false⟩, 0⟩,
    ⟨.ofValue, bindIf val ⟨0, false, false⟩, 2⟩, ⟨.ofRef, bindIf sub ⟨0, false, false⟩, 1⟩]).isSome = (same || val || sub) := by
  revert same rv val sub; decide

theorem resolve_cref (same rv val exact sub1 sub2 : Bool) (h1 : (sub1 && sub2) = false) : (resolve [⟨Act.copy, bindIf same ⟨0, false, true⟩, 0⟩, ⟨.copy, bindIf (same && rv) ⟨0, true, false⟩, 0⟩,
    ⟨.ofValue, bindIf val ⟨0, false, true⟩, 2⟩, ⟨.ofRef, bindIf exact ⟨0, false, false⟩, 0⟩,
    ⟨.ofRef, bindIf sub1 ⟨0, false, false⟩, 1⟩, ⟨.ofRef, bindIf sub2 ⟨0, false, false⟩, 1⟩]).isSome = (same || val || exact || sub1 || sub2) := by
  revert same rv val exact sub1 sub2; decide

theorem resolve_stateful (same rv val exact foo : Bool) : (resolve [⟨Act.copy, bindIf same ⟨0, false, true⟩, 0⟩, ⟨.copy, bindIf (same && rv) ⟨0, true, false⟩, 0⟩,
    ⟨.ofValue, bindIf val ⟨0, false, false⟩, 2⟩, ⟨.ofRef, bindIf exact ⟨0, false, false⟩, 0⟩, ⟨.ofRef, bindIf foo ⟨0, false, true⟩, 2⟩]).isSome =
    (same || val || exact || foo) := by
  revert same rv val exact foo; decide

theorem resolve_statefulC (same rv val e1 e2 e3 foo : Bool) (h1 : (e1 && e2) = false) (h2 : (e1 && e3) = false) (h3 : (e2 && e3) = false) (h4 : (val && foo) = false) :
    (resolve [⟨Act.copy, bindIf same ⟨0, false, true⟩, 0⟩, ⟨.copy, bindIf (same && rv) ⟨0, true, false⟩, 0⟩, ⟨.ofValue, bindIf val ⟨0, false, true⟩, 2⟩, ⟨.ofRef, bindIf e1 ⟨0, false, false⟩, 0⟩,
    ⟨.ofRef, bindIf e2 ⟨0, false, false⟩, 0⟩, ⟨.ofRef, bindIf e3 ⟨0, false, false⟩, 0⟩, ⟨.ofRef, bindIf foo ⟨0, false, true⟩, 2⟩]).isSome =
    (same || val || e1 || e2 || e3 || foo) := by
  revert same rv val e1 e2 e3 foo; decide

theorem resolve_ptr (same rv null ptr any sub : Bool) (h1 : (ptr && any) = false) (h2 : (ptr && sub) = false) (h3 : (any && sub) = false) :
    (resolve [⟨Act.copy, bindIf same ⟨0, false, true⟩, 0⟩, ⟨.copy, bindIf (same && rv) ⟨0, true, false⟩, 0⟩, ⟨.null, bindIf null ⟨0, false, false⟩, 0⟩, ⟨.ofPtr, bindIf ptr ⟨0, false, false⟩, 1⟩,
    ⟨.ofAny, bindIf any ⟨0, false, false⟩, 1⟩, ⟨.ofRef, bindIf sub ⟨0, false, false⟩, 1⟩]).isSome = (same || null || ptr || any || sub) := by
  revert same rv null ptr any sub; decide

theorem resolve_cptr_ref (same rv exact via sub1 sub2 : Bool) (h1 : (sub1 && sub2) = false) :
    (resolve [⟨Act.copy, bindIf same ⟨0, false, true⟩, 0⟩, ⟨.copy, bindIf (same && rv) ⟨0, true, false⟩, 0⟩, ⟨.null, none, 0⟩, ⟨.ofPtr, none, 1⟩, ⟨.ofAny, none, 1⟩, ⟨.ofRef, bindIf exact ⟨0, false, false⟩, 0⟩,
    ⟨.viaPtr, bindIf via ⟨2, false, false⟩, 0⟩, ⟨.ofRef, bindIf sub1 ⟨0, false, false⟩, 1⟩, ⟨.ofRef, bindIf sub2 ⟨0, false, false⟩, 1⟩]).isSome =
    (same || exact || via || sub1 || sub2) := by
  revert same rv exact via sub1 sub2; decide

theorem resolve_cptr_ptr (ptr any via : Bool) (h1 : (ptr && any) = false) :
    resolve [⟨Act.copy, none, 0⟩, ⟨.copy, none, 0⟩, ⟨.null, none, 0⟩, ⟨.ofPtr, bindIf ptr ⟨0, false, true⟩, 1⟩, ⟨.ofAny, bindIf any ⟨0, false, true⟩, 1⟩,
    ⟨.ofRef, none, 0⟩, ⟨.viaPtr, bindIf via ⟨2, false, false⟩, 0⟩, ⟨.ofRef, none, 1⟩, ⟨.ofRef, none, 1⟩] =
    if ptr then some .ofPtr else if any then some .ofAny else if via then some .viaPtr else none := by
  revert ptr any via; decide

/-- The condition of the templates for other references. -/
def subOk (k : Kind) (R : RT M) : Ty M → Bool
  | .ref ⟨k', f⟩ => k' == k && (⟨k', f⟩ : RT M) != R && hasSubsequence R.ms f
  | _ => false

theorem subCtor_eq (k : Kind) : subCtor k R x = ⟨.ofRef, bindIf (subOk k R x.ty) ⟨0, false, false⟩, 1⟩ := by
  obtain ⟨t, c, r⟩ := x
  cases t <;> rfl

theorem subOk_iff (k : Kind) (t : Ty M) : (subOk k R t = true ∨ t = .ref ⟨k, R.ms⟩ ∧ k ≠ R.kind ∨ t = .ref R ∧ k = R.kind) ↔
    ∃ f, t = .ref ⟨k, f⟩ ∧ R.ms <:+: f := by
  obtain ⟨k0, ms⟩ := R
  cases t with
  | ref q =>
    obtain ⟨k', f⟩ := q
    simp only [subOk, Bool.and_eq_true, beq_iff_eq, bne_iff_ne, C23_hasSubsequence_iff_infix, Ty.ref.injEq, RT.mk.injEq, ne_eq, not_and]
    constructor
    · rintro (⟨⟨h1, h2⟩, h3⟩ | ⟨⟨rfl, rfl⟩, _⟩ | ⟨⟨rfl, rfl⟩, h⟩)
      · exact ⟨f, ⟨h1, rfl⟩, h3⟩
      · exact ⟨_, ⟨rfl, rfl⟩, List.infix_refl _⟩
      · exact ⟨_, ⟨h.symm, rfl⟩, List.infix_refl _⟩
    · rintro ⟨f', ⟨rfl, rfl⟩, h⟩
      by_cases hf : f = ms
      · subst hf
        by_cases hk : k' = k0
        · exact .inr (.inr ⟨⟨hk, rfl⟩, hk⟩)
        · exact .inr (.inl ⟨⟨rfl, rfl⟩, hk⟩)
      · exact .inl ⟨⟨rfl, fun _ => hf⟩, h⟩
  | _ => simp [subOk]

theorem subOk_disjoint {k k' : Kind} (h : k ≠ k') (t : Ty M) : (subOk k R t && subOk k' R t) = false := by
  cases t with
  | ref q => 
    simp only [subOk]
    by_cases h1 : q.kind = k
    · simp [h1, h]
    · simp [h1]
  | _ => rfl

theorem compiles_iff (h : R.kind ≠ .constPolyPtr) : compiles direct ex R x = (construct direct ex R x).isSome := by
  unfold compiles
  cases hc : construct direct ex R x with
  | none => rfl
  | some a =>
    have : bodyOk R x a = true := by
      unfold bodyOk; split
      · rename_i h1 _; exact absurd h1 h
      · rfl
    simp [this]

theorem accepts_polyRef {ms : List M} : compiles direct ex ⟨.polyRef, ms⟩ x = true ↔ Accepts ex ⟨.polyRef, ms⟩ x := by
  rw [compiles_iff (by simp)]
  simp only [construct, ctors, subCtor_eq, copyCtor, moveCtor, lvalueCtor]
  rw [resolve_ref]
  have := subOk_iff (R := ⟨.polyRef, ms⟩) .polyRef x.ty
  simp only [Accepts, ← this, Bool.or_eq_true, beq_iff_eq, Bool.and_eq_true, Bool.not_eq_true', existFor_iff, object_iff]
  grind

theorem accepts_constPolyRef {ms : List M} : compiles direct ex ⟨.constPolyRef, ms⟩ x = true ↔ Accepts ex ⟨.constPolyRef, ms⟩ x := by
  rw [compiles_iff (by simp)]
  simp only [construct, ctors, subCtor_eq, copyCtor, moveCtor, constRefCtor, exactCtor]
  rw [resolve_cref _ _ _ _ _ _ (subOk_disjoint (by simp) _)]
  have h1 := subOk_iff (R := ⟨.constPolyRef, ms⟩) .polyRef x.ty
  have h2 := subOk_iff (R := ⟨.constPolyRef, ms⟩) .constPolyRef x.ty
  simp only [Accepts, Bool.or_eq_true, beq_iff_eq, Bool.and_eq_true, Bool.not_eq_true', existFor_iff, object_iff, or_and_right, exists_or, exists_and_left, exists_eq_left]
  simp only [← h1, ← h2]
  grind

/-- The condition of the templates of the stateful references. -/
def fooOk (R : RT M) : Ty M → Bool
  | .ref ⟨k, f⟩ => foo R k f
  | _ => false

theorem fooCtor_eq : fooCtor R x = ⟨.ofRef, bindIf (fooOk R x.ty) ⟨0, false, true⟩, 2⟩ := by
  obtain ⟨t, c, r⟩ := x
  cases t <;> rfl

theorem accepts_ref {ms : List M} : compiles direct ex ⟨.ref, ms⟩ x = true ↔ Accepts ex ⟨.ref, ms⟩ x := by
  rw [compiles_iff (by simp)]
  simp only [construct, ctors, fooCtor_eq, copyCtor, moveCtor, lvalueCtor, exactCtor]
  rw [resolve_stateful]
  simp only [Accepts, Bool.or_eq_true, beq_iff_eq, Bool.and_eq_true, Bool.not_eq_true', existFor_iff, object_iff]
  have h : fooOk (⟨.ref, ms⟩ : RT M) x.ty = true ↔ ∃ k f, (k = .polyRef ∨ k = .ref) ∧ x.ty = .ref ⟨k, f⟩ ∧ ∀ m ∈ ms, m ∈ f := by
    cases x.ty with
    | ref q => obtain ⟨k, f⟩ := q; simp [fooOk, foo, containsV_iff]; grind
    | _ => simp [fooOk]
  rw [h]
  have h1 : x.ty = .ref ⟨.polyRef, ms⟩ → ∃ k f, (k = Kind.polyRef ∨ k = .ref) ∧ x.ty = .ref ⟨k, f⟩ ∧ ∀ m ∈ ms, m ∈ f := fun e => ⟨_, _, .inl rfl, e, fun _ h => h⟩
  have h2 : x.ty = .ref ⟨.ref, ms⟩ → ∃ k f, (k = Kind.polyRef ∨ k = .ref) ∧ x.ty = .ref ⟨k, f⟩ ∧ ∀ m ∈ ms, m ∈ f := fun e => ⟨_, _, .inr rfl, e, fun _ h => h⟩
  grind

theorem accepts_cref {ms : List M} : compiles direct ex ⟨.cref, ms⟩ x = true ↔ Accepts ex ⟨.cref, ms⟩ x := by
  rw [compiles_iff (by simp)]
  simp only [construct, ctors, fooCtor_eq, copyCtor, moveCtor, constRefCtor, exactCtor]
  have hd : ∀ {k k' : Kind}, k ≠ k' → (x.ty == .ref ⟨k, ms⟩ && x.ty == .ref ⟨k', ms⟩) = false := by
    intro k k' hk
    cases x.ty with
    | ref q => obtain ⟨k2, f⟩ := q; simp only [Bool.and_eq_false_iff, beq_eq_false_iff_ne, ne_eq, Ty.ref.injEq, RT.mk.injEq, not_and]; grind
    | _ => simp
  rw [resolve_statefulC _ _ _ _ _ _ _ (hd (by simp)) (hd (by simp)) (hd (by simp)) (by cases x.ty <;> simp [fooOk, isPolymorphic])]
  simp only [Accepts, Bool.or_eq_true, beq_iff_eq, Bool.and_eq_true, Bool.not_eq_true', existFor_iff, object_iff]
  have h : fooOk (⟨.cref, ms⟩ : RT M) x.ty = true ↔ ∃ k f, k.isPtr = false ∧ x.ty = .ref ⟨k, f⟩ ∧ ∀ m ∈ ms, m ∈ f := by
    cases x.ty with
    | ref q =>
      obtain ⟨k, f⟩ := q
      have e : (∃ k' f', k'.isPtr = false ∧ (Ty.ref ⟨k, f⟩ : Ty M) = .ref ⟨k', f'⟩ ∧ ∀ m ∈ ms, m ∈ f') ↔ k.isPtr = false ∧ ∀ m ∈ ms, m ∈ f :=
        ⟨by rintro ⟨k', f', h1, h2, h3⟩; cases h2; exact ⟨h1, h3⟩, fun h => ⟨k, f, h.1, rfl, h.2⟩⟩
      rw [e]
      cases k <;> simp [fooOk, foo, containsV_iff, Kind.isPtr]
    | _ => simp [fooOk]
  rw [h]
  have h1 : ∀ k : Kind, k.isPtr = false → x.ty = .ref ⟨k, ms⟩ → ∃ k f, k.isPtr = false ∧ x.ty = .ref ⟨k, f⟩ ∧ ∀ m ∈ ms, m ∈ f := fun k hk e => ⟨_, _, hk, e, fun _ h => h⟩
  have h2 := h1 .polyRef rfl
  have h3 := h1 .constPolyRef rfl
  have h4 := h1 .ref rfl
  have h5 := h1 .cref rfl
  clear h1 hd h
  grind

/-- The conditions of the templates for raw pointers. -/
def ptrOk (ex : Ty M → M → Bool) (R : RT M) : Ty M → Bool
  | .ptr p c => !c && (match p with | .any _ => false | _ => true) && existFor ex p.ty R.ms
  | _ => false

def anyPtrOk (R : RT M) : Ty M → Bool
  | .ptr (.any am) c => !c && hasSubsequence R.ms am
  | _ => false

omit [DecidableEq M] in
theorem ptrCtor_eq : ptrCtor ex R x = ⟨.ofPtr, bindIf (ptrOk ex R x.ty) ⟨0, false, false⟩, 1⟩ := by
  obtain ⟨t, c, r⟩ := x
  cases t <;> rfl

theorem anyPtrCtor_eq : anyPtrCtor R x = ⟨.ofAny, bindIf (anyPtrOk R x.ty) ⟨0, false, false⟩, 1⟩ := by
  obtain ⟨t, c, r⟩ := x
  cases t with
  | ptr p c => cases p <;> rfl
  | _ => rfl

omit [DecidableEq M] in
theorem ptrOk_iff (t : Ty M) : ptrOk ex R t = true ↔ ∃ p, t = .ptr p false ∧ (∀ am, p ≠ .any am) ∧ Has ex p.ty R.ms := by
  cases t with
  | ptr p c => cases p <;> cases c <;> simp [ptrOk, existFor_iff]
  | _ => simp [ptrOk]

theorem anyPtrOk_iff (t : Ty M) : anyPtrOk R t = true ↔ ∃ am, t = .ptr (.any am) false ∧ R.ms <:+: am := by
  cases t with
  | ptr p c => cases p <;> cases c <;> simp [anyPtrOk, C23_hasSubsequence_iff_infix]
  | _ => simp [anyPtrOk]

theorem polyPtr_isSome {ms : List M} : (resolve (polyPtrCtors ex ⟨.polyPtr, ms⟩ x)).isSome = true ↔ Accepts ex ⟨.polyPtr, ms⟩ x := by
  simp only [polyPtrCtors, subCtor_eq, copyCtor, moveCtor, nullCtor, ptrCtor_eq, anyPtrCtor_eq]
  rw [resolve_ptr]
  · have h1 := subOk_iff (R := ⟨.polyPtr, ms⟩) .polyPtr x.ty
    simp only [Accepts, Bool.or_eq_true, beq_iff_eq, ptrOk_iff, anyPtrOk_iff, ← h1]
    grind
  · cases x.ty with
    | ptr p c => cases p <;> simp [ptrOk, anyPtrOk]
    | _ => simp [ptrOk, anyPtrOk]
  · cases x.ty <;> simp [ptrOk, subOk]
  · cases x.ty <;> simp [anyPtrOk, subOk]

theorem accepts_polyPtr {ms : List M} : compiles direct ex ⟨.polyPtr, ms⟩ x = true ↔ Accepts ex ⟨.polyPtr, ms⟩ x := by
  rw [compiles_iff (by simp), ← polyPtr_isSome]
  rfl

/-- `const_poly_ptr` from a reference, a pointer or null. -/
theorem cptr_ref {ms f : List M} {k : Kind} {c r : Bool} :
    compiles direct ex ⟨.constPolyPtr, ms⟩ ⟨.ref ⟨k, f⟩, c, r⟩ = true ↔ Accepts ex ⟨.constPolyPtr, ms⟩ ⟨.ref ⟨k, f⟩, c, r⟩ := by
  have hb : compiles direct ex ⟨.constPolyPtr, ms⟩ ⟨.ref ⟨k, f⟩, c, r⟩ = (construct direct ex ⟨.constPolyPtr, ms⟩ ⟨.ref ⟨k, f⟩, c, r⟩).isSome := by
    unfold compiles
    cases construct direct ex ⟨.constPolyPtr, ms⟩ ⟨.ref ⟨k, f⟩, c, r⟩ <;> simp [bodyOk]
  rw [hb]
  simp only [construct, ctors, subCtor_eq, copyCtor, moveCtor, nullCtor, constPtrCtor, constAnyPtrCtor, exactCtor, viaPtrCtor]
  have hn : bindIf ((Ty.ref ⟨k, f⟩ : Ty M) == .null) ⟨0, false, false⟩ = none := rfl
  rw [hn, resolve_cptr_ref _ _ _ _ _ _ (subOk_disjoint (by simp) _)]
  have h1 := subOk_iff (R := ⟨.constPolyPtr, ms⟩) .polyPtr (.ref ⟨k, f⟩)
  have h2 := subOk_iff (R := ⟨.constPolyPtr, ms⟩) .constPolyPtr (.ref ⟨k, f⟩)
  have h3 := polyPtr_isSome (ex := ex) (x := ⟨.ref ⟨k, f⟩, c, r⟩) (ms := ms)
  simp only [Bool.or_eq_true, Bool.and_eq_true, h3, beq_iff_eq, bne_iff_ne]
  simp only [Accepts, or_and_right, exists_or, exists_and_left, exists_eq_left, ← h1, ← h2]
  simp
  grind

theorem cptr_ptr {ms : List M} {p : Pointee M} {b c r : Bool} :
    construct direct ex ⟨.constPolyPtr, ms⟩ ⟨.ptr p b, c, r⟩ =
      match p with
      | .plain k => if existFor ex (.plain k) ms then some .ofPtr else none
      | .any am => if hasSubsequence am ms then some .ofAny else if direct && !b && hasSubsequence ms am then some .viaPtr else none
      | .ref q => if direct && !b && existFor ex (.ref q) ms then some .viaPtr else none := by
  have h3 : (resolve (polyPtrCtors ex ⟨.polyPtr, ms⟩ ⟨.ptr p b, c, r⟩)).isSome = (ptrOk ex ⟨.polyPtr, ms⟩ (.ptr p b) || anyPtrOk ⟨.polyPtr, ms⟩ (.ptr p b)) := by
    rw [Bool.eq_iff_iff, polyPtr_isSome, Bool.or_eq_true, ptrOk_iff, anyPtrOk_iff]
    simp [Accepts]
  simp only [construct, ctors, subCtor_eq, copyCtor, moveCtor, nullCtor, constPtrCtor, constAnyPtrCtor, exactCtor, viaPtrCtor, h3]
  have e1 : bindIf ((Ty.ptr p b : Ty M) == .null) ⟨0, false, false⟩ = none := rfl
  have e2 : ∀ q i, bindIf ((Ty.ptr p b : Ty M) == .ref q) i = none := fun _ _ => rfl
  have e3 : ∀ q d i, bindIf ((Ty.ptr p b : Ty M) == .ref q && d) i = none := fun _ _ _ => rfl
  have e4 : ∀ k R i, bindIf (subOk k R (Ty.ptr p b : Ty M)) i = none := fun _ _ _ => rfl
  rw [e1, e2, e3, e2, e4, e4]
  cases p with
  | plain k =>
    have := resolve_cptr_ptr (existFor ex (.plain k) ms) false (direct && !b && existFor ex (.plain k) ms) (by simp)
    simp [isPolymorphic, Pointee.ty, ptrOk, anyPtrOk, bne, bindIf] at this ⊢
    cases he : existFor ex (.plain k) ms <;> simp_all
  | any am =>
    have := resolve_cptr_ptr false (hasSubsequence am ms) (direct && !b && hasSubsequence ms am) (by simp)
    simp [isPolymorphic, Pointee.ty, ptrOk, anyPtrOk, bne, bindIf] at this ⊢
    cases h1 : hasSubsequence am ms <;> cases h2 : hasSubsequence ms am <;> cases direct <;> cases b <;> simp_all
  | ref q =>
    have := resolve_cptr_ptr false false (direct && !b && existFor ex (.ref q) ms) (by simp)
    simp [isPolymorphic, Pointee.ty, ptrOk, anyPtrOk, bne, bindIf] at this ⊢
    cases h1 : existFor ex (.ref q) ms <;> cases direct <;> cases b <;> simp_all

/-! ### C81: which references and pointers can be made from what -/

/-- All class templates except `const_poly_ptr`, for every argument: direct initialisation, copy initialisation and passing as an argument compile exactly for
the documented sources; in particular no call is ambiguous. -/
theorem C81_sources_partial (hR : R.kind ≠ .constPolyPtr) : compiles direct ex R x = true ↔ Accepts ex R x := by
  obtain ⟨k, ms⟩ := R
  cases k with
  | polyRef => exact accepts_polyRef
  | constPolyRef => exact accepts_constPolyRef
  | polyPtr => exact accepts_polyPtr
  | constPolyPtr => exact absurd rfl hR
  | ref => exact accepts_ref
  | cref => exact accepts_cref

/-- `const_poly_ptr`, except from pointers to anys and to references. -/
theorem C81_const_poly_ptr_partial (hk : R.kind = .constPolyPtr) (hx : ∀ p c, x.ty = .ptr p c → ∃ k, p = .plain k) :
    compiles direct ex R x = true ↔ Accepts ex R x := by
  obtain ⟨k, ms⟩ := R
  cases hk
  obtain ⟨t, c, r⟩ := x
  cases t with
  | ref q => exact cptr_ref
  | ptr p b =>
    obtain ⟨k, rfl⟩ := hx p b rfl
    simp only [compiles, cptr_ptr, Accepts]
    have := existFor_iff (ex := ex) (.plain k) ms
    cases he : existFor ex (.plain k) ms <;> simp_all [bodyOk, Pointee.ty, Object]
  | null =>
    have : construct direct ex ⟨.constPolyPtr, ms⟩ ⟨.null, c, r⟩ = some .null := by
      simp only [construct, ctors, copyCtor, moveCtor, nullCtor, constPtrCtor, constAnyPtrCtor, exactCtor, viaPtrCtor, subCtor]
      generalize (resolve (polyPtrCtors ex ⟨.polyPtr, ms⟩ ⟨.null, c, r⟩)).isSome = v
      cases direct <;> cases v <;> rfl
    simp [compiles, this, bodyOk, Accepts]
  | plain k =>
    have hp : (resolve (polyPtrCtors ex ⟨.polyPtr, ms⟩ ⟨.plain k, c, r⟩)).isSome = false := by
      rw [Bool.eq_false_iff, ne_eq, polyPtr_isSome]; simp [Accepts]
    have : construct direct ex ⟨.constPolyPtr, ms⟩ ⟨.plain k, c, r⟩ = none := by
      simp only [construct, ctors, copyCtor, moveCtor, nullCtor, constPtrCtor, constAnyPtrCtor, exactCtor, viaPtrCtor, subCtor, hp, Bool.and_false]
      rfl
    simp [compiles, this, Accepts]
  | any ams =>
    have hp : (resolve (polyPtrCtors ex ⟨.polyPtr, ms⟩ ⟨.any ams, c, r⟩)).isSome = false := by
      rw [Bool.eq_false_iff, ne_eq, polyPtr_isSome]; simp [Accepts]
    have : construct direct ex ⟨.constPolyPtr, ms⟩ ⟨.any ams, c, r⟩ = none := by
      simp only [construct, ctors, copyCtor, moveCtor, nullCtor, constPtrCtor, constAnyPtrCtor, exactCtor, viaPtrCtor, subCtor, hp, Bool.and_false]
      rfl
    simp [compiles, this, Accepts]

/-- `const_poly_ptr<Ms...>` from a pointer to an any with methods `am`: copy initialisation and argument passing compile only if `Ms...` are all the methods; a pointer to a
non-const any is also accepted by direct initialisation (through a temporary `poly_ptr<Ms...>`) if `Ms...` are a contiguous part of the methods. -/
theorem C36_exact {ms am : List M} {b c r : Bool} : compiles direct ex ⟨.constPolyPtr, ms⟩ ⟨.ptr (.any am) b, c, r⟩ = true ↔
    ms = am ∨ (direct = true ∧ b = false ∧ ms <:+: am) := by
  simp only [compiles, cptr_ptr]
  have h1 := C23_hasSubsequence_iff_infix ms am
  have h2 := C23_hasSubsequence_iff_infix am ms
  by_cases he : ms = am
  · subst he
    simp [h1.mpr (List.infix_refl _), bodyOk]
  have h3 : am <:+: ms → ms <:+: am → ms = am := fun a b => b.eq_of_length_le a.length_le
  cases e1 : hasSubsequence am ms <;> cases e2 : hasSubsequence ms am <;> cases direct <;> cases b <;> simp_all [bodyOk]

/-- `std::is_constructible` is wrong for some const pointers to anys: exactly if the any has some but not all of the methods, contiguous, the test says yes and
using the constructor does not compile. -/
theorem C36_is_constructible_wrong {ms am : List M} {b c r : Bool} :
    ((construct direct ex ⟨.constPolyPtr, ms⟩ ⟨.ptr (.any am) b, c, r⟩).isSome = true ∧ compiles direct ex ⟨.constPolyPtr, ms⟩ ⟨.ptr (.any am) b, c, r⟩ = false) ↔
      am <:+: ms ∧ am ≠ ms := by
  simp only [compiles, cptr_ptr]
  have h1 := C23_hasSubsequence_iff_infix ms am
  have h2 := C23_hasSubsequence_iff_infix am ms
  by_cases he : am = ms
  · subst he
    simp [h1.mpr (List.infix_refl _), bodyOk]
  have h3 : am <:+: ms → ms <:+: am → am = ms := fun a b => (b.eq_of_length_le a.length_le).symm
  cases e1 : hasSubsequence am ms <;> cases e2 : hasSubsequence ms am <;> cases direct <;> cases b <;> simp_all [bodyOk]

/-- A mutable reference or pointer can only be made from something that gives access to a mutable object. -/
theorem C81_const_correct (hR : R.kind.isConst = false) (h : compiles direct ex R x = true) : Mutable R x := by
  have hk : R.kind ≠ .constPolyPtr := by intro e; rw [e] at hR; cases hR
  rw [C81_sources_partial hk] at h
  obtain ⟨k, ms⟩ := R
  cases k with
  | constPolyRef | constPolyPtr | cref => cases hR
  | polyRef =>
    rcases h with ⟨_, h1, h2, _⟩ | ⟨f, h1, _⟩
    · exact .inl ⟨h1, h2⟩
    · exact .inr ⟨_, f, rfl, h1⟩
  | ref =>
    rcases h with ⟨_, h1, h2, _⟩ | ⟨k, f, hk, h1, _⟩
    · exact .inl ⟨h1, h2⟩
    · exact .inr ⟨k, f, by rcases hk with rfl | rfl <;> rfl, h1⟩
  | polyPtr =>
    rcases h with h | ⟨p, h, _⟩ | ⟨am, h, _⟩ | ⟨f, h, _⟩
    · exact .inl h
    · exact .inr (.inl ⟨p, h⟩)
    · exact .inr (.inl ⟨_, h⟩)
    · exact .inr (.inr ⟨f, h⟩)

/-- Between references and pointers, the conversions that compile are exactly those considered by the theorems on the behaviour of converted references
(C31-C35). -/
theorem C81_conversions {ex : Ty Mem.Method → Mem.Method → Bool} {k : Kind} {ms : List Mem.Method} {s : Poly.SRef} {c r : Bool} :
    compiles direct ex ⟨k, ms⟩ ⟨.ref ⟨s.kind, s.ms⟩, c, r⟩ = true ↔ Poly.Converts k ms s := by
  have h : compiles direct ex ⟨k, ms⟩ ⟨.ref ⟨s.kind, s.ms⟩, c, r⟩ = true ↔ Accepts ex ⟨k, ms⟩ ⟨.ref ⟨s.kind, s.ms⟩, c, r⟩ := by
    by_cases hk : k = .constPolyPtr
    · subst hk; exact cptr_ref
    · exact C81_sources_partial hk
  rw [h]
  obtain ⟨k', f, t, l⟩ := s
  cases k <;> cases k' <;> simp [Accepts, Poly.Converts, Object]
  all_goals
    first
    | (intro k hk e; subst e; cases hk)
    | exact ⟨fun ⟨k, hk, g, ⟨h1, h3⟩, h2⟩ => h3 ▸ h2, fun h2 => ⟨_, rfl, _, ⟨rfl, rfl⟩, h2⟩⟩

/-- `const_poly_ptr` is not made from pointers to references, unless the pointer is to non-const and the initialisation is direct; `poly_ptr` is. -/
theorem C81_pointers_to_references {ms : List M} {q : RT M} {b c r : Bool} :
    (compiles direct ex ⟨.constPolyPtr, ms⟩ ⟨.ptr (.ref q) b, c, r⟩ = true ↔ direct = true ∧ b = false ∧ Has ex (.ref q) ms) ∧
    (compiles direct ex ⟨.polyPtr, ms⟩ ⟨.ptr (.ref q) b, c, r⟩ = true ↔ b = false ∧ Has ex (.ref q) ms) := by
  refine ⟨?_, ?_⟩
  · simp only [compiles, cptr_ptr, ← existFor_iff]
    cases existFor ex (.ref q) ms <;> cases direct <;> cases b <;> simp [bodyOk]
  · rw [accepts_polyPtr]
    cases b <;> simp [Accepts, Pointee.ty]

/-- The candidates left out of the overload sets (an argument converted to a parameter that is a reference of an exact type) would only be viable where another candidate is
viable at better rank: everything such a parameter could be converted from is accepted directly. -/
theorem exact_covered {ms : List M} {k k' : Kind} (hk : (k, k') ∈ [(.constPolyRef, .polyRef), (.ref, .polyRef), (.cref, .constPolyRef), (.cref, .polyRef), (.cref, .ref)])
    (h : compiles false ex ⟨k', ms⟩ x = true) : compiles direct ex ⟨k, ms⟩ x = true := by
  simp only [List.mem_cons, Prod.mk.injEq, List.not_mem_nil, or_false] at hk
  rcases hk with ⟨rfl, rfl⟩ | ⟨rfl, rfl⟩ | ⟨rfl, rfl⟩ | ⟨rfl, rfl⟩ | ⟨rfl, rfl⟩
  · rw [accepts_polyRef] at h; rw [accepts_constPolyRef]
    rcases h with ⟨h1, _, _, h2⟩ | ⟨f, h1, h2⟩
    · exact .inl ⟨h1, h2⟩
    · exact .inr ⟨_, f, .inl rfl, h1, h2⟩
  · rw [accepts_polyRef] at h; rw [accepts_ref]
    rcases h with h | ⟨f, h1, h2⟩
    · exact .inl h
    · exact .inr ⟨_, f, .inl rfl, h1, fun m hm => h2.subset hm⟩
  · rw [accepts_constPolyRef] at h; rw [accepts_cref]
    rcases h with h | ⟨k, f, hk, h1, h2⟩
    · exact .inl h
    · exact .inr ⟨k, f, by rcases hk with rfl | rfl <;> rfl, h1, fun m hm => h2.subset hm⟩
  · rw [accepts_polyRef] at h; rw [accepts_cref]
    rcases h with ⟨h1, _, _, h2⟩ | ⟨f, h1, h2⟩
    · exact .inl ⟨h1, h2⟩
    · exact .inr ⟨_, f, rfl, h1, fun m hm => h2.subset hm⟩
  · rw [accepts_ref] at h; rw [accepts_cref]
    rcases h with ⟨h1, _, _, h2⟩ | ⟨k, f, hk, h1, h2⟩
    · exact .inl ⟨h1, h2⟩
    · exact .inr ⟨k, f, by rcases hk with rfl | rfl <;> rfl, h1, h2⟩

/-- An interface of methods 0, 1; a type 7 with these methods. -/
def exHas : Ty Nat → Nat → Bool
  | .plain 7, m => m ≤ 1
  | _, _ => false

-- A mutable reference from a mutable variable, not from a const one and not from a temporary; a const reference from all of them.
example : compiles false exHas ⟨.polyRef, [0, 1]⟩ ⟨.plain 7, false, false⟩ = true ∧ compiles true exHas ⟨.polyRef, [0, 1]⟩ ⟨.plain 7, true, false⟩ = false ∧
    compiles true exHas ⟨.polyRef, [0, 1]⟩ ⟨.plain 7, false, true⟩ = false ∧ compiles false exHas ⟨.constPolyRef, [0, 1]⟩ ⟨.plain 7, true, true⟩ = true := by decide
-- The stateful ones do not need contiguous methods.
example : compiles false exHas ⟨.cref, [2, 0]⟩ ⟨.ref ⟨.polyRef, [0, 1, 2]⟩, false, false⟩ = true ∧
    compiles false exHas ⟨.constPolyRef, [0, 2]⟩ ⟨.ref ⟨.polyRef, [0, 1, 2]⟩, false, false⟩ = false := by decide
-- `const_poly_ptr<1>` from a pointer to an any with methods 0, 1: only direct initialisation from a pointer to non-const. `const_poly_ptr<0, 1, 2>`: `is_constructible` and an error.
example : compiles false exHas ⟨.constPolyPtr, [1]⟩ ⟨.ptr (.any [0, 1]) false, false, false⟩ = false ∧
    compiles true exHas ⟨.constPolyPtr, [1]⟩ ⟨.ptr (.any [0, 1]) false, false, false⟩ = true ∧
    compiles true exHas ⟨.constPolyPtr, [1]⟩ ⟨.ptr (.any [0, 1]) true, false, false⟩ = false ∧
    construct true exHas ⟨.constPolyPtr, [0, 1, 2]⟩ ⟨.ptr (.any [0, 1]) true, false, false⟩ = some .ofAny := by decide

/-! ### C82: assignment rebinds references -/

theorem resolve_rebind (same c r : Bool) (o : Option Act) (h : same = true → o = none) :
    resolve [⟨AssignAct.rebind none, bindIf same ⟨0, false, true⟩, 0⟩, ⟨.rebind none, bindIf (same && (r && !c)) ⟨0, true, false⟩, 0⟩,
      ⟨.rebind o, bindIf o.isSome ⟨2, false, true⟩, 0⟩, ⟨.rebind o, bindIf o.isSome ⟨2, true, false⟩, 0⟩,
      ⟨.deleted, some ⟨0, r, c⟩, 2⟩] = some (if same && r != c then .rebind none else .deleted) := by
  cases o <;> cases same <;> cases c <;> cases r <;> first | rfl | simp at h

theorem resolve_assign (same c r null : Bool) (o : Option Act) (h : same = true → o = none ∧ null = false) (hn : null = true → o ≠ none) :
    resolve [⟨AssignAct.rebind none, bindIf same ⟨0, false, true⟩, 0⟩, ⟨.rebind none, bindIf (same && (r && !c)) ⟨0, true, false⟩, 0⟩,
      ⟨.rebind o, bindIf o.isSome ⟨2, false, true⟩, 0⟩, ⟨.rebind o, bindIf o.isSome ⟨2, true, false⟩, 0⟩,
      ⟨.null, bindIf null ⟨0, false, false⟩, 0⟩] =
      if same then some (.rebind none) else if null then some .null else if o.isSome then some (.rebind o) else none := by
  cases o <;> cases same <;> cases c <;> cases r <;> cases null <;> first | rfl | simp at h | simp at hn

/-- Assignment to a reference never assigns to the object referred to and never converts implicitly: it rebinds the reference if the argument is a reference of exactly the same type, as a const lvalue or a
temporary (`r = R(x)`), and does not compile otherwise. -/
theorem C82_references (hR : R.kind.isPtr = false) : assign ex R x = some (if x.ty = .ref R ∧ x.rvalue ≠ x.const then .rebind none else .deleted) := by
  simp only [assign, hR]
  have := resolve_rebind (x.ty == .ref R) x.const x.rvalue (if x.ty == .ref R then none else construct false ex R x) (by intro h; simp [h])
  simp only [Bool.false_eq_true, if_false]
  rw [this]
  simp

/-- A non-const lvalue of the same type is not accepted, although the copy assignment exists: `r1 = r2` does not compile, the deleted template is the better match. (`std::copyable` does not hold.) -/
theorem C82_lvalues_rejected (hR : R.kind.isPtr = false) : assign ex R ⟨.ref R, false, false⟩ = some .deleted ∧ assign ex R ⟨.ref R, true, false⟩ = some (.rebind none) := by
  rw [C82_references hR, C82_references hR]; simp

/-- Assignment to a pointer compiles exactly if the argument is of the same type or converts implicitly to it; it sets the pointer to the converted argument. -/
theorem C82_pointers (hR : R.kind.isPtr = true) : assign ex R x =
    if x.ty = .ref R then some (.rebind none) else if x.ty = .null then some .null else (construct false ex R x).map fun a => .rebind (some a) := by
  simp only [assign, hR, if_true]
  rw [resolve_assign]
  · by_cases h1 : x.ty = .ref R
    · simp [h1]
    · by_cases h2 : x.ty = .null
      · simp [h2]
      · cases hc : construct false ex R x <;> simp [h1, h2]
  · intro h; simp at h; simp [h]
  · intro h
    simp only [beq_iff_eq] at h
    obtain ⟨k, ms⟩ := R
    obtain ⟨t, c, r⟩ := x
    cases h
    have hn : compiles false ex ⟨k, ms⟩ ⟨.null, c, r⟩ = true := by
      cases k <;> simp [Kind.isPtr] at hR
      · rw [accepts_polyPtr]; exact .inl rfl
      · rw [C81_const_poly_ptr_partial rfl (by intro p c h; cases h)]; exact .inl rfl
    intro hc
    have hc' : construct false ex ⟨k, ms⟩ ⟨.null, c, r⟩ = none := hc
    simp [compiles, hc'] at hn

example : assign exHas ⟨.polyRef, [0, 1]⟩ ⟨.plain 7, false, false⟩ = some .deleted ∧ assign exHas ⟨.polyRef, [0, 1]⟩ ⟨.ref ⟨.polyRef, [0, 1]⟩, false, true⟩ = some (.rebind none) ∧
    assign exHas ⟨.constPolyPtr, [1]⟩ ⟨.ptr (.plain 7) true, false, true⟩ = some (.rebind (some .ofPtr)) ∧ assign exHas ⟨.polyPtr, [1]⟩ ⟨.ptr (.plain 7) true, false, true⟩ = none := by decide

end AnyAny.RefCtor
