import Verif.Spec.DpvReq
/-
C114: `data_parallel_vector` needs no more of its element type than `std::vector`.
-/
namespace AnyAny.DpvReq
open Spec

/-! ### Lemmas -/

theorem all_and {α : Type} (p q : α → Bool) (l : List α) : (l.all fun x => p x && q x) = (l.all p && l.all q) := by
  induction l with
  | nil => rfl
  | cons a l ih =>
    simp only [List.all_cons, ih]
    cases p a <;> cases q a <;> cases l.all p <;> cases l.all q <;> rfl

theorem all_or {α : Type} (b : Bool) (q : α → Bool) (l : List α) : (l.all fun x => b || q x) = (b || l.all q) := by
  cases b <;> simp

theorem all_true {α : Type} (l : List α) : (l.all fun _ => true) = true := by simp

/-- What an operation needs of all fields together. -/
def need (a : Al) (t : Caps) (o : Op) : Bool :=
  (body o).all fun x => match x with
    | .col v => v.needs a t
    | .param rv => t.from rv
    | .make rv => t.from rv
    | .join rv => t.from rv
    | .assign rv => t.assigned rv
    | .alloc => a.dflt
    | .member n => n ∈ iterMembers
    | .ret x y => converts x y

/-- The fields together, default member initialisers left out. -/
def together (fs : List Field) : Caps where
  copyC := fs.all (·.caps.copyC)
  moveC := fs.all (·.caps.moveC)
  copyA := fs.all (·.caps.copyA)
  moveA := fs.all (·.caps.moveA)
  dflt := fs.all (·.caps.dflt)

theorem from_all (fs : List Field) (rv : Bool) : (fs.all fun f => f.caps.from rv) = (together fs).from rv := by
  cases rv <;> rfl

theorem assigned_all (fs : List Field) (rv : Bool) : (fs.all fun f => f.caps.assigned rv) = (together fs).assigned rv := by
  cases rv <;> rfl

theorem needs_all (a : Al) (fs : List Field) (v : VOp) : (fs.all fun f => v.needs a f.caps) = v.needs a (together fs) := by
  cases v <;> simp only [VOp.needs, all_and, all_or, from_all, assigned_all, all_true] <;> rfl

theorem compiles_need (a : Al) (fs : List Field) (o : Op) : compiles a fs o = need a (together fs) o := by
  unfold compiles need
  congr 1
  funext x
  cases x <;> simp only [Act.ok, needs_all, from_all, assigned_all]

theorem together_false {fs : List Field} (p : Caps → Bool) (h : fs.all (fun f => p f.caps) = false) : ∃ f ∈ fs, p f.caps = false := by
  simpa using h

theorem sane_together {fs : List Field} (h : Sane fs) :
    ((together fs).copyC = true → (together fs).moveC = true) ∧ ((together fs).copyA = true → (together fs).moveA = true) := by
  simp only [together, List.all_eq_true]
  exact ⟨fun hc f hf => (h f hf).1 (hc f hf), fun hc f hf => (h f hf).2 (hc f hf)⟩

/-- The needs of `std::vector<T>`, with the fields together and whether `T` can be default-constructed. -/
def vectorNeed (a : Al) (t : Caps) (d : Bool) (o : Op) : Bool :=
  match o with
  | .read => t.copyC
  | .moveOut => t.moveC
  | .write true => t.moveA
  | .write false => t.copyA
  | o => match vectorOp o with
    | some v => v.needs a { t with dflt := d }
    | none => true

theorem vector_iff (a : Al) (fs : List Field) (o : Op) :
    VectorCompiles a fs o ↔ vectorNeed a (together fs) (whole fs).dflt o = true := by
  have hw : ({ together fs with dflt := (whole fs).dflt } : Caps) = whole fs := rfl
  cases o with
  | write rv => cases rv <;> rfl
  | read | moveOut => rfl
  | front c | back c | index c => simp [VectorCompiles, vectorNeed, vectorOp]
  | _ => simp only [VectorCompiles, vectorNeed, vectorOp, Option.some.injEq, forall_eq', hw]

theorem need_of (a : Al) (t : Caps) (d : Bool) (o : Op) (h1 : t.copyC = true → t.moveC = true) (h2 : t.copyA = true → t.moveA = true)
    (hv : vectorNeed a t d o = true) (hb : o ≠ .back true) (he : o ≠ .eraseRange) (hr : FromRvalues o → t.copyC = true)
    (hl : FromElements o → t.moveA = true) (ha : Assigns o → a.dflt = true) (hd : AddsDefaults o → t.dflt = true) :
    need a t o = true := by
  obtain ⟨cc, mc, ca, ma, df⟩ := t
  obtain ⟨pm, ad⟩ := a
  cases o with
  | ctorRange rv | assignRange rv | write rv | emplaceBack rv | pushBack rv | emplace rv | insert rv | insertRange rv =>
    cases rv <;> revert h1 h2 hv hr hl ha hd <;>
      simp [vectorNeed, vectorOp, VOp.needs, Caps.from, Caps.assigned, need, body, ctorRangeBody, insertRangeBody, emplaceBackBody,
        emplaceBody, backBody, iterOf, deref, converts, iterMembers, FromRvalues, FromElements, Assigns, AddsDefaults] <;>
      cases cc <;> cases mc <;> cases ca <;> cases ma <;> cases df <;> cases pm <;> cases ad <;> simp
  | front c | back c | index c =>
    cases c <;> first | rfl | exact absurd rfl hb
  | eraseRange => exact absurd rfl he
  | _ =>
    revert h1 h2 hv hr hl ha hd
    simp [vectorNeed, vectorOp, VOp.needs, Caps.from, Caps.assigned, need, body, partsBody, ctorRangeBody, insertRangeBody, emplaceBackBody,
      emplaceBody, backBody, iterOf, deref, converts, iterMembers, FromRvalues, FromElements, Assigns, AddsDefaults] <;>
    cases cc <;> cases mc <;> cases ca <;> cases ma <;> cases df <;> cases pm <;> cases ad <;> simp

theorem exception_need {a : Al} {fs : List Field} {o : Op} (h : Exception a fs o) : compiles a fs o = false := by
  have mem : ∀ (p : Caps → Bool) (f : Field), f ∈ fs → p f.caps = false → fs.all (fun f => p f.caps) = false := by
    intro p f hf h0
    rw [List.all_eq_false]
    exact ⟨f, hf, by simp [h0]⟩
  rw [compiles_need]
  cases h with
  | back => rfl
  | erase => rfl
  | rvalue _ f hr hf h0 =>
    have hc : (together fs).copyC = false := mem (·.copyC) f hf h0
    revert hc
    generalize together fs = t
    intro hc
    cases o <;> simp only [FromRvalues] at hr <;> subst hr <;>
      simp [need, body, ctorRangeBody, insertRangeBody, emplaceBackBody, emplaceBody, VOp.needs, Caps.from, hc]
  | elements _ f hr hf h0 =>
    have hc : (together fs).moveA = false := mem (·.moveA) f hf h0
    revert hc
    generalize together fs = t
    intro hc
    cases o <;> simp only [FromElements] at hr <;>
      simp [need, body, ctorRangeBody, insertRangeBody, emplaceBackBody, emplaceBody, VOp.needs, Caps.from, hc]
  | assigns _ hr h0 =>
    cases o <;> simp only [Assigns] at hr <;> simp [need, body, h0]
  | defaults _ f hr hf h0 =>
    have hc : (together fs).dflt = false := mem (·.dflt) f hf h0
    revert hc
    generalize together fs = t
    intro hc
    cases o <;> simp only [AddsDefaults] at hr <;> simp [need, body, partsBody, VOp.needs, hc]

/-! ### C114 -/

/-- C114, exactly: an operation that compiles for a `std::vector<T>` compiles for a `data_parallel_vector<T>` unless it is one of the
exceptions; whatever the fields and the allocator. -/
theorem C114_exact (a : Al) (fs : List Field) (o : Op) (hs : Sane fs) (hv : VectorCompiles a fs o) :
    compiles a fs o = true ↔ ¬ Exception a fs o := by
  refine ⟨fun hc he => ?_, fun hn => ?_⟩
  · rw [exception_need he] at hc
    cases hc
  · rw [compiles_need]
    obtain ⟨h1, h2⟩ := sane_together hs
    refine need_of a (together fs) _ o h1 h2 ((vector_iff a fs o).1 hv) ?_ ?_ ?_ ?_ ?_ ?_
    · rintro rfl
      exact hn .back
    · rintro rfl
      exact hn .erase
    · intro hr
      cases hc : (together fs).copyC with
      | true => rfl
      | false =>
        obtain ⟨f, hf, h0⟩ := together_false (·.copyC) hc
        exact absurd (.rvalue o f hr hf h0) hn
    · intro hr
      cases hc : (together fs).moveA with
      | true => rfl
      | false =>
        obtain ⟨f, hf, h0⟩ := together_false (·.moveA) hc
        exact absurd (.elements o f hr hf h0) hn
    · intro hr
      cases hc : a.dflt with
      | true => rfl
      | false => exact absurd (.assigns o hr hc) hn
    · intro hr
      cases hc : (together fs).dflt with
      | true => rfl
      | false =>
        obtain ⟨f, hf, h0⟩ := together_false (·.dflt) hc
        exact absurd (.defaults o f hr hf h0) hn

/-- An aggregate of an `int` with initialiser and a `std::unique_ptr`, and `push_back(T&&)`. -/
example : Sane [⟨⟨true, true, true, true, true⟩, true⟩, ⟨⟨false, true, false, true, true⟩, false⟩] ∧
    VectorCompiles ⟨true, true⟩ [⟨⟨true, true, true, true, true⟩, true⟩, ⟨⟨false, true, false, true, true⟩, false⟩] (.pushBack true) ∧
    compiles ⟨true, true⟩ [⟨⟨true, true, true, true, true⟩, true⟩, ⟨⟨false, true, false, true, true⟩, false⟩] (.pushBack true) = false ∧
    compiles ⟨true, true⟩ [⟨⟨true, true, true, true, true⟩, true⟩, ⟨⟨false, true, false, true, true⟩, false⟩] .resize = true := by
  refine ⟨by simp [Sane], by simp [VectorCompiles, vectorOp, VOp.needs, Caps.from, whole], by decide, by decide⟩

/-- C114, what holds: if all fields are copyable and have default constructors, and the allocator has one, all operations compile except
`back()` of const containers and `erase(first, last)`. -/
theorem C114_partial (a : Al) (fs : List Field) (o : Op) (ha : a.dflt = true)
    (hf : ∀ f ∈ fs, f.caps = ⟨true, true, true, true, true⟩) (hb : o ≠ .back true) (he : o ≠ .eraseRange) :
    compiles a fs o = true := by
  have hs : Sane fs := fun f h => by simp [hf f h]
  have hw : whole fs = ⟨true, true, true, true, true⟩ := by
    have : ∀ p : Caps → Bool, p ⟨true, true, true, true, true⟩ = true → fs.all (fun f => p f.caps) = true := by
      intro p hp
      rw [List.all_eq_true]
      intro f h
      rw [hf f h, hp]
    have hd : (fs.all fun f => f.init || f.caps.dflt) = true := by
      rw [List.all_eq_true]
      intro f h
      rw [hf f h]
      simp
    simp only [whole]
    rw [this (·.copyC) rfl, this (·.moveC) rfl, this (·.copyA) rfl, this (·.moveA) rfl, hd]
  refine (C114_exact a fs o hs ?_).2 ?_
  · unfold VectorCompiles
    rw [hw]
    split
    · rfl
    · rfl
    · rfl
    · rfl
    · intro v _
      cases v <;> simp [VOp.needs, Caps.from, Caps.assigned]
  · intro h
    cases h with
    | back => exact hb rfl
    | erase => exact he rfl
    | rvalue _ f _ h h0 => rw [hf f h] at h0; cases h0
    | elements _ f _ h h0 => rw [hf f h] at h0; cases h0
    | assigns _ _ h0 => rw [ha] at h0; cases h0
    | defaults _ f _ h h0 => rw [hf f h] at h0; cases h0

example : compiles ⟨false, true⟩ [⟨⟨true, true, true, true, true⟩, true⟩, ⟨⟨true, true, true, true, true⟩, false⟩] (.insertRange true) = true :=
  C114_partial _ _ _ rfl (by simp) (by decide) (by decide)

/-- C114 fails: `back()` of a const container and `erase(first, last)` never compile. -/
theorem C114_always_fails (a : Al) (fs : List Field) :
    (VectorCompiles a fs (.back true) ∧ compiles a fs (.back true) = false) ∧
    ((∀ f ∈ fs, f.caps.moveA = true) → VectorCompiles a fs .eraseRange) ∧ compiles a fs .eraseRange = false := by
  refine ⟨⟨?_, rfl⟩, fun h => ?_, rfl⟩
  · intro v hv
    cases hv
  · intro v hv
    cases hv
    simpa [VOp.needs, whole] using h

/-- C114 fails for types that cannot be copied: nothing can be added to the container, also not with `push_back(T&&)`. -/
theorem C114_rvalues_fails (a : Al) (fs : List Field) (o : Op) (ho : FromRvalues o)
    (hm : ∀ f ∈ fs, f.caps.moveC = true ∧ f.caps.moveA = true) (f : Field) (hf : f ∈ fs) (hc : f.caps.copyC = false) :
    VectorCompiles a fs o ∧ compiles a fs o = false := by
  have h1 : (whole fs).moveC = true := by simpa [whole] using fun f h => (hm f h).1
  have h2 : (whole fs).moveA = true := by simpa [whole] using fun f h => (hm f h).2
  refine ⟨?_, exception_need (.rvalue o f ho hf hc)⟩
  cases o <;> simp only [FromRvalues] at ho <;> subst ho <;> intro v hv <;> cases hv <;>
    simp [VOp.needs, Caps.from, Caps.assigned, h1, h2]

/-- C114 fails for types that can be copied but not assigned: a container cannot be made from a list of elements. -/
theorem C114_elements_fails (a : Al) (fs : List Field) (hm : ∀ f ∈ fs, f.caps.copyC = true) (f : Field) (hf : f ∈ fs)
    (hc : f.caps.moveA = false) : VectorCompiles a fs .ctorList ∧ compiles a fs .ctorList = false := by
  have h1 : (whole fs).copyC = true := by simpa [whole] using hm
  refine ⟨?_, exception_need (.elements _ f trivial hf hc)⟩
  intro v hv
  cases hv
  simp [VOp.needs, Caps.from, h1]

/-- Operations of a container whose elements can be moved but not copied, as `std::unique_ptr`. Nothing can be added except default elements. -/
def moveOnlyOps : List Op :=
  [.ctorCount, .moveCtor, .moveCtorAlloc, .moveAssign, .swap, .front true, .front false, .back false, .index true, .index false, .moveOut, .write true, .erase,
   .clear, .popBack, .reserve, .resize, .shrink]

/-- Operations of a container whose elements can be copied but not assigned, as classes with const members. -/
def unassignableOps : List Op :=
  [.ctorCount, .ctorCountValue, .copyCtor, .moveCtor, .copyCtorAlloc, .moveCtorAlloc, .moveAssign, .swap, .assignCount, .front true, .front false, .back false, .index true,
   .index false, .read, .moveOut, .emplaceBack true, .emplaceBack false, .pushBack true, .pushBack false, .clear, .popBack, .reserve, .resize, .resizeValue, .shrink]

/-- Operations of a container whose elements can be neither copied, moved nor assigned, as `std::mutex`. -/
def fixedOps : List Op :=
  [.ctorCount, .moveCtor, .moveAssign, .swap, .front true, .front false, .back false, .index true, .index false, .clear, .popBack]

theorem together_same {fs : List Field} {c : Caps} (hne : fs ≠ []) (hf : ∀ f ∈ fs, f.caps = c) : together fs = c := by
  have key : ∀ p : Caps → Bool, fs.all (fun f => p f.caps) = p c := by
    intro p
    cases hp : p c with
    | true => exact List.all_eq_true.2 fun f h => by rw [hf f h, hp]
    | false =>
      obtain ⟨f, hf'⟩ := List.exists_mem_of_ne_nil fs hne
      exact List.all_eq_false.2 ⟨f, hf', by rw [hf f hf', hp]; simp⟩
  obtain ⟨a, b, d, e, g⟩ := c
  simp only [together, key (·.copyC), key (·.moveC), key (·.copyA), key (·.moveA), key (·.dflt)]

/-- C114, which operations there are for such elements, with an allocator that is propagated and can be default-constructed (`std::allocator`): exactly these. -/
theorem C114_which {fs : List Field} (hne : fs ≠ []) (o : Op) :
    ((∀ f ∈ fs, f.caps = ⟨false, true, false, true, true⟩) → (compiles ⟨true, true⟩ fs o = true ↔ o ∈ moveOnlyOps)) ∧
    ((∀ f ∈ fs, f.caps = ⟨true, true, false, false, true⟩) → (compiles ⟨true, true⟩ fs o = true ↔ o ∈ unassignableOps)) ∧
    ((∀ f ∈ fs, f.caps = ⟨false, false, false, false, true⟩) → (compiles ⟨true, true⟩ fs o = true ↔ o ∈ fixedOps)) ∧
    ((∀ f ∈ fs, f.caps = ⟨true, true, true, true, false⟩) → (compiles ⟨true, true⟩ fs o = true ↔ o ∉ [.ctorCount, .resize, .back true, .eraseRange])) := by
  refine ⟨fun hf => ?_, fun hf => ?_, fun hf => ?_, fun hf => ?_⟩ <;> rw [compiles_need, together_same hne hf]
  all_goals
    cases o with
    | ctorRange rv | assignRange rv | write rv | emplaceBack rv | pushBack rv | emplace rv | insert rv | insertRange rv | front rv | back rv | index rv =>
      cases rv <;> decide
    | _ => decide

/-- C114 fails for allocators without default constructor: `assign` does not compile. -/
theorem C114_assign_fails (a : Al) (fs : List Field) (ha : a.dflt = false) (hm : ∀ f ∈ fs, f.caps.copyC = true ∧ f.caps.copyA = true) :
    VectorCompiles a fs .assignCount ∧ compiles a fs .assignCount = false := by
  have h1 : (whole fs).copyC = true := by simpa [whole] using fun f h => (hm f h).1
  have h2 : (whole fs).copyA = true := by simpa [whole] using fun f h => (hm f h).2
  refine ⟨?_, exception_need (.assigns _ trivial ha)⟩
  intro v hv
  cases hv
  simp [VOp.needs, h1, h2]

/-- C114 fails for fields with a default member initialiser and no default constructor: the container cannot be made with a number of
default elements. -/
theorem C114_defaults_fails (a : Al) (fs : List Field) (hm : ∀ f ∈ fs, f.init = true) (f : Field) (hf : f ∈ fs)
    (hc : f.caps.dflt = false) : VectorCompiles a fs .ctorCount ∧ compiles a fs .ctorCount = false := by
  have h1 : (whole fs).dflt = true := by
    simp only [whole, List.all_eq_true]
    intro f h
    simp [hm f h]
  refine ⟨?_, exception_need (.defaults _ f trivial hf hc)⟩
  intro v hv
  cases hv
  simp [VOp.needs, h1]

example : VectorCompiles ⟨true, true⟩ [⟨⟨true, true, false, false, false⟩, true⟩] .ctorCount ∧
    compiles ⟨true, true⟩ [⟨⟨true, true, false, false, false⟩, true⟩] .ctorCount = false :=
  C114_defaults_fails _ _ (by simp) _ (List.mem_cons_self ..) rfl

end AnyAny.DpvReq
