import Verif.Lemmas.Headers
/-
C129: including the headers of the library.
-/
namespace AnyAny.Headers
open Spec

variable {c : Config} {p : List Item} {f g : File} {m : Mac}

theorem public_mem : Public f ↔ f ∈ publics := by
  cases f <;> simp [Public, publics]

theorem mem_allFiles (f : File) : f ∈ allFiles := by cases f <;> decide

/-- What including a header does, in a state between two lines of a program. -/
structure Step (c : Config) (d d' : List File) (f : File) (es : List Event) : Prop where
  good : ∀ e ∈ es, good c e = true
  ordered : ordered d (declsOf es) = true
  mem : f ∈ d'
  done : ∀ g, g ∈ d' ↔ g ∈ d ∨ g ∈ declsOf es
  fromMacro : File.anyanyMacro ∈ declsOf es → f = .anyanyMacro
  bare : f ∉ d → Headers.bare d = true → supplied false es = (f != .typeDescriptor || !c.cpp20 || c.noTypename)
  std : f ∉ d → f ≠ .anyanyMacro → c.cpp20 = true → Event.std .ordering ∈ es
  uintptr : Event.std .uintptr ∉ es
  needed : Event.needed .typeDescriptor .uintptr ∈ es ↔ File.typeDescriptor ∈ declsOf es ∧ c.cpp20 = true ∧ c.noTypename = true

theorem step (hc : c.hasAttribute = true) {d : List File} (hd : d ∈ doneSets) (hf : Public f) :
    ∃ d' ∈ doneSets, (include_ c 6 f ⟨left d, d⟩).1 = ⟨left d', d'⟩ ∧ Step c d d' f (include_ c 6 f ⟨left d, d⟩).2 := by
  by_cases hm : d.contains f = true
  · have hp : pragmaOnce f = true := by rcases hf with rfl | rfl | rfl | rfl | rfl | rfl | rfl <;> rfl
    have : include_ c 6 f ⟨left d, d⟩ = (⟨left d, d⟩, []) := by
      show (if _ then _ else _) = _
      rw [if_pos (by rw [hp]; exact hm)]
    rw [this]
    have hmem : f ∈ d := by simpa using hm
    exact ⟨d, hd, rfl, by simp, rfl, hmem, by simp [declsOf], by simp [declsOf], fun h => absurd hmem h, fun h => absurd hmem h, by simp, by simp [declsOf]⟩
  · have h := okStep_all hc hd (public_mem.1 hf)
    rw [okStep, Bool.or_eq_true] at h
    have h := h.resolve_left hm
    generalize hr : include_ c 6 f ⟨left d, d⟩ = r at h ⊢
    simp only [Bool.and_eq_true, and_assoc] at h
    obtain ⟨h1, h2, h3, h4, h5, h6, h7, h8, h9, h10, h11⟩ := h
    have hnm : f ∉ d := fun h => hm (by simpa using h)
    refine ⟨r.1.done, by simpa using h1, ?_, List.all_eq_true.1 h3, h4, by simpa using h5, fun g => ?_, fun h => ?_, fun _ hb => ?_, fun _ hne h20 => ?_, ?_, ?_⟩
    · have : r.1.macros = left r.1.done := by simpa using h2
      rw [← this]
    · have := List.all_eq_true.1 h6 g (mem_allFiles g)
      simp only [beq_iff_eq] at this
      rw [Bool.eq_iff_iff] at this
      simpa using this
    · simp only [beq_iff_eq] at h7
      rw [Bool.eq_iff_iff] at h7
      simpa using h7.1 (by simpa using h)
    · rw [hb] at h8
      simpa using h8
    · simp only [Bool.or_eq_true, beq_iff_eq, h20, Bool.not_true, Bool.false_eq_true, or_false, List.contains_iff_mem] at h9
      exact h9.resolve_left hne
    · simpa using h10
    · simp only [beq_iff_eq] at h11
      rw [Bool.eq_iff_iff] at h11
      simpa [and_assoc] using h11

theorem ordered_congr {l : List File} : ∀ {d d' : List File}, (∀ g, g ∈ d ↔ g ∈ d') → ordered d l = ordered d' l := by
  induction l with
  | nil => intros; rfl
  | cons f l ih =>
    intro d d' h
    have e : ∀ g, d.contains g = d'.contains g := fun g => by rw [Bool.eq_iff_iff]; simpa using h g
    have e' : (fun g => d.contains g) = fun g => d'.contains g := funext e
    simp only [ordered, e f]
    rw [show d.contains = d'.contains from funext e, ih (d := f :: d) (d' := f :: d') fun g => by simp [h g]]

theorem ordered_append {a b : List File} : ∀ {d : List File}, ordered d (a ++ b) = (ordered d a && ordered (a.reverse ++ d) b) := by
  induction a with
  | nil => intros; simp [ordered]
  | cons f a ih =>
    intro d
    simp only [List.cons_append, ordered, ih, List.reverse_cons, List.append_assoc, List.nil_append, Bool.and_assoc]

theorem declsOf_append {a b : List Event} : declsOf (a ++ b) = declsOf a ++ declsOf b := List.filterMap_append

theorem mem_declsOf {es : List Event} : g ∈ declsOf es ↔ .decls g ∈ es := by
  simp only [declsOf, List.mem_filterMap]
  constructor
  · rintro ⟨e, he, h⟩
    cases e <;> simp at h
    subst h
    exact he
  · exact fun h => ⟨_, h, rfl⟩

/-- What a program does, from such a state. -/
structure Runs (c : Config) (p : List Item) (d d' : List File) (es : List Event) : Prop where
  good : ∀ e ∈ es, good c e = true
  ordered : ordered d (declsOf es) = true
  mem : ∀ f, .header f ∈ p → f ∈ d'
  done : ∀ g, g ∈ d' ↔ g ∈ d ∨ g ∈ declsOf es
  fromMacro : File.anyanyMacro ∈ declsOf es → .header .anyanyMacro ∈ p
  uintptr : Event.std .uintptr ∈ es → .std .uintptr ∈ p
  needed : Event.needed .typeDescriptor .uintptr ∈ es ↔ File.typeDescriptor ∈ declsOf es ∧ c.cpp20 = true ∧ c.noTypename = true

theorem runs (hc : c.hasAttribute = true) : ∀ {p : List Item} {d : List File}, d ∈ doneSets → Plain p →
    ∃ d' ∈ doneSets, (run c p ⟨left d, d⟩).1 = ⟨left d', d'⟩ ∧ Runs c p d d' (run c p ⟨left d, d⟩).2
  | [], d, hd, _ => ⟨d, hd, rfl, by simp [run], rfl, by simp, by simp [run, declsOf], by simp [run, declsOf], by simp [run], by simp [run, declsOf]⟩
  | i :: p, d, hd, hp => by
    have hp' : Plain p := fun j hj => hp j (List.mem_cons_of_mem _ hj)
    rcases hp i (List.mem_cons_self ..) with ⟨f, rfl, hf⟩ | ⟨n, rfl⟩
    · obtain ⟨d1, hd1, h1, s⟩ := step hc hd hf
      obtain ⟨d2, hd2, h2, r⟩ := runs hc hd1 hp'
      simp only [run, item]
      rw [h1]
      refine ⟨d2, hd2, h2, ?_, ?_, ?_, ?_, ?_, ?_, ?_⟩
      · intro e he
        rcases List.mem_append.1 he with he | he
        · exact s.good e he
        · exact r.good e he
      · rw [declsOf_append, ordered_append, s.ordered, Bool.true_and, ← r.ordered]
        refine ordered_congr fun g => ?_
        rw [s.done]
        simp [or_comm]
      · intro g hg
        rcases List.mem_cons.1 hg with h | h
        · cases h
          exact (r.done _).2 (.inl s.mem)
        · exact r.mem g h
      · intro g
        rw [r.done, s.done, declsOf_append, List.mem_append, or_assoc]
      · intro h
        rw [declsOf_append, List.mem_append] at h
        rcases h with h | h
        · rw [s.fromMacro h]; exact List.mem_cons_self ..
        · exact List.mem_cons_of_mem _ (r.fromMacro h)
      · intro h
        rcases List.mem_append.1 h with h | h
        · exact absurd h s.uintptr
        · exact List.mem_cons_of_mem _ (r.uintptr h)
      · rw [List.mem_append, s.needed, r.needed, declsOf_append, List.mem_append, ← or_and_right]
    · obtain ⟨d2, hd2, h2, r⟩ := runs hc hd hp'
      simp only [run, item]
      refine ⟨d2, hd2, h2, ?_, ?_, ?_, ?_, ?_, ?_, ?_⟩
      · intro e he
        rcases List.mem_append.1 he with he | he
        · rw [List.mem_singleton.1 he]; rfl
        · exact r.good e he
      · rw [declsOf_append]; exact r.ordered
      · intro g hg
        rcases List.mem_cons.1 hg with h | h
        · cases h
        · exact r.mem g h
      · intro g; rw [r.done, declsOf_append]; rfl
      · intro h
        rw [declsOf_append] at h
        exact List.mem_cons_of_mem _ (r.fromMacro h)
      · intro h
        rcases List.mem_append.1 h with h | h
        · cases List.mem_singleton.1 h; exact List.mem_cons_self ..
        · exact List.mem_cons_of_mem _ (r.uintptr h)
      · rw [List.mem_append, r.needed, declsOf_append]
        simp [declsOf]

theorem runs_start (hc : c.hasAttribute = true) (hp : Plain p) :
    ∃ d' ∈ doneSets, (run c p start).1 = ⟨left d', d'⟩ ∧ Runs c p [] d' (events c p) := runs hc (d := []) (by decide) hp

/-! ### C129 -/

/-- The declarations of each header that is included are there. -/
theorem C129_declared (hc : c.hasAttribute = true) (hp : Plain p) (hf : .header f ∈ p) : .decls f ∈ events c p := by
  obtain ⟨d', _, _, r⟩ := runs_start hc hp
  rw [← mem_declsOf]
  exact ((r.done f).1 (r.mem f hf)).resolve_left (by simp)

theorem ordered_split {l : List File} : ∀ {d a b : List File}, ordered d l = true → l = a ++ f :: b → f ∉ d ∧ f ∉ a ∧ f ∉ b ∧ ∀ g ∈ uses f, g ∈ d ∨ g ∈ a := by
  induction l with
  | nil => intro d a b _ h; cases a <;> cases h
  | cons x l ih =>
    intro d a b h he
    simp only [ordered, Bool.and_eq_true, List.all_eq_true, List.contains_iff_mem, Bool.not_eq_true'] at h
    obtain ⟨⟨h1, h2⟩, h3⟩ := h
    cases a with
    | nil =>
      cases he
      refine ⟨by simpa using h2, by simp, fun hb => ?_, fun g hg => .inl (h1 g hg)⟩
      obtain ⟨a', b', rfl⟩ := List.append_of_mem hb
      exact (ih h3 rfl).1 (List.mem_cons_self ..)
    | cons y a =>
      cases he
      obtain ⟨h4, h5, h6, h7⟩ := ih h3 rfl
      refine ⟨fun h => h4 (List.mem_cons_of_mem _ h), fun h => ?_, h6, fun g hg => ?_⟩
      · rcases List.mem_cons.1 h with rfl | h
        · exact h4 (List.mem_cons_self ..)
        · exact h5 h
      · rcases h7 g hg with h | h
        · rcases List.mem_cons.1 h with rfl | h
          · exact .inr (List.mem_cons_self ..)
          · exact .inl h
        · exact .inr (List.mem_cons_of_mem _ h)

/-- The declarations of a file, in whatever order and how often headers are included, are there only once. -/
theorem C129_once (hc : c.hasAttribute = true) (hp : Plain p) {a b : List Event} (h : events c p = a ++ .decls f :: b) : .decls f ∉ a ∧ .decls f ∉ b := by
  obtain ⟨d', _, _, r⟩ := runs_start hc hp
  have := ordered_split (f := f) (a := declsOf a) (b := declsOf b) r.ordered (by rw [h, declsOf_append]; rfl)
  rw [mem_declsOf, mem_declsOf] at this
  exact ⟨this.2.1, this.2.2.1⟩

/-- They come after all declarations of other files that they use. -/
theorem C129_order (hc : c.hasAttribute = true) (hp : Plain p) {a b : List Event} (h : events c p = a ++ .decls f :: b) : ∀ g ∈ uses f, .decls g ∈ a := by
  obtain ⟨d', _, _, r⟩ := runs_start hc hp
  have := ordered_split (f := f) (a := declsOf a) (b := declsOf b) r.ordered (by rw [h, declsOf_append]; rfl)
  intro g hg
  rw [← mem_declsOf]
  exact (this.2.2.2 g hg).resolve_left (by simp)

/-- Wherever the library uses one of its macros it is defined, by the library. (With a compiler that has `__has_cpp_attribute`.) -/
theorem C129_macros_partial (hc : c.hasAttribute = true) (hp : Plain p) {w : Option Who} (h : .used f m w ∈ events c p) : w = some .library := by
  obtain ⟨d', _, _, r⟩ := runs_start hc hp
  simpa [good] using r.good _ h

/-- Where the library selects code by one of its macros it is defined exactly if it should be; except where a standard header is included. -/
theorem C129_conditions_partial (hc : c.hasAttribute = true) (hp : Plain p) {b : Bool} (h : .asked f m b ∈ events c p) : truth c m = some b := by
  obtain ⟨d', _, _, r⟩ := runs_start hc hp
  simpa [good] using r.good _ h

/-- No macro of the program is defined again by the library, or undefined by it. (That the library does not repeat its own definitions, which is allowed as they are
the same, is not claimed.) -/
theorem C129_no_clash (hc : c.hasAttribute = true) (hp : Plain p) : .redefined m ∉ events c p ∧ .lost m ∉ events c p ∧ .tooDeep ∉ events c p := by
  obtain ⟨d', _, _, r⟩ := runs_start hc hp
  exact ⟨fun h => by simpa [good] using r.good _ h, fun h => by simpa [good] using r.good _ h, fun h => by simpa [good] using r.good _ h⟩

/-- Afterwards no macro of the library is defined, except those of anyany_macro.hpp if that was included. -/
theorem C129_left (hc : c.hasAttribute = true) (hp : Plain p) (m : Mac) :
    (run c p start).1.who m = if .header .anyanyMacro ∈ p ∧ (m = .method ∨ m = .helper) then some .library else none := by
  obtain ⟨d', _, h1, r⟩ := runs_start hc hp
  rw [h1]
  have hi : File.anyanyMacro ∈ d' ↔ .header .anyanyMacro ∈ p :=
    ⟨fun h => r.fromMacro (((r.done _).1 h).resolve_left (by simp)), fun h => r.mem _ h⟩
  by_cases hm : File.anyanyMacro ∈ d'
  · have : left d' = [(.method, .library), (.helper, .library)] := if_pos (by simpa using hm)
    simp only [this, hi.1 hm, true_and]
    cases m <;> rfl
  · have : left d' = [] := if_neg (by simpa using hm)
    simp only [this, mt hi.2 hm, false_and]
    rfl

theorem supplied_true {es : List Event} : supplied true es = true := by
  induction es with
  | nil => rfl
  | cons e es ih =>
    cases e
    case std n => cases n <;> exact ih
    case needed f n => cases n <;> exact ih
    all_goals exact ih

theorem supplied_append {a b : List Event} : ∀ {t : Bool}, supplied t (a ++ b) = (supplied t a && supplied (t || decide (Event.std .ordering ∈ a)) b) := by
  induction a with
  | nil => intro t; simp [supplied]
  | cons e a ih =>
    intro t
    cases e
    case std n =>
      cases n
      · simp [supplied, ih, supplied_true]
      · simp only [List.cons_append, supplied, ih, List.mem_cons]; simp
    case needed f n =>
      cases n
      · simp only [List.cons_append, supplied, ih, List.mem_cons, Bool.and_assoc]; simp
      · simp only [List.cons_append, supplied, ih, List.mem_cons]; simp
    all_goals simp only [List.cons_append, supplied, ih, List.mem_cons]; simp

theorem supplied_iff {es : List Event} : ∀ {t : Bool}, supplied t es = true ↔ ∀ a f b, es = a ++ .needed f .ordering :: b → t = true ∨ Event.std .ordering ∈ a := by
  induction es with
  | nil =>
    intro t
    refine ⟨fun _ a f b h => ?_, fun _ => rfl⟩
    cases a <;> cases h
  | cons e es ih =>
    intro t
    have other : (e ≠ .std .ordering) → (∀ f, e ≠ .needed f .ordering) →
        ((∀ a f b, e :: es = a ++ .needed f .ordering :: b → t = true ∨ Event.std .ordering ∈ a) ↔
          ∀ a f b, es = a ++ .needed f .ordering :: b → t = true ∨ Event.std .ordering ∈ a) := by
      intro h1 h2
      constructor
      · intro h a f b he
        rcases h (e :: a) f b (by rw [he]; rfl) with h | h
        · exact .inl h
        · rcases List.mem_cons.1 h with h | h
          · exact absurd h.symm h1
          · exact .inr h
      · intro h a f b he
        cases a with
        | nil => exact absurd (List.cons.inj he).1 (h2 f)
        | cons x a =>
          rcases h a f b (List.cons.inj he).2 with h | h
          · exact .inl h
          · exact .inr (List.mem_cons_of_mem _ h)
    cases e
    case std n =>
      cases n
      · rw [supplied, supplied_true]
        refine ⟨fun _ a f b h => ?_, fun _ => rfl⟩
        cases a with
        | nil => cases h
        | cons x a => cases h; exact .inr (List.mem_cons_self ..)
      · rw [other (by simp) (by simp), ← ih]; rfl
    case needed f n =>
      cases n
      · rw [supplied, Bool.and_eq_true, ih]
        constructor
        · rintro ⟨h, _⟩ a f b _
          exact .inl h
        · intro h
          have ht := (h [] f es rfl).resolve_right (by simp)
          exact ⟨ht, fun _ _ _ _ => .inl ht⟩
      · rw [other (by simp) (by simp), ← ih]; rfl
    all_goals rw [other (by simp) (by simp), ← ih]; rfl

theorem bare_sets {d : List File} (hd : d ∈ doneSets) (hb : bare d = true) : d = [] ∨ d = [.common, .anyanyMacro] := by
  have h : (doneSets.all fun d => !bare d || (d == [] || d == [.common, .anyanyMacro])) = true := by decide +kernel
  have := List.all_eq_true.1 h d hd
  rw [hb] at this
  simpa using this

theorem run_supplied (hc : c.hasAttribute = true) (h20 : c.cpp20 = true) : ∀ {p : List Item} {d : List File}, d ∈ doneSets → bare d = true → Plain p →
    (supplied false (run c p ⟨left d, d⟩).2 = true ↔ ¬(c.noTypename = false ∧ DescriptorFirst p))
  | [], d, _, _, _ => by
    refine ⟨fun _ h => ?_, fun _ => rfl⟩
    obtain ⟨_, a, b, h, _⟩ := h
    cases a <;> cases h
  | i :: p, d, hd, hb, hp => by
    have hp' : Plain p := fun j hj => hp j (List.mem_cons_of_mem _ hj)
    have skip : (i = .header .anyanyMacro ∨ i = .std .uintptr) → (DescriptorFirst (i :: p) ↔ DescriptorFirst p) := by
      intro hi
      constructor
      · rintro ⟨a, b, h, ha⟩
        cases a with
        | nil => cases h; simp at hi
        | cons x a => cases h; exact ⟨a, b, rfl, fun j hj => ha j (List.mem_cons_of_mem _ hj)⟩
      · rintro ⟨a, b, rfl, ha⟩
        refine ⟨i :: a, b, rfl, fun j hj => ?_⟩
        rcases List.mem_cons.1 hj with rfl | hj
        · exact hi
        · exact ha j hj
    have stop : ¬(i = .header .anyanyMacro ∨ i = .std .uintptr) → (DescriptorFirst (i :: p) ↔ i = .header .typeDescriptor) := by
      intro hi
      constructor
      · rintro ⟨a, b, h, ha⟩
        cases a with
        | nil => cases h; rfl
        | cons x a => cases h; exact absurd (ha _ (List.mem_cons_self ..)) hi
      · rintro rfl
        exact ⟨[], p, rfl, by simp⟩
    rcases hp i (List.mem_cons_self ..) with ⟨f, rfl, hf⟩ | ⟨n, rfl⟩
    · by_cases hm : f = .anyanyMacro
      · subst hm
        rw [skip (.inl rfl)]
        rcases bare_sets hd hb with rfl | rfl
        · exact run_supplied hc h20 (d := [.common, .anyanyMacro]) (by decide) rfl hp'
        · exact run_supplied hc h20 hd hb hp'
      · have hnd : f ∉ d := by
          rcases bare_sets hd hb with rfl | rfl
          · simp
          · rcases hf with rfl | rfl | rfl | rfl | rfl | rfl | rfl <;> simp at hm ⊢
        obtain ⟨d1, _, _, s⟩ := step hc hd hf
        rw [stop (by simpa using hm)]
        simp only [run, item]
        rw [supplied_append, s.bare hnd hb, decide_eq_true (s.std hnd hm h20), Bool.or_true, supplied_true, h20]
        cases c.noTypename <;> simp
    · cases n
      · rw [stop (by simp)]
        simp [run, item, supplied, supplied_true]
      · rw [skip (.inr rfl)]
        exact run_supplied hc h20 hd hb hp'

/-- In C++20 the types of `<compare>` are declared where the library needs them, exactly if not type_descriptor.hpp is the first header (while names of
types are used). -/
theorem C129_ordering_exact (hc : c.hasAttribute = true) (h20 : c.cpp20 = true) (hp : Plain p) :
    Supplied c p .ordering ↔ ¬(c.noTypename = false ∧ DescriptorFirst p) := by
  rw [← run_supplied hc h20 (d := []) (by decide) rfl hp, supplied_iff]
  simp only [Bool.false_eq_true, false_or]
  exact Iff.rfl

/-- The reason: the `#include <compare>` is never reached, not even in C++20. -/
theorem C129_include_fails (hc : c.hasAttribute = true) (hp : Plain p) {b : Bool} (h : .askedInclude f m b ∈ events c p) :
    f = .typeDescriptorDetails ∧ m = .hasCpp20 ∧ b = false := by
  obtain ⟨d', _, _, r⟩ := runs_start hc hp
  simpa [good, and_assoc] using r.good _ h

/-- `uintptr_t` is needed exactly in C++20, if names of types are not used, by programs with type descriptors. -/
theorem C129_uintptr_exact (hc : c.hasAttribute = true) (hp : Plain p) :
    .needed .typeDescriptor .uintptr ∈ events c p ↔ .decls .typeDescriptor ∈ events c p ∧ c.cpp20 = true ∧ c.noTypename = true := by
  obtain ⟨d', _, _, r⟩ := runs_start hc hp
  rw [← mem_declsOf]
  exact r.needed

/-- No header of the library includes a standard header for it: it is declared only if the program does so. -/
theorem C129_uintptr_fails (hc : c.hasAttribute = true) (hp : Plain p) (h20 : c.cpp20 = true) (hn : c.noTypename = true) (hu : .std .uintptr ∉ p)
    (hf : f = .typeDescriptor ∨ f = .anyany ∨ f = .utility ∨ f = .visitInvoke) (h : .header f ∈ p) : ¬Supplied c p .uintptr := by
  have hd := C129_declared hc hp h
  have ht : .decls .typeDescriptor ∈ events c p := by
    obtain ⟨a, b, hs⟩ := List.append_of_mem hd
    rcases hf with rfl | hf
    · exact hd
    · rw [hs]
      refine List.mem_append_left _ (C129_order hc hp hs .typeDescriptor ?_)
      rcases hf with rfl | rfl | rfl <;> simp [uses]
  obtain ⟨a, b, hs⟩ := List.append_of_mem ((C129_uintptr_exact hc hp).2 ⟨ht, h20, hn⟩)
  intro hsup
  obtain ⟨d', _, _, r⟩ := runs_start hc hp
  refine hu (r.uintptr ?_)
  rw [hs]
  exact List.mem_append_left _ (hsup _ _ _ hs)

/-- With a compiler without `__has_cpp_attribute`, `ANYANY_NO_UNIQUE_ADDRESS` is used though nobody defined it. -/
theorem C129_attribute_fails (hc : c.hasAttribute = false) (hf : f = .anyany ∨ f = .utility) : .used .anyany .noUniqueAddress none ∈ events c [.header f] := by
  obtain ⟨a, b, t⟩ := c
  cases hc
  rcases hf with rfl | rfl <;> cases a <;> cases b <;> decide +kernel

/-- A program must not define macros with the names of those of the library: including a header with them defines them again, and afterwards they are
not defined. -/
theorem C129_names_fails (hm : m ∈ beginMacros c) (hf : f = .typeDescriptor ∨ f = .variantSwarm) :
    .redefined m ∈ events c [.define m, .header f] ∧ (run c [.define m, .header f] start).1.who m = none := by
  have key : (List.all [true, false] fun a => List.all [true, false] fun b => List.all [true, false] fun t => (beginMacros ⟨a, b, t⟩).all fun m =>
      [File.typeDescriptor, .variantSwarm].all fun f =>
        (events ⟨a, b, t⟩ [.define m, .header f]).contains (.redefined m) && (run ⟨a, b, t⟩ [.define m, .header f] start).1.who m == none) = true := by
    decide +kernel
  have mb : ∀ b : Bool, b ∈ [true, false] := by decide
  obtain ⟨a, b, t⟩ := c
  have := List.all_eq_true.1 (List.all_eq_true.1 (List.all_eq_true.1 key a (mb a)) b (mb b)) t (mb t)
  have := List.all_eq_true.1 (List.all_eq_true.1 this m hm) f (by simpa using hf)
  simpa using this

/-- So with `frwd`, which is no reserved name and not one with a prefix of the library. -/
theorem C129_frwd_fails : .redefined .frwd ∈ events c [.define .frwd, .header .dataParallelVector] ∧
    (run c [.define .frwd, .header .dataParallelVector] start).1.who .frwd = none := by
  obtain ⟨a, b, t⟩ := c
  cases a <;> cases b <;> cases t <;> decide +kernel

/-! Programs: tests/test_anyany.cpp includes most headers; C++20, `#include <anyany/visit_invoke.hpp>` first, then others, twice. -/

example : Plain [.header .visitInvoke, .header .anyanyMacro, .std .uintptr, .header .utility, .header .visitInvoke] := by
  intro i hi
  simp only [List.mem_cons, List.not_mem_nil, or_false] at hi
  rcases hi with rfl | rfl | rfl | rfl | rfl
  · exact .inl ⟨_, rfl, by simp [Public]⟩
  · exact .inl ⟨_, rfl, by simp [Public]⟩
  · exact .inr ⟨_, rfl⟩
  · exact .inl ⟨_, rfl, by simp [Public]⟩
  · exact .inl ⟨_, rfl, by simp [Public]⟩

example : declsOf (events ⟨true, false, true⟩ [.header .visitInvoke, .header .anyanyMacro, .std .uintptr, .header .utility, .header .visitInvoke]) =
    [.typeDescriptorDetails, .typeDescriptor, .common, .anyanyDetails, .visitInvokeDetails, .visitInvoke, .anyanyMacro, .anyany, .utility] := by
  decide +kernel

example : DescriptorFirst [.header .anyanyMacro, .header .typeDescriptor, .header .anyany] := ⟨[.header .anyanyMacro], [.header .anyany], rfl, by simp⟩

example : ¬DescriptorFirst [.header .anyany, .header .typeDescriptor] := by
  rintro ⟨a, b, h, ha⟩
  cases a with
  | nil => cases h
  | cons x a =>
    have hx := (List.cons.inj h).1
    subst hx
    simpa using ha _ (List.mem_cons_self ..)

example : .asked .typeDescriptor .hasCpp20 true ∈ events ⟨true, false, true⟩ [.header .anyany] := by decide +kernel

example : .used .anyany .noUniqueAddress (some .library) ∈ events ⟨true, false, true⟩ [.header .anyany] := by decide +kernel

example : .askedInclude .typeDescriptorDetails .hasCpp20 false ∈ events ⟨true, false, true⟩ [.header .anyany] := by decide +kernel

end AnyAny.Headers
