import Verif.Spec.Matcher
/-
C128: `aa::matcher` calls the function that matches.
-/
namespace AnyAny.Matcher
open Spec

variable {conv : Conv} {fs : List Fn} {ts : List Ty} {i j : Nat} {ps qs : List Param}

/-! ### Lemmas -/

theorem at_iff : (candidates fs)[i]? = some ps ↔ At fs i ps := by
  simp only [candidates, List.getElem?_map, Option.map_eq_some_iff, At]

theorem at_lt (h : At fs i ps) : i < fs.length := by
  obtain ⟨f, hf, _⟩ := h
  exact (List.getElem?_eq_some_iff.1 hf).1

theorem at_fn {h : i < fs.length} : At fs i (fs[i].params) := ⟨fs[i], List.getElem?_eq_getElem h, rfl⟩

theorem at_eq (h : At fs i ps) (h' : At fs i qs) : ps = qs := by
  obtain ⟨f, hf, rfl⟩ := h
  obtain ⟨g, hg, rfl⟩ := h'
  rw [hf] at hg
  cases hg
  rfl

theorem compiles_iff : compiles fs = true ↔ Distinct fs := by
  simp only [compiles, Bool.and_eq_true, List.all_eq_true, List.mem_range, Bool.or_eq_true, beq_iff_eq, bne_iff_ne, Distinct]
  refine and_congr_right fun _ => ⟨fun h i j ps hi hj => ?_, fun h i hi j hj => ?_⟩
  · rcases h i (at_lt hi) j (at_lt hj) with h | h
    · exact h
    · rw [at_iff.2 hi, at_iff.2 hj] at h
      exact absurd rfl h
  · by_cases he : i = j
    · exact .inl he
    · refine .inr fun hc => he ?_
      have h1 : At fs i (fs[i].params) := at_fn
      rw [at_iff.2 h1] at hc
      exact h i j _ h1 (at_iff.1 hc.symm)

theorem best_iff : best conv (candidates fs) ts i = true ↔
    ∃ ps rs, At fs i ps ∧ icss conv ts ps = some rs ∧
      ∀ j qs ss, j ≠ i → At fs j qs → icss conv ts qs = some ss → better ps rs qs ss = true := by
  unfold best
  constructor
  · intro h
    split at h
    · cases h
    · rename_i ps hp
      split at h
      · cases h
      · rename_i rs hr
        refine ⟨ps, rs, at_iff.1 hp, hr, fun j qs ss hj hq hs => ?_⟩
        rw [List.all_eq_true] at h
        have hx := h j (List.mem_range.2 (by simpa [candidates] using at_lt hq))
        have hne : (i == j) = false := by simpa using Ne.symm hj
        rw [hne, Bool.false_or, at_iff.2 hq] at hx
        simpa only [hs] using hx
  · rintro ⟨ps, rs, hp, hr, h⟩
    rw [at_iff.2 hp]
    simp only [hr]
    rw [List.all_eq_true]
    intro j _
    by_cases hj : i = j
    · simp [hj]
    · have hne : (i == j) = false := by simpa using hj
      rw [hne, Bool.false_or]
      split
      · rfl
      · rename_i qs hq
        split
        · rfl
        · rename_i ss hs
          exact h j qs ss (Ne.symm hj) (at_iff.1 hq) hs

theorem better_asymm {rs ss : List Nat} (h : better ps rs qs ss = true) : better qs ss ps rs = false := by
  rw [← Bool.not_eq_true]
  intro h'
  simp only [better, Bool.and_eq_true, Bool.or_eq_true, Bool.not_eq_true'] at h h'
  rcases h.2 with (h1 | h1) | h1
  · rw [h'.1] at h1; cases h1
  · rcases h'.2 with (h2 | h2) | h2
    · rw [h.1] at h2; cases h2
    · rw [h1.1] at h2; cases h2.2
    · rw [h1.1] at h2; cases h2.1.1.2
  · rcases h'.2 with (h2 | h2) | h2
    · rw [h.1] at h2; cases h2
    · rw [h1.1.1.2] at h2; cases h2.1
    · rw [h1.1.2] at h2; cases h2.2

theorem best_unique (hi : best conv (candidates fs) ts i = true) (hj : best conv (candidates fs) ts j = true) : i = j := by
  apply Classical.byContradiction
  intro hne
  obtain ⟨ps, rs, hp, hr, h⟩ := best_iff.1 hi
  obtain ⟨qs, ss, hq, hs, h'⟩ := best_iff.1 hj
  have h1 := h j qs ss (Ne.symm hne) hq hs
  have h2 := h' i ps rs hne hp hr
  rw [better_asymm h1] at h2
  cases h2

theorem call_iff : call conv fs ts = some i ↔ Distinct fs ∧ best conv (candidates fs) ts i = true := by
  rw [← compiles_iff]
  unfold call
  constructor
  · intro h
    split at h
    · rename_i hc
      exact ⟨hc, List.find?_some h⟩
    · cases h
  · rintro ⟨hc, hb⟩
    rw [if_pos hc]
    cases hf : (List.range fs.length).find? (best conv (candidates fs) ts) with
    | none =>
      obtain ⟨ps, _, hp, _⟩ := best_iff.1 hb
      have := List.find?_eq_none.1 hf i (List.mem_range.2 (at_lt hp))
      exact absurd hb this
    | some k => rw [best_unique (List.find?_some hf) hb]

theorem noWorse_zero (n : Nat) (ss : List Nat) : noWorse (List.replicate n 0) ss = true := by
  induction n generalizing ss with
  | zero => rfl
  | succ n ih => cases ss with
    | nil => rfl
    | cons s ss => simp [List.replicate_succ, noWorse, ih]

theorem icss_cons (t : Ty) (p : Param) (rs : List Nat) :
    icss conv (t :: ts) (p :: ps) = some rs ↔ ∃ r rs', ics conv t p = some r ∧ icss conv ts ps = some rs' ∧ rs = r :: rs' := by
  simp only [icss]
  cases ics conv t p <;> cases icss conv ts ps <;> simp [eq_comm]

/-- No argument is converted exactly if all ranks are zero. -/
theorem takes_iff (hs : Sane conv) : Takes ps ts ↔ icss conv ts ps = some (List.replicate ts.length 0) := by
  induction ts generalizing ps with
  | nil =>
    cases ps with
    | nil => simp [Takes, icss]
    | cons p ps => simp [Takes, icss]
  | cons t ts ih =>
    cases ps with
    | nil => simp [Takes, icss]
    | cons p ps =>
      have hc : Takes (p :: ps) (t :: ts) ↔ (p = .auto ∨ p = .ty t) ∧ Takes ps ts := by
        constructor
        · rintro ⟨hl, h⟩
          exact ⟨h 0 p t rfl rfl, by simpa using hl, fun i q u hq hu => h (i + 1) q u (by simpa using hq) (by simpa using hu)⟩
        · rintro ⟨h0, hl, h⟩
          refine ⟨by simpa using hl, fun i q u hq hu => ?_⟩
          cases i with
          | zero =>
            cases hq
            cases hu
            exact h0
          | succ i => exact h i q u (by simpa using hq) (by simpa using hu)
      rw [hc, ih, icss_cons]
      have h0 : ics conv t p = some 0 ↔ p = .auto ∨ p = .ty t := by
        cases p with
        | auto => simp [ics]
        | ty u => simp [ics, hs t u, eq_comm]
      rw [← h0]
      constructor
      · rintro ⟨h1, h2⟩
        exact ⟨0, _, h1, h2, rfl⟩
      · rintro ⟨r, rs, h1, h2, h3⟩
        simp only [List.length_cons, List.replicate_succ, List.cons.injEq] at h3
        rw [h1, h2, ← h3.1, ← h3.2]
        exact ⟨rfl, rfl⟩

theorem icss_length {rs : List Nat} (h : icss conv ts ps = some rs) : rs.length = ts.length := by
  induction ts generalizing ps rs with
  | nil => cases ps <;> simp [icss] at h; simp [← h]
  | cons t ts ih =>
    cases ps with
    | nil => simp [icss] at h
    | cons p ps =>
      obtain ⟨r, rs', _, h2, rfl⟩ := (icss_cons t p rs).1 h
      simp [ih h2]

theorem noWorse_to_zero {n : Nat} {ss : List Nat} (hl : ss.length = n) (h : noWorse ss (List.replicate n 0) = true) :
    ss = List.replicate n 0 := by
  induction n generalizing ss with
  | zero => simpa using hl
  | succ n ih =>
    cases ss with
    | nil => cases hl
    | cons s ss =>
      simp only [List.replicate_succ, noWorse, Bool.and_eq_true, decide_eq_true_eq, Nat.le_zero] at h
      rw [h.1, ih (by simpa using hl) h.2, List.replicate_succ]

theorem callable_iff : Callable conv ps ts ↔ (icss conv ts ps).isSome = true := by
  induction ts generalizing ps with
  | nil => cases ps <;> simp [Callable, icss]
  | cons t ts ih =>
    cases ps with
    | nil => simp [Callable, icss]
    | cons p ps =>
      have hc : Callable conv (p :: ps) (t :: ts) ↔ (ics conv t p).isSome = true ∧ Callable conv ps ts := by
        constructor
        · rintro ⟨hl, h⟩
          refine ⟨?_, by simpa using hl, fun i u v hu hv => h (i + 1) u v (by simpa using hu) (by simpa using hv)⟩
          cases p with
          | auto => rfl
          | ty u => exact h 0 t u rfl rfl
        · rintro ⟨h0, hl, h⟩
          refine ⟨by simpa using hl, fun i u v hu hv => ?_⟩
          cases i with
          | zero =>
            cases hu
            cases hv
            exact h0
          | succ i => exact h i u v (by simpa using hu) (by simpa using hv)
      rw [hc, ih]
      simp only [icss]
      cases ics conv t p <;> cases icss conv ts ps <;> simp

theorem atLeast_iff : atLeast ps qs = true ↔ AsSpecial ps qs := by
  induction ps generalizing qs with
  | nil => simp [atLeast, AsSpecial]
  | cons p ps ih =>
    cases qs with
    | nil => simp [atLeast, AsSpecial]
    | cons q qs =>
      simp only [atLeast, Bool.and_eq_true, Bool.or_eq_true, beq_iff_eq, ih]
      constructor
      · rintro ⟨h0, h⟩ k x y hx hy
        cases k with
        | zero =>
          cases hx
          cases hy
          exact h0
        | succ k => exact h k x y (by simpa using hx) (by simpa using hy)
      · intro h
        exact ⟨h 0 p q rfl rfl, fun k x y hx hy => h (k + 1) x y (by simpa using hx) (by simpa using hy)⟩

theorem asSpecial_antisymm (hl : ps.length = qs.length) (h : AsSpecial ps qs) (h' : AsSpecial qs ps) : ps = qs := by
  apply List.ext_getElem hl
  intro k h1 h2
  rcases h k _ _ (List.getElem?_eq_getElem h1) (List.getElem?_eq_getElem h2) with he | he
  · rcases h' k _ _ (List.getElem?_eq_getElem h2) (List.getElem?_eq_getElem h1) with he' | he'
    · rw [he, he']
    · exact he'.symm
  · exact he

/-- Of functions that take the arguments as they are, one that is no template is as special as all. -/
theorem asSpecial_of (hp : Takes ps ts) (hq : Takes qs ts) (hn : isTemplate ps = false) : AsSpecial ps qs := by
  intro k p q hpk hqk
  have hlt : k < ts.length := by
    rw [← hp.1]
    exact (List.getElem?_eq_some_iff.1 hpk).1
  have hx := hp.2 k p ts[k] hpk (List.getElem?_eq_getElem hlt)
  have hy := hq.2 k q ts[k] hqk (List.getElem?_eq_getElem hlt)
  rcases hx with rfl | rfl
  · have : isTemplate ps = true := by
      rw [isTemplate, List.contains_iff_mem]
      exact List.mem_of_getElem? hpk
    rw [hn] at this
    cases this
  · rcases hy with rfl | rfl
    · exact .inl rfl
    · exact .inr rfl

/-! ### C128 -/

/-- C128: of functions that all can be bases and have different parameters, one that takes exactly the types of the arguments is called. -/
theorem C128_exactly (hs : Sane conv) (hd : Distinct fs) (ha : At fs i ps) (he : Exactly ps ts) : call conv fs ts = some i := by
  refine call_iff.2 ⟨hd, best_iff.2 ⟨ps, List.replicate ts.length 0, ha, ?_, fun j qs ss hj hq hss => ?_⟩⟩
  · refine (takes_iff hs).1 ⟨by rw [he, List.length_map], fun k p t hp ht => ?_⟩
    rw [he, List.getElem?_map, ht] at hp
    cases hp
    exact .inr rfl
  · have hn : isTemplate ps = false := by
      rw [he]
      simp [isTemplate]
    simp only [better, noWorse_zero, Bool.true_and, Bool.or_eq_true, Bool.not_eq_true', Bool.and_eq_true, hn]
    cases hw : noWorse ss (List.replicate ts.length 0) with
    | false => exact .inl (.inl rfl)
    | true =>
      refine .inl (.inr ⟨trivial, ?_⟩)
      rw [noWorse_to_zero (icss_length hss) hw] at hss
      have ht := (takes_iff hs).2 hss
      cases hm : isTemplate qs with
      | true => rfl
      | false =>
        exfalso
        apply hj
        refine hd.2 j i qs hq ?_
        have : qs = ts.map Param.ty := by
          apply List.ext_getElem?
          intro k
          rw [List.getElem?_map]
          cases hk : ts[k]? with
          | none =>
            rw [Option.map_none, List.getElem?_eq_none_iff, ht.1]
            exact List.getElem?_eq_none_iff.1 hk
          | some t =>
            have hlt : k < qs.length := by rw [ht.1]; exact (List.getElem?_eq_some_iff.1 hk).1
            have hx := ht.2 k qs[k] t (List.getElem?_eq_getElem hlt) hk
            rcases hx with hx | hx
            · have : qs.contains Param.auto = true := by
                rw [List.contains_iff_mem]
                exact hx ▸ List.getElem_mem hlt
              rw [isTemplate, this] at hm
              cases hm
            · rw [List.getElem?_eq_getElem hlt, hx]; rfl
        rw [this, ← he]
        exact ha

/-- C128: a function that takes the arguments as they are is called if it is the only one. -/
theorem C128_only (hs : Sane conv) (hd : Distinct fs) (ha : At fs i ps) (ht : Takes ps ts)
    (ho : ∀ j qs, At fs j qs → Takes qs ts → j = i) : call conv fs ts = some i := by
  refine call_iff.2 ⟨hd, best_iff.2 ⟨ps, _, ha, (takes_iff hs).1 ht, fun j qs ss hj hq hss => ?_⟩⟩
  have hw : noWorse ss (List.replicate ts.length 0) = false := by
    rw [← Bool.not_eq_true]
    intro hw
    rw [noWorse_to_zero (icss_length hss) hw] at hss
    exact hj (ho j qs hq ((takes_iff hs).2 hss))
  simp [better, noWorse_zero, hw]

/-- C128, exactly, for arguments that some function takes as they are: a function is called if and only if it is one of these and at least as
special as all others of them. -/
theorem C128_most_special (hs : Sane conv) (hd : Distinct fs) (ht : ∃ j qs, At fs j qs ∧ Takes qs ts) (i : Nat) :
    call conv fs ts = some i ↔ ∃ ps, At fs i ps ∧ Takes ps ts ∧ ∀ j qs, At fs j qs → Takes qs ts → AsSpecial ps qs := by
  constructor
  · intro hc
    obtain ⟨j0, qs0, ha0, ht0⟩ := ht
    obtain ⟨_, hb⟩ := call_iff.1 hc
    obtain ⟨ps, rs, ha, hr, h⟩ := best_iff.1 hb
    have hps : rs = List.replicate ts.length 0 := by
      by_cases hij : j0 = i
      · subst hij
        have := at_eq ha ha0
        subst this
        rw [(takes_iff hs).1 ht0] at hr
        exact (Option.some.inj hr).symm
      · have hb' := h j0 qs0 _ hij ha0 ((takes_iff hs).1 ht0)
        simp only [better, Bool.and_eq_true] at hb'
        exact noWorse_to_zero (icss_length hr) hb'.1
    subst hps
    have htp := (takes_iff hs).2 hr
    refine ⟨ps, ha, htp, fun j qs hq htq => ?_⟩
    by_cases hij : j = i
    · subst hij
      have := at_eq ha hq
      subst this
      intro k p q hp hq'
      rw [hp] at hq'
      exact .inr (Option.some.inj hq')
    · have hb' := h j qs _ hij hq ((takes_iff hs).1 htq)
      simp only [better, noWorse_zero, Bool.true_and, Bool.not_true, Bool.false_or, Bool.or_eq_true, Bool.and_eq_true,
        Bool.not_eq_true'] at hb'
      rcases hb' with hb' | hb'
      · exact asSpecial_of htp htq hb'.1
      · exact atLeast_iff.1 hb'.1.2
  · rintro ⟨ps, ha, htp, hsp⟩
    refine call_iff.2 ⟨hd, best_iff.2 ⟨ps, _, ha, (takes_iff hs).1 htp, fun j qs ss hj hq hss => ?_⟩⟩
    cases hw : noWorse ss (List.replicate ts.length 0) with
    | false => simp [better, noWorse_zero, hw]
    | true =>
      have hz := noWorse_to_zero (icss_length hss) hw
      subst hz
      have htq := (takes_iff hs).2 hss
      have h1 := hsp j qs hq htq
      have hl : ps.length = qs.length := by rw [htp.1, htq.1]
      have hne : ps ≠ qs := fun he => hj (hd.2 j i ps (he ▸ hq) ha)
      have h2 : ¬ AsSpecial qs ps := fun h => hne (asSpecial_antisymm hl h1 h)
      have hq2 : isTemplate qs = true := by
        rw [← Bool.not_eq_false]
        exact fun hn => h2 (asSpecial_of htq htp hn)
      have h3 : atLeast ps qs = true := atLeast_iff.2 h1
      have h4 : atLeast qs ps = false := by
        rw [← Bool.not_eq_true, atLeast_iff]
        exact h2
      simp only [better, noWorse_zero, hq2, h3, h4]
      cases isTemplate ps <;> rfl

/-- C128: arguments are converted only if no function takes them as they are. -/
theorem C128_no_conversion (hs : Sane conv) (ha : At fs i ps) (ht : Takes ps ts) (hc : call conv fs ts = some j) (hq : At fs j qs) :
    Takes qs ts := by
  obtain ⟨_, hb⟩ := call_iff.1 hc
  obtain ⟨qs', ss, hq', hss, h⟩ := best_iff.1 hb
  have := at_eq hq hq'
  subst this
  by_cases hij : i = j
  · subst hij
    exact at_eq ha hq ▸ ht
  · have hb' := h i ps _ hij ha ((takes_iff hs).1 ht)
    simp only [better, Bool.and_eq_true] at hb'
    rw [noWorse_to_zero (icss_length hss) hb'.1] at hss
    exact (takes_iff hs).2 hss

/-- C128: only functions that can be called with the arguments are called, and if there is just one it is called. -/
theorem C128_callable (hd : Distinct fs) :
    (∀ i, call conv fs ts = some i → ∃ ps, At fs i ps ∧ Callable conv ps ts) ∧
    (∀ i ps, At fs i ps → Callable conv ps ts → (∀ j qs, At fs j qs → Callable conv qs ts → j = i) → call conv fs ts = some i) := by
  refine ⟨fun i h => ?_, fun i ps ha hc ho => ?_⟩
  · obtain ⟨_, hb⟩ := call_iff.1 h
    obtain ⟨ps, rs, hp, hr, _⟩ := best_iff.1 hb
    exact ⟨ps, hp, callable_iff.2 (by simp [hr])⟩
  · obtain ⟨rs, hr⟩ := Option.isSome_iff_exists.1 (callable_iff.1 hc)
    refine call_iff.2 ⟨hd, best_iff.2 ⟨ps, rs, ha, hr, fun j qs ss hj hq hss => ?_⟩⟩
    exact absurd (ho j qs hq (callable_iff.2 (by simp [hss]))) hj

/-- C128 for one value: the function for its type is called if there is one, otherwise the generic one if there is one. -/
theorem C128_one_partial (hs : Sane conv) (hd : Distinct fs) (t : Ty) :
    (∀ i, At fs i [.ty t] → call conv fs [t] = some i) ∧
    ((∀ i, ¬ At fs i [.ty t]) → ∀ i, At fs i [.auto] → call conv fs [t] = some i) := by
  refine ⟨fun i h => C128_exactly hs hd h rfl, fun hn i h => C128_only hs hd h ⟨rfl, ?_⟩ fun j qs hq ht => ?_⟩
  · intro k p u hp hu
    cases k with
    | zero =>
      cases hp
      exact .inl rfl
    | succ k => cases hp
  · obtain ⟨hl, hx⟩ := ht
    match qs, hl with
    | [q], _ =>
      rcases hx 0 q t rfl rfl with rfl | rfl
      · exact hd.2 j i _ hq h
      · exact absurd hq (hn j)

/-- C128 for one `std::variant`: with a generic function `std::visit` compiles, whatever the alternatives and the other functions are. -/
theorem C128_visit_partial (hs : Sane conv) (hd : Distinct fs) (hg : At fs i [.auto]) (alts : List Ty) :
    visitCompiles conv fs [alts] [] = true := by
  simp only [visitCompiles, List.all_eq_true]
  intro t _
  obtain ⟨h1, h2⟩ := C128_one_partial hs hd t
  by_cases he : ∃ i, At fs i [.ty t]
  · obtain ⟨k, hk⟩ := he
    simp [h1 k hk]
  · simp [h2 (fun k hk => he ⟨k, hk⟩) i hg]

/-- C128: two functions with the same parameters, and function pointers or objects of final classes, never make a matcher. -/
theorem C128_distinct (hd : ¬ Distinct fs) (ts : List Ty) : call conv fs ts = none := by
  cases h : call conv fs ts with
  | none => rfl
  | some k => exact absurd (call_iff.1 h).1 hd

/-- The conversions of the examples: 0 is `int`, 1 `float`, 2 `std::string`. -/
def exConv : Conv := fun t u => if t = u then some 0 else if t < 2 ∧ u < 2 then some 2 else none

theorem exConv_sane : Sane exConv := by
  intro t u
  unfold exConv
  split
  · simp_all
  · split <;> simp_all

/-- `matcher{[](auto) {}, [](int) {}}`. -/
example : Distinct [⟨[.auto], true⟩, ⟨[.ty 0], true⟩] ∧ call exConv [⟨[.auto], true⟩, ⟨[.ty 0], true⟩] [0] = some 1 ∧
    call exConv [⟨[.auto], true⟩, ⟨[.ty 0], true⟩] [1] = some 0 ∧ call exConv [⟨[.ty 0], true⟩] [1] = some 0 ∧
    call exConv [⟨[.ty 0], true⟩] [2] = none ∧ visitCompiles exConv [⟨[.auto], true⟩, ⟨[.ty 0], true⟩] [[0, 1, 2]] [] = true := by
  refine ⟨compiles_iff.1 (by decide), by decide, by decide, by decide, by decide, by decide⟩

/-- `matcher{[](auto, auto) {}, [](auto, int) {}}` with two `int`. -/
example : ∃ j qs, At [⟨[.auto, .auto], true⟩, ⟨[.auto, .ty 0], true⟩] j qs ∧ Takes qs [0, 0] ∧
    call exConv [⟨[.auto, .auto], true⟩, ⟨[.auto, .ty 0], true⟩] [0, 0] = some 1 :=
  ⟨1, [.auto, .ty 0], ⟨_, rfl, rfl⟩, (takes_iff exConv_sane).2 rfl, by decide⟩

/-- C128 fails for several values: a generic function does not help if two others match in different places; for all types and conversions. -/
theorem C128_several_fails (conv : Conv) (hs : Sane conv) (t : Ty) :
    Distinct [⟨[.auto, .auto], true⟩, ⟨[.auto, .ty t], true⟩, ⟨[.ty t, .auto], true⟩] ∧
    call conv [⟨[.auto, .auto], true⟩, ⟨[.auto, .ty t], true⟩, ⟨[.ty t, .auto], true⟩] [t, t] = none := by
  have ht : conv t t = some 0 := (hs t t).2 rfl
  refine ⟨compiles_iff.1 (by simp [compiles, candidates, List.range, List.range.loop]), ?_⟩
  simp [call, List.range, List.range.loop, best, candidates, icss, ics, ht, better, noWorse, isTemplate, atLeast]

/-- C128 fails for the example in the comment of `matcher`, `matcher{[](auto x, int) {...}, [](int, float) {...}}`: it cannot be called
with two `float`, so that two variants of `int` and `float` cannot be visited with it. For all types that are converted to each other. -/
theorem C128_documented_fails (conv : Conv) (hs : Sane conv) (t u : Ty) (hne : t ≠ u) (h1 : (conv u t).isSome = true) :
    Distinct [⟨[.auto, .ty t], true⟩, ⟨[.ty t, .ty u], true⟩] ∧
    call conv [⟨[.auto, .ty t], true⟩, ⟨[.ty t, .ty u], true⟩] [u, u] = none ∧
    visitCompiles conv [⟨[.auto, .ty t], true⟩, ⟨[.ty t, .ty u], true⟩] [[t, u], [t, u]] [] = false := by
  have hu : conv u u = some 0 := (hs u u).2 rfl
  obtain ⟨r, hr⟩ := Option.isSome_iff_exists.1 h1
  have h0 : r ≠ 0 := by
    rintro rfl
    exact hne ((hs u t).1 hr).symm
  have hc : call conv [⟨[.auto, .ty t], true⟩, ⟨[.ty t, .ty u], true⟩] [u, u] = none := by
    simp [call, List.range, List.range.loop, best, candidates, icss, ics, hu, hr, better, noWorse, h0]
  refine ⟨compiles_iff.1 (by simp [compiles, candidates, List.range, List.range.loop]), hc, ?_⟩
  simp [visitCompiles, hc]

example : visitCompiles exConv [⟨[.auto, .ty 0], true⟩, ⟨[.ty 0, .ty 1], true⟩] [[0, 1], [0, 1]] [] = false :=
  (C128_documented_fails exConv exConv_sane 0 1 (by decide) (by decide)).2.2

end AnyAny.Matcher
