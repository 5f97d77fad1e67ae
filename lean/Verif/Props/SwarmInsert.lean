import Verif.Spec.SwarmInsert
/-
C98: `insert(x)` of variant_swarm.
-/
namespace AnyAny.SwarmInsert

variable {L : Lang} {ts : List Nat} {x : Arg}

private theorem mem_candidates {a : Cand} {k : Nat} :
    a ∈ candidates L x k ts ↔ k ≤ a.idx ∧ ∃ u, ts[a.idx - k]? = some u ∧ viable L x u a.par = some a.ics := by
  induction ts generalizing k with
  | nil => simp [candidates]
  | cons u ts ih =>
    simp only [candidates, List.mem_append, List.mem_map, Option.mem_toList, ih]
    constructor
    · rintro ((⟨c, hc, rfl⟩ | ⟨c, hc, rfl⟩) | ⟨h, v, hv, hc⟩)
      · exact ⟨Nat.le_refl _, u, by simp, hc⟩
      · exact ⟨Nat.le_refl _, u, by simp, hc⟩
      · refine ⟨by omega, v, ?_, hc⟩
        rw [show a.idx - k = (a.idx - (k + 1)) + 1 by omega]
        simpa using hv
    · rintro ⟨h, v, hv, hc⟩
      by_cases hk : a.idx = k
      · rw [hk, Nat.sub_self] at hv
        simp only [List.getElem?_cons_zero, Option.some.injEq] at hv
        subst hv
        obtain ⟨i, p, c⟩ := a
        simp only at hk hc
        subst hk
        cases p with
        | rref => exact .inl (.inl ⟨c, hc, rfl⟩)
        | cref => exact .inl (.inr ⟨c, hc, rfl⟩)
      · rw [show a.idx - k = (a.idx - (k + 1)) + 1 by omega] at hv
        exact .inr ⟨by omega, v, by simpa using hv, hc⟩

private theorem better_asymm {a b : Cand} (h : a.better b = true) : b.better a = false := by
  obtain ⟨i, p, c⟩ := a
  obtain ⟨j, q, d⟩ := b
  cases c <;> cases d <;> cases p <;> cases q <;> simp [Cand.better, Ics.better, Ics.same] at * <;> grind

private theorem resolve_iff {i : Nat} {p : Par} :
    resolve L ts x = some (i, p) ↔ ∃ c, ⟨i, p, c⟩ ∈ candidates L x 0 ts ∧ ∀ b ∈ candidates L x 0 ts, b = ⟨i, p, c⟩ ∨ Cand.better ⟨i, p, c⟩ b = true := by
  unfold resolve
  constructor
  · intro h
    obtain ⟨a, ha, he⟩ := Option.map_eq_some_iff.1 h
    obtain ⟨j, q, c⟩ := a
    cases he
    have h1 := List.find?_some ha
    refine ⟨c, List.mem_of_find?_eq_some ha, fun b hb => ?_⟩
    have := List.all_eq_true.1 h1 b hb
    simp only [Bool.or_eq_true, beq_iff_eq] at this
    exact this.imp Eq.symm id
  · rintro ⟨c, hm, hall⟩
    have hs : ((candidates L x 0 ts).find? fun a => (candidates L x 0 ts).all fun b => a == b || a.better b).isSome = true := by
      rw [List.find?_isSome]
      refine ⟨_, hm, List.all_eq_true.2 fun b hb => ?_⟩
      simp only [Bool.or_eq_true, beq_iff_eq]
      exact (hall b hb).imp Eq.symm id
    obtain ⟨a, ha⟩ := Option.isSome_iff_exists.1 hs
    rw [ha]
    have h1 := List.find?_some ha
    have h2 := List.all_eq_true.1 h1 _ hm
    simp only [Bool.or_eq_true, beq_iff_eq] at h2
    rcases hall a (List.mem_of_find?_eq_some ha) with rfl | h3
    · rfl
    · rcases h2 with rfl | h2
      · rfl
      · rw [better_asymm h3] at h2; cases h2

private theorem nodup_inj (hn : ts.Nodup) {a b w : Nat} (ha : ts[a]? = some w) (hb : ts[b]? = some w) : a = b :=
  (List.getElem?_inj (List.getElem?_eq_some_iff.1 ha).1 hn).1 (ha.trans hb.symm)

/-! ### A value of one of the types -/

/-- C98: a value of type `T_i` goes to the container of `T_i`, whatever conversions from `T_i` to other types of the list there are: it is moved there if it is
an rvalue that is not const, and copied otherwise. -/
theorem C98_own_type (H : L.Ok) (hn : ts.Nodup) {i : Nat} (hi : ts[i]? = some x.ty) :
    resolve L ts x = some (i, if x.rvalue = true ∧ x.isConst = false then .rref else .cref) := by
  rw [resolve_iff]
  refine ⟨.std 0, mem_candidates.2 ⟨Nat.zero_le _, x.ty, hi, ?_⟩, fun b hb => ?_⟩
  · unfold viable
    by_cases h : x.rvalue = true ∧ x.isConst = false <;> simp [h]
  · obtain ⟨-, u, hu, hv⟩ := mem_candidates.1 hb
    rw [Nat.sub_zero] at hu
    obtain ⟨j, q, d⟩ := b
    simp only at hu hv ⊢
    by_cases hx : u = x.ty
    · subst hx
      have hij : j = i := nodup_inj hn hu hi
      subst hij
      unfold viable at hv
      by_cases h : x.rvalue = true ∧ x.isConst = false
      · simp only [h, and_self, or_true, if_true, Option.some.injEq] at hv
        subst hv
        cases q <;> simp [Cand.better, Ics.same, h]
      · cases q <;> simp [h] at hv
        subst hv
        simp [h]
    · right
      unfold viable at hv
      rw [if_neg hx] at hv
      cases hc : L.conv x.ty u with
      | none => rw [hc] at hv; cases hv
      | some c =>
        rw [hc] at hv
        have hd : c = d := by
          by_cases h : L.base x.ty u = true ∧ q = .rref ∧ ¬ (x.rvalue = true ∧ x.isConst = false)
          · simp [h] at hv
          · simp only [h, if_false, Option.some.injEq] at hv; exact hv
        subst hd
        cases c with
        | user f r => simp [Cand.better, Ics.better]
        | std r =>
          have : r ≠ 0 := fun e => hx (H.identity _ _ (e ▸ hc))
          simp [Cand.better, Ics.better, Nat.pos_of_ne_zero this]

/-! ### A value of another type -/

private theorem convTo_some {i : Nat} {u : Nat} (hu : ts[i]? = some u) (hx : u ≠ x.ty) : convTo L x ts i = L.conv x.ty u := by
  simp [convTo, hu, hx]

/-- C98: a value of a type that is not in the list goes to the container of the type with the best conversion. If that is not a base class of its type it
is converted and moved there; of a value of a derived class, the base is moved there if it is an rvalue that is not const, and copied otherwise. The
overloads for lvalues and rvalues do not get in the way. If no type has the best conversion, there is no such call. -/
theorem C98_converted (H : L.Ok) (ho : x.ty ∉ ts) {i : Nat} {p : Par} :
    resolve L ts x = some (i, p) ↔ Best L (fun _ => True) x ts i ∧
      p = if (∃ u, ts[i]? = some u ∧ L.base x.ty u = true) ∧ ¬ (x.rvalue = true ∧ x.isConst = false) then .cref else .rref := by
  have hne : ∀ {u : Nat}, u ∈ ts → u ≠ x.ty := fun hu e => ho (e ▸ hu)
  have hm : ∀ {j q c}, (⟨j, q, c⟩ : Cand) ∈ candidates L x 0 ts ↔ convTo L x ts j = some c ∧
      ¬ ((∃ u, ts[j]? = some u ∧ L.base x.ty u = true) ∧ ¬ (x.rvalue = true ∧ x.isConst = false) ∧ q = .rref) := by
    intro j q c
    rw [mem_candidates]
    simp only [Nat.zero_le, Nat.sub_zero, true_and]
    cases hu : ts[j]? with
    | none => simp [convTo, hu]
    | some u =>
      have hx := hne (List.mem_of_getElem? hu)
      rw [convTo_some hu hx]
      simp only [Option.some.injEq, exists_eq_left']
      unfold viable
      rw [if_neg hx]
      cases L.conv x.ty u with
      | none => simp
      | some d =>
        simp only
        by_cases h : L.base x.ty u = true ∧ q = .rref ∧ ¬ (x.rvalue = true ∧ x.isConst = false)
        · rw [if_pos h]
          exact ⟨fun h => (nomatch h), fun h' => absurd ⟨h.1, h.2.2, h.2.1⟩ h'.2⟩
        · rw [if_neg h]
          exact ⟨fun h' => ⟨h', fun k => h ⟨k.1, k.2.2, k.2.1⟩⟩, fun h' => h'.1⟩
  rw [resolve_iff]
  constructor
  · rintro ⟨c, h1, h2⟩
    obtain ⟨h1', hb1⟩ := hm.1 h1
    have hp : p = if (∃ u, ts[i]? = some u ∧ L.base x.ty u = true) ∧ ¬ (x.rvalue = true ∧ x.isConst = false) then .cref else .rref := by
      split
      · rename_i hb
        cases p with
        | rref => exact absurd ⟨hb.1, hb.2, rfl⟩ hb1
        | cref => rfl
      · rename_i hb
        rcases h2 ⟨i, .rref, c⟩ (hm.2 ⟨h1', fun h => hb ⟨h.1, h.2.1⟩⟩) with h | h
        · cases h; rfl
        · cases p with
          | rref => rfl
          | cref => cases c <;> simp [Cand.better, Ics.better] at h
    refine ⟨⟨trivial, c, h1', fun j c' hj _ hc' => ?_⟩, hp⟩
    by_cases hbj : (∃ u, ts[j]? = some u ∧ L.base x.ty u = true) ∧ ¬ (x.rvalue = true ∧ x.isConst = false)
    · rcases h2 ⟨j, .cref, c'⟩ (hm.2 ⟨hc', fun h => by cases h.2.2⟩) with h | h
      · cases h; exact absurd rfl hj
      · simp only [Cand.better, Bool.or_eq_true, Bool.and_eq_true, beq_iff_eq] at h
        rcases h with h | ⟨⟨hs, hp'⟩, -⟩
        · exact h
        · -- a derived class has no standard conversions but those to its bases
          obtain ⟨⟨u, hu, hbu⟩, hmv⟩ := hbj
          obtain ⟨r, hr⟩ := H.derived _ _ hbu
          have hcj := hc'
          rw [convTo_some hu (hne (List.mem_of_getElem? hu)), hr] at hcj
          cases hcj
          cases hw : ts[i]? with
          | none => simp [convTo, hw] at h1'
          | some w =>
            have hwx := hne (List.mem_of_getElem? hw)
            rw [convTo_some hw hwx] at h1'
            cases c with
            | user f s => simp [Ics.same] at hs
            | std r' => exact absurd ⟨⟨w, hw, (H.classes _ _ _ _ hbu h1').resolve_right hwx⟩, hmv, hp'⟩ hb1
    · rcases h2 ⟨j, .rref, c'⟩ (hm.2 ⟨hc', fun h => hbj ⟨h.1, h.2.1⟩⟩) with h | h
      · cases h; exact absurd rfl hj
      · simpa [Cand.better] using h
  · rintro ⟨⟨-, c, hc, hbest⟩, hp⟩
    refine ⟨c, hm.2 ⟨hc, fun h => ?_⟩, ?_⟩
    · rw [if_pos ⟨h.1, h.2.1⟩] at hp
      rw [hp] at h; cases h.2.2
    · rintro ⟨j, q, d⟩ hbm
      obtain ⟨hd, hb⟩ := hm.1 hbm
      by_cases hj : j = i
      · subst hj
        rw [hc] at hd
        cases hd
        by_cases hb' : (∃ u, ts[j]? = some u ∧ L.base x.ty u = true) ∧ ¬ (x.rvalue = true ∧ x.isConst = false)
        · rw [if_pos hb'] at hp
          subst hp
          cases q with
          | rref => exact absurd ⟨hb'.1, hb'.2, rfl⟩ hb
          | cref => left; rfl
        · rw [if_neg hb'] at hp
          subst hp
          cases q with
          | rref => left; rfl
          | cref => right; cases c <;> simp [Cand.better, Ics.same]
      · right
        simp [Cand.better, hbest j d hj trivial hd]

/-- C98: a value that converts to types of the list only by user-defined conversions, of which two use different constructors or conversion functions,
is ambiguous: it cannot be inserted. -/
theorem C98_ambiguous (H : L.Ok) (ho : x.ty ∉ ts) {i j u v f r f' r' : Nat} (hu : ts[i]? = some u) (hv : ts[j]? = some v)
    (hcu : L.conv x.ty u = some (.user f r)) (hcv : L.conv x.ty v = some (.user f' r')) (hf : f ≠ f')
    (hs : ∀ w ∈ ts, ∀ r, L.conv x.ty w ≠ some (.std r)) : resolve L ts x = none := by
  have hne : ∀ {a w : Nat}, ts[a]? = some w → w ≠ x.ty := fun ha e => ho (e ▸ List.mem_of_getElem? ha)
  cases hr : resolve L ts x with
  | none => rfl
  | some q =>
    obtain ⟨k, p⟩ := q
    obtain ⟨⟨-, c, hk, hbest⟩, -⟩ := (C98_converted H ho).1 hr
    cases hw : ts[k]? with
    | none => simp [convTo, hw] at hk
    | some w =>
      rw [convTo_some hw (hne hw)] at hk
      cases c with
      | std r => exact absurd hk (hs w (List.mem_of_getElem? hw) r)
      | user g s =>
        have key : ∀ {a t h n : Nat}, ts[a]? = some t → L.conv x.ty t = some (.user h n) → g = h := by
          intro a t h n ha hc
          by_cases e : a = k
          · subst e
            rw [hw] at ha; cases ha
            rw [hk] at hc; cases hc; rfl
          · have := hbest a _ e trivial ((convTo_some ha (hne ha)).trans hc)
            simp only [Ics.better, Bool.and_eq_true, beq_iff_eq] at this
            exact this.1
        exact absurd ((key hu hcu).symm.trans (key hv hcv)) hf

example : resolve ⟨fun _ u => if u = 1 then some (.user 3 0) else if u = 2 then some (.user 4 0) else none, fun _ _ => false⟩ [1, 2] ⟨0, false, true⟩ = none := by
  decide

/-! ### Compared with std::variant -/

/-- C98: if no conversion from the type of `x` to a type of the list is narrowing, then `insert(x)` puts `x` where `std::variant<Ts...>` would: there is a best
type for one iff there is for the other, and it is the same. -/
theorem C98_variant_partial (H : L.Ok) (hn : ts.Nodup) {narrow : Nat → Nat → Bool}
    (hw : ∀ u ∈ ts, narrow x.ty u = false) (i : Nat) :
    (∃ p, resolve L ts x = some (i, p)) ↔ VariantPicks L narrow x ts i := by
  have hP : ∀ j, (∀ u, ts[j]? = some u → narrow x.ty u = false) := fun j u hu => hw u (List.mem_of_getElem? hu)
  have hB : VariantPicks L narrow x ts i ↔ Best L (fun _ => True) x ts i := by
    exact ⟨fun ⟨_, c, h, h'⟩ => ⟨trivial, c, h, fun j c' hj _ => h' j c' hj (hP j)⟩,
      fun ⟨_, c, h, h'⟩ => ⟨hP i, c, h, fun j c' hj _ => h' j c' hj trivial⟩⟩
  rw [hB]
  by_cases ho : x.ty ∈ ts
  · obtain ⟨k, hk⟩ := List.mem_iff_getElem?.1 ho
    rw [C98_own_type H hn hk]
    have hck : convTo L x ts k = some (.std 0) := by simp [convTo, hk]
    constructor
    · rintro ⟨p, hp⟩
      cases hp
      refine ⟨trivial, _, hck, fun j c' hj _ hc' => ?_⟩
      cases c' with
      | user f r => rfl
      | std r =>
        simp only [Ics.better, decide_eq_true_eq]
        refine Nat.pos_of_ne_zero fun e => ?_
        subst e
        cases hu : ts[j]? with
        | none => simp [convTo, hu] at hc'
        | some u =>
          have hux : u = x.ty := by
            by_cases hx : u = x.ty
            · exact hx
            · rw [convTo_some hu hx] at hc'; exact H.identity _ _ hc'
          subst hux
          exact hj (nodup_inj hn hu hk)
    · rintro ⟨-, c, hc, hbest⟩
      by_cases hik : k = i
      · subst hik; exact ⟨_, rfl⟩
      · have := hbest k _ hik trivial hck
        cases c <;> simp [Ics.better] at this
  · simp only [C98_converted H ho]
    exact ⟨fun ⟨_, h, _⟩ => h, fun h => ⟨_, h, rfl⟩⟩

/-- C98, exactly: where `insert(x)` puts `x` in the container of type number `i`, `std::variant<Ts...>` chooses this type too iff the conversion to it is not
narrowing, whatever the conversions to the other types are. -/
theorem C98_variant_exact (H : L.Ok) (hn : ts.Nodup) (narrow : Nat → Nat → Bool) {i u : Nat} {p : Par} (hr : resolve L ts x = some (i, p)) (hu : ts[i]? = some u) :
    VariantPicks L narrow x ts i ↔ narrow x.ty u = false := by
  obtain ⟨_, c, hc, hb⟩ := (C98_variant_partial H hn (narrow := fun _ _ => false) (fun _ _ => rfl) i).1 ⟨p, hr⟩
  constructor
  · rintro ⟨h, _⟩
    exact h u hu
  · intro h
    refine ⟨fun v hv => ?_, c, hc, fun j c' hj _ hc' => hb j c' hj (fun _ _ => rfl) hc'⟩
    rw [hu] at hv
    cases hv
    exact h

/-- C98: a standard conversion that is narrowing beats a user-defined one, so that `insert(x)` and `std::variant<Ts...>` put `x` in different places: a string
literal is inserted as a `bool` in a swarm of `bool` and `std::string`. -/
theorem C98_variant_fails {narrow : Nat → Nat → Bool} {i j r f s : Nat} {u v : Nat} (hu : ts[i]? = some u) (hv : ts[j]? = some v) (hij : j ≠ i)
    (H : L.Ok) (ho : x.ty ∉ ts) (hb : L.base x.ty u = false) (hcu : L.conv x.ty u = some (.std r)) (hwu : narrow x.ty u = true)
    (hcv : L.conv x.ty v = some (.user f s)) (hwv : narrow x.ty v = false) (hrest : ∀ w ∈ ts, w ≠ u → w ≠ v → L.conv x.ty w = none) (hn : ts.Nodup) :
    resolve L ts x = some (i, .rref) ∧ VariantPicks L narrow x ts j := by
  have hinj : ∀ {a b w : Nat}, ts[a]? = some w → ts[b]? = some w → a = b := nodup_inj hn
  have hne : ∀ {a w : Nat}, ts[a]? = some w → w ≠ x.ty := fun ha e => ho (e ▸ List.mem_of_getElem? ha)
  have hother : ∀ k c, k ≠ i → k ≠ j → convTo L x ts k ≠ some c := by
    intro k c hki hkj hc
    cases hw : ts[k]? with
    | none => simp [convTo, hw] at hc
    | some w =>
      rw [convTo_some hw (hne hw), hrest w (List.mem_of_getElem? hw) (fun e => hki (hinj hw (e ▸ hu))) (fun e => hkj (hinj hw (e ▸ hv)))] at hc
      cases hc
  refine ⟨(C98_converted H ho).2 ⟨⟨trivial, _, (convTo_some hu (hne hu)).trans hcu, fun k c hk _ hc => ?_⟩, ?_⟩, ?_, _,
    (convTo_some hv (hne hv)).trans hcv, fun k c hk hP hc => ?_⟩
  · by_cases hkj : k = j
    · subst hkj
      rw [convTo_some hv (hne hv), hcv] at hc
      cases hc
      rfl
    · exact absurd hc (hother k c hk hkj)
  · rw [if_neg]
    rintro ⟨⟨w, hw, hbw⟩, -⟩
    rw [hu] at hw; cases hw
    rw [hb] at hbw; cases hbw
  · intro w hw
    rw [hv] at hw
    cases hw
    exact hwv
  · by_cases hki : k = i
    · subst hki
      have := hP u hu
      rw [hwu] at this
      cases this
    · exact absurd hc (hother k c hki hk)

/-- Types 0 `int`, 1 `double`, 2 `bool`, 3 `std::string`, 4 `const char*`, 5 `unsigned`, 6 `short`. -/
def exLang : Lang where
  conv := fun t u =>
    match t, u with
    | 4, 2 => some (.std 2)
    | 4, 3 => some (.user 0 0)
    | 6, 0 => some (.std 1)
    | 0, 1 | 0, 2 | 1, 0 | 1, 2 | 2, 1 | 5, 0 | 5, 1 | 5, 2 | 6, 1 | 6, 2 => some (.std 2)
    | 2, 0 => some (.std 1)
    | _, _ => none
  base := fun _ _ => false

theorem exLang_ok : exLang.Ok where
  identity := by
    intro t u h
    simp only [exLang] at h
    split at h <;> cases h
  derived := fun _ _ h => nomatch h
  classes := fun _ _ _ _ h => nomatch h

/-- `short` is promoted to `int`; an `unsigned` is ambiguous between `int` and `double`; a `double` is a `double`; a string literal is a `bool`. -/
example : resolve exLang [0, 1] ⟨6, false, false⟩ = some (0, .rref) ∧ resolve exLang [0, 1] ⟨5, false, true⟩ = none ∧
    resolve exLang [0, 1] ⟨1, false, false⟩ = some (1, .cref) ∧ resolve exLang [0, 1] ⟨1, false, true⟩ = some (1, .rref) ∧
    resolve exLang [3, 2] ⟨4, true, true⟩ = some (1, .rref) := by decide

example : resolve exLang [3, 2] ⟨4, true, true⟩ = some (1, .rref) ∧ VariantPicks exLang (fun _ u => u == 2) ⟨4, true, true⟩ [3, 2] 0 :=
  C98_variant_fails (u := 2) (v := 3) (r := 2) (f := 0) (s := 0) rfl rfl (by decide) exLang_ok (by decide) rfl rfl rfl rfl rfl (by decide) (by decide)

example : ¬ VariantPicks exLang (fun _ u => u == 2) ⟨4, true, true⟩ [3, 2] 1 := by
  rw [C98_variant_exact (u := 2) (p := .rref) exLang_ok (by decide) _ (by decide) rfl]
  decide

example : ∃ p, resolve exLang [0, 3] ⟨6, false, false⟩ = some (0, p) := ⟨_, rfl⟩

example : VariantPicks exLang (fun _ _ => false) ⟨6, false, false⟩ [0, 3] 0 :=
  (C98_variant_partial exLang_ok (by decide) (fun _ _ => rfl) 0).1 ⟨_, rfl⟩

/-- Classes: 2 is derived from 1, which is derived from 0; 3 can be made from a 2. -/
def exBases : Lang where
  conv := fun t u =>
    match t, u with
    | 2, 1 => some (.std 2)
    | 2, 0 | 1, 0 => some (.std 3)
    | 2, 3 => some (.user 0 0)
    | _, _ => none
  base := fun t u => match t, u with | 2, 1 | 2, 0 | 1, 0 => true | _, _ => false

theorem exBases_ok : exBases.Ok where
  identity := by
    intro t u h
    simp only [exBases] at h
    split at h <;> cases h
  derived := by
    intro t u h
    simp only [exBases] at h ⊢
    split at h <;> first | exact ⟨_, rfl⟩ | cases h
  classes := by
    intro t u v r h hc
    simp only [exBases] at h hc ⊢
    split at hc <;> first | exact .inl rfl | cases hc

/-- A value of the derived class goes to the closest base, copied or moved, not to the class that can be made from it. -/
example : resolve exBases [0, 3, 1] ⟨2, false, false⟩ = some (2, .cref) ∧ resolve exBases [0, 3, 1] ⟨2, false, true⟩ = some (2, .rref) ∧
    resolve exBases [0, 3] ⟨2, true, true⟩ = some (0, .cref) ∧ resolve exBases [3] ⟨2, false, false⟩ = some (0, .rref) := by decide

example : VariantPicks exBases (fun _ _ => false) ⟨2, false, false⟩ [0, 3, 1] 2 :=
  (C98_variant_partial exBases_ok (by decide) (fun _ _ => rfl) 2).1 ⟨_, rfl⟩

end AnyAny.SwarmInsert
