import Verif.Spec.TypeList
set_option linter.unusedSectionVars false
namespace AnyAny.TypeList
open Spec
variable {α : Type} [DecidableEq α]

theorem startsWith_iff (a b : List α) : startsWith a b = true ↔ ∃ s, b = a ++ s := by
  fun_induction startsWith a b with
  | case1 b => simp
  | case2 => simp
  | case3 as b bs ih => simp [ih]
  | case4 a as b bs h => simp; intro h' ; exact absurd h'.symm h

theorem numberOfImpl_some (t : α) (ts : List α) (n i : Nat) :
    numberOfImpl n t ts = some i ↔ n ≤ i ∧ FirstAt t ts (i - n) := by
  induction ts generalizing n with
  | nil => simp [numberOfImpl, FirstAt]
  | cons x xs ih =>
    unfold numberOfImpl
    split
    · rename_i h; subst h
      constructor
      · intro h; injection h with h; subst h; simp [FirstAt]
      · rintro ⟨h1, h2, h3⟩
        by_cases hz : i - n = 0
        · congr 1; omega
        · exact absurd (by simp) (h3 0 (by omega))
    · rename_i h
      rw [ih]
      constructor
      · rintro ⟨h1, h2, h3⟩
        refine ⟨by omega, ?_, ?_⟩
        · have : i - n = (i - (n+1)) + 1 := by omega
          rw [this]; simpa using h2
        · intro j hj
          cases j with
          | zero => simp; exact fun h' => h h'.symm
          | succ j => simpa using h3 j (by omega)
      · rintro ⟨h1, h2, h3⟩
        have hne : i - n ≠ 0 := by
          intro hz; rw [hz] at h2; simp at h2; exact h h2.symm
        refine ⟨by omega, ?_, ?_⟩
        · have : i - n = (i - (n+1)) + 1 := by omega
          rw [this] at h2; simpa using h2
        · intro j hj
          have := h3 (j+1) (by omega)
          simpa using this

theorem numberOfImpl_none (t : α) (ts : List α) (n : Nat) :
    numberOfImpl n t ts = none ↔ t ∉ ts := by
  induction ts generalizing n with
  | nil => simp [numberOfImpl]
  | cons x xs ih =>
    unfold numberOfImpl
    split
    · rename_i h; simp [h]
    · rename_i h; rw [ih]; simp [h]

theorem containsV_iff (t : α) (ts : List α) : containsV t ts = true ↔ t ∈ ts := by
  simp only [containsV, numberOfFirst, bne_iff_ne, ne_eq, numberOfImpl_none, Decidable.not_not]

theorem occursAt_zero (n h : List α) : OccursAt n h 0 ↔ ∃ s, h = n ++ s := by
  constructor
  · rintro ⟨b, a, h1, h2⟩; have := List.length_eq_zero_iff.mp h2; subst this; exact ⟨a, by simpa using h1⟩
  · rintro ⟨s, h1⟩; exact ⟨[], s, by simpa using h1, rfl⟩

theorem occursAt_succ (n : List α) (x : α) (h : List α) (i : Nat) :
    OccursAt n (x :: h) (i+1) ↔ OccursAt n h i := by
  constructor
  · rintro ⟨b, a, h1, h2⟩
    cases b with
    | nil => simp at h2
    | cons y b => simp at h1 h2; exact ⟨b, a, by simpa using h1.2, h2⟩
  · rintro ⟨b, a, h1, h2⟩
    exact ⟨x :: b, a, by simp [h1], by simp [h2]⟩

theorem occursAt_len {n h : List α} {i : Nat} (o : OccursAt n h i) : i + n.length ≤ h.length := by
  obtain ⟨b, a, h1, h2⟩ := o
  subst h1; simp; omega

theorem findImpl_some (needle hay : List α) (n i : Nat) (hne : hay ≠ []) :
    findSubsequenceImpl needle hay n = some i ↔
      n ≤ i ∧ OccursAt needle hay (i - n) ∧ ∀ j, j < i - n → ¬ OccursAt needle hay j := by
  induction hay generalizing n with
  | nil => exact absurd rfl hne
  | cons x xs ih =>
    unfold findSubsequenceImpl
    split
    · rename_i hlen
      split
      · rename_i he
        constructor
        · intro h; injection h with h; subst h
          refine ⟨Nat.le_refl _, ?_, by omega⟩
          rw [Nat.sub_self, occursAt_zero]; exact ⟨[], by simp [he]⟩
        · rintro ⟨h1, h2, h3⟩
          have := occursAt_len h2
          rw [he] at this; congr 1; omega
      · rename_i he
        constructor
        · intro h; cases h
        · rintro ⟨h1, h2, h3⟩
          have hl := occursAt_len h2
          simp at hl
          have hz : i - n = 0 := by omega
          rw [hz, occursAt_zero] at h2
          obtain ⟨s, hs⟩ := h2
          have : s.length = 0 := by
            have := congrArg List.length hs; simp at this; omega
          have := List.length_eq_zero_iff.mp this
          subst this; simp at hs; exact absurd hs.symm he
    · rename_i hlen
      split
      · rename_i hs
        rw [startsWith_iff] at hs
        constructor
        · intro h; injection h with h; subst h
          refine ⟨Nat.le_refl _, ?_, by omega⟩
          rw [Nat.sub_self, occursAt_zero]; exact hs
        · rintro ⟨h1, h2, h3⟩
          by_cases hz : i - n = 0
          · congr 1; omega
          · exact absurd ((occursAt_zero _ _).mpr hs) (h3 0 (by omega))
      · rename_i hs
        rw [startsWith_iff] at hs
        have hxs : xs ≠ [] := by
          intro h; subst h
          apply hs
          have : needle = [] := List.length_eq_zero_iff.mp (by simp at hlen; simpa using hlen)
          exact ⟨[x], by simp [this]⟩
        rw [ih _ hxs]
        constructor
        · rintro ⟨h1, h2, h3⟩
          have e : i - n = (i - (n+1)) + 1 := by omega
          refine ⟨by omega, ?_, ?_⟩
          · rw [e, occursAt_succ]; exact h2
          · intro j hj
            cases j with
            | zero => rw [occursAt_zero]; exact hs
            | succ j => rw [occursAt_succ]; exact h3 j (by omega)
        · rintro ⟨h1, h2, h3⟩
          have hnz : i - n ≠ 0 := by
            intro hz; rw [hz, occursAt_zero] at h2; exact hs h2
          have e : i - n = (i - (n+1)) + 1 := by omega
          refine ⟨by omega, ?_, ?_⟩
          · rw [e, occursAt_succ] at h2; exact h2
          · intro j hj
            have := h3 (j+1) (by omega)
            rwa [occursAt_succ] at this

theorem findSubsequence_some (needle hay : List α) (i : Nat) :
    findSubsequence needle hay = some i ↔
      OccursAt needle hay i ∧ ∀ j, j < i → ¬ OccursAt needle hay j := by
  unfold findSubsequence
  split
  · rename_i h; subst h
    split
    · rename_i h; subst h
      constructor
      · intro h; injection h with h; subst h; exact ⟨(occursAt_zero _ _).mpr ⟨[], rfl⟩, by omega⟩
      · rintro ⟨h1, _⟩; have := occursAt_len h1; simp at this; simp [this]
    · rename_i h
      constructor
      · intro h; cases h
      · rintro ⟨h1, _⟩
        have := occursAt_len h1; simp at this; exact absurd this.2 h
  · rename_i h
    rw [findImpl_some _ _ _ _ h]; simp

theorem exists_least {P : Nat → Prop} (h : ∃ n, P n) : ∃ n, P n ∧ ∀ j, j < n → ¬ P j := by
  obtain ⟨n, hn⟩ := h
  induction n using Nat.strongRecOn with
  | ind n ih =>
    by_cases hx : ∃ j, j < n ∧ P j
    · obtain ⟨j, hj, hp⟩ := hx; exact ih j hj hp
    · exact ⟨n, hn, fun j hj hp => hx ⟨j, hj, hp⟩⟩

theorem hasSubsequence_iff (needle hay : List α) :
    hasSubsequence needle hay = true ↔ ∃ i, OccursAt needle hay i := by
  unfold hasSubsequence
  rw [bne_iff_ne]
  constructor
  · intro h
    cases hf : findSubsequence needle hay with
    | none => exact absurd hf h
    | some i => exact ⟨i, ((findSubsequence_some _ _ _).mp hf).1⟩
  · intro h hn
    obtain ⟨i, h1, h2⟩ := exists_least h
    have := (findSubsequence_some needle hay i).mpr ⟨h1, h2⟩
    rw [hn] at this; cases this

theorem occurs_infix (n h : List α) : (∃ i, OccursAt n h i) ↔ n <:+: h := by
  constructor
  · rintro ⟨i, b, a, h1, _⟩; exact ⟨b, a, h1.symm⟩
  · rintro ⟨b, a, h1⟩; exact ⟨_, b, a, h1.symm, rfl⟩

/-! duplicates -/

/-- Recursive description of keeping first occurrences. -/
def firstOcc : List α → List α
  | [] => []
  | x :: xs => x :: (firstOcc xs).filter (fun y => decide (y ≠ x))

theorem mem_firstOcc (ts : List α) (t : α) : t ∈ firstOcc ts ↔ t ∈ ts := by
  induction ts with
  | nil => simp [firstOcc]
  | cons x xs ih =>
    simp only [firstOcc, List.mem_cons, List.mem_filter, ih, decide_eq_true_eq]
    by_cases h : t = x <;> simp [h]

theorem removeDuplicates_eq (ts out : List α) :
    removeDuplicates ts out = out ++ (firstOcc ts).filter (fun y => decide (y ∉ out)) := by
  induction ts generalizing out with
  | nil => simp [removeDuplicates, firstOcc]
  | cons x xs ih =>
    unfold removeDuplicates
    by_cases h : x ∈ out
    · have hc : containsV x out = true := (containsV_iff _ _).mpr h
      rw [if_pos hc, ih]
      simp only [firstOcc, List.filter_cons, decide_not, h,
        decide_true, Bool.not_true, Bool.false_eq_true, if_false, List.filter_filter]
      congr 1
      apply List.filter_congr
      intro y _
      by_cases hy : y ∈ out
      · simp [hy]
      · have : y ≠ x := fun e => hy (e ▸ h)
        simp [hy, this]
    · have hc : ¬ containsV x out = true := fun hh => h ((containsV_iff _ _).mp hh)
      rw [if_neg hc, ih]
      simp only [firstOcc, List.filter_cons, decide_not, h,
        decide_false, Bool.not_false, if_true, List.filter_filter, List.append_assoc,
        List.singleton_append]
      congr 2
      apply List.filter_congr
      intro y _
      by_cases hy : y ∈ out <;> by_cases hyx : y = x <;> simp_all

theorem firstOcc_nodup (ts : List α) : (firstOcc ts).Nodup := by
  induction ts with
  | nil => simp [firstOcc]
  | cons x xs ih =>
    simp only [firstOcc, List.nodup_cons]
    exact ⟨by simp, ih.filter _⟩

theorem firstAt_cons {x b : α} {xs : List α} {l : Nat} (h : FirstAt b xs l) (hne : b ≠ x) :
    FirstAt b (x :: xs) (l + 1) := by
  refine ⟨by simpa using h.1, ?_⟩
  intro j hj
  cases j with
  | zero => simp; exact fun e => hne e.symm
  | succ j => simpa using h.2 j (by omega)

theorem exists_firstAt {b : α} {xs : List α} (h : b ∈ xs) : ∃ l, FirstAt b xs l := by
  induction xs with
  | nil => simp at h
  | cons x xs ih =>
    by_cases hx : b = x
    · exact ⟨0, by simp [hx], by omega⟩
    · obtain ⟨l, hl⟩ := ih (by simpa [hx] using h)
      exact ⟨l+1, firstAt_cons hl hx⟩

theorem firstOcc_pairwise (ts : List α) :
    (firstOcc ts).Pairwise (fun a b => ∃ k l, FirstAt a ts k ∧ FirstAt b ts l ∧ k < l) := by
  induction ts with
  | nil => simp [firstOcc]
  | cons x xs ih =>
    simp only [firstOcc, List.pairwise_cons]
    constructor
    · intro b hb
      simp only [List.mem_filter, decide_eq_true_eq, mem_firstOcc] at hb
      obtain ⟨l, hl⟩ := exists_firstAt hb.1
      exact ⟨0, l+1, ⟨by simp, by omega⟩, firstAt_cons hl hb.2, by omega⟩
    · rw [List.pairwise_filter]
      refine ih.imp ?_
      rintro a b ⟨k, l, h1, h2, h3⟩ ha hb
      simp only [decide_eq_true_eq] at ha hb
      exact ⟨k+1, l+1, firstAt_cons h1 ha, firstAt_cons h2 hb, by omega⟩

theorem removeDuplicates_spec (ts : List α) : FirstOccurrences ts (removeDuplicates ts []) := by
  have : removeDuplicates ts [] = firstOcc ts := by
    rw [removeDuplicates_eq]; simp
  rw [this]
  exact ⟨firstOcc_nodup ts, mem_firstOcc ts, firstOcc_pairwise ts⟩

/-! plugins -/

section
variable {isVoid : α → Bool} {base : α → α → Bool}

theorem pairwise_sym_mem {l : List α} {a b : α}
    (h : l.Pairwise (fun a b => base a b = false ∧ base b a = false)) (ha : a ∈ l) (hb : b ∈ l)
    (hne : a ≠ b) : base a b = false := by
  induction l with
  | nil => simp at ha
  | cons x xs ih =>
    rw [List.pairwise_cons] at h
    rcases List.mem_cons.mp ha with rfl | ha'
    · rcases List.mem_cons.mp hb with rfl | hb'
      · exact absurd rfl hne
      · exact (h.1 _ hb').1
    · rcases List.mem_cons.mp hb with rfl | hb'
      · exact (h.1 _ ha').2
      · exact ih h.2 ha' hb'

theorem inherit_mem (ts res : List α) (x : α)
    (hx : x ∈ inheritWithoutDuplicates isVoid base ts res) : x ∈ res ∨ (x ∈ ts ∧ isVoid x = false) := by
  induction ts generalizing res with
  | nil => exact Or.inl hx
  | cons h tl ih =>
    unfold inheritWithoutDuplicates at hx
    split at hx
    · rcases ih _ hx with h1 | h1
      · exact Or.inl h1
      · exact Or.inr ⟨List.mem_cons_of_mem _ h1.1, h1.2⟩
    · split at hx
      · rcases ih _ hx with h1 | h1
        · exact Or.inl h1
        · exact Or.inr ⟨List.mem_cons_of_mem _ h1.1, h1.2⟩
      · rename_i hv _
        rcases ih _ hx with h1 | h1
        · rcases List.mem_append.mp h1 with h2 | h2
          · exact Or.inl h2
          · have := List.mem_singleton.mp h2; subst this
            exact Or.inr ⟨by simp, by simpa using hv⟩
        · exact Or.inr ⟨List.mem_cons_of_mem _ h1.1, h1.2⟩

theorem inherit_res (ts res : List α) (x : α) (hx : x ∈ res) :
    x ∈ inheritWithoutDuplicates isVoid base ts res := by
  induction ts generalizing res with
  | nil => exact hx
  | cons h tl ih =>
    unfold inheritWithoutDuplicates
    split
    · exact ih _ hx
    · split
      · exact ih _ hx
      · exact ih _ (List.mem_append_left _ hx)

/-- The accumulated results never contain a class that a later entry of `ts` derives from. -/
theorem inherit_pairwise (_H : IsHierarchy base) (ts res : List α)
    (hp : res.Pairwise (fun a b => base a b = false ∧ base b a = false))
    (hlater : ∀ r ∈ res, ∀ t ∈ ts, base r t = false) :
    (inheritWithoutDuplicates isVoid base ts res).Pairwise
      (fun a b => base a b = false ∧ base b a = false) := by
  induction ts generalizing res with
  | nil => exact hp
  | cons h tl ih =>
    unfold inheritWithoutDuplicates
    split
    · exact ih _ hp (fun r hr t ht => hlater r hr t (List.mem_cons_of_mem _ ht))
    · split
      · exact ih _ hp (fun r hr t ht => hlater r hr t (List.mem_cons_of_mem _ ht))
      · rename_i hb
        simp only [Bool.or_eq_true, List.any_eq_true, not_or, not_exists, not_and,
          Bool.not_eq_true] at hb
        apply ih
        · rw [List.pairwise_append]
          refine ⟨hp, by simp, ?_⟩
          intro a ha b hb'
          have := List.mem_singleton.mp hb'; subst this
          exact ⟨hlater a ha b (by simp), hb.1 a ha⟩
        · intro r hr t ht
          rcases List.mem_append.mp hr with h2 | h2
          · exact hlater r h2 t (List.mem_cons_of_mem _ ht)
          · have := List.mem_singleton.mp h2; subst this
            exact hb.2 t ht

theorem inherit_cover (H : IsHierarchy base) (hvoid : ∀ a b, isVoid b = true → base a b = true → isVoid a = true)
    (ts res : List α) (x : α) (hx : x ∈ ts) (hv : isVoid x = false) :
    ∃ y ∈ inheritWithoutDuplicates isVoid base ts res, base x y = true := by
  induction ts generalizing res x with
  | nil => simp at hx
  | cons h tl ih =>
    unfold inheritWithoutDuplicates
    rcases List.mem_cons.mp hx with rfl | hx
    · rw [if_neg (by simp [hv])]
      split
      · rename_i hb
        simp only [Bool.or_eq_true, List.any_eq_true] at hb
        rcases hb with ⟨r, hr, hbr⟩ | ⟨t, ht, hbt⟩
        · exact ⟨r, inherit_res _ _ _ hr, hbr⟩
        · have hvt : isVoid t = false := by
            cases hvt : isVoid t with
            | false => rfl
            | true => have := hvoid _ _ hvt hbt; rw [this] at hv; cases hv
          obtain ⟨y, hy, hby⟩ := ih res t ht hvt
          exact ⟨y, hy, H.trans _ _ _ hbt hby⟩
      · exact ⟨x, inherit_res _ _ _ (by simp), H.refl _⟩
    · split
      · exact ih _ _ hx hv
      · split
        · exact ih _ _ hx hv
        · exact ih _ _ hx hv

end

/-! flattening -/
omit [DecidableEq α]

theorem leaves_append (xs ys : List (Item α)) : leaves (xs ++ ys) = leaves xs ++ leaves ys := by
  induction xs with
  | nil => simp [leaves]
  | cons x xs ih => simp [leaves, ih]

theorem leaves_asList (x : Item α) : leaves x.asList = leaves1 x := by
  cases x <;> simp [Item.asList, leaves, leaves1]

theorem leaves_oneLayer (ts : List (Item α)) : leaves (flattenOneLayer ts) = leaves ts := by
  induction ts with
  | nil => rfl
  | cons t ts ih =>
    have : flattenOneLayer (t :: ts) = t.asList ++ flattenOneLayer ts := rfl
    rw [this, leaves_append, ih, leaves_asList]; simp [leaves]

theorem simple_of_noList (ts : List (Item α)) (h : containsSecondLayerList ts = false) :
    simpleTypes ts = some (leaves ts) := by
  induction ts with
  | nil => rfl
  | cons t ts ih =>
    cases t with
    | leaf a =>
      simp only [containsSecondLayerList, List.any_cons, Item.isList, Bool.false_or] at h ih
      simp [simpleTypes, leaves, leaves1, ih h]
    | list xs => simp [containsSecondLayerList, Item.isList] at h

theorem flatten_simple (ts : List (Item α)) : simpleTypes (flattenTypes ts) = some (leaves ts) := by
  fun_induction flattenTypes ts with
  | case1 ts h ih => rw [ih, leaves_oneLayer]
  | case2 ts h => exact simple_of_noList ts (by simpa using h)

theorem leaves_map_leaf (l : List α) : leaves (l.map Item.leaf) = l := by
  induction l with
  | nil => rfl
  | cons a l ih => simp [leaves, leaves1, ih]

theorem flatten_noList (ts : List (Item α)) : containsSecondLayerList (flattenTypes ts) = false := by
  fun_induction flattenTypes ts with
  | case1 ts h ih => exact ih
  | case2 ts h => simpa using h

theorem noList_eq_map (ts : List (Item α)) (h : containsSecondLayerList ts = false) :
    ts = (leaves ts).map Item.leaf := by
  induction ts with
  | nil => rfl
  | cons t ts ih =>
    cases t with
    | leaf a =>
      simp only [containsSecondLayerList, List.any_cons, Item.isList, Bool.false_or] at h ih
      simpa [leaves, leaves1] using ih h
    | list xs => simp [containsSecondLayerList, Item.isList] at h

theorem flatten_eq (ts : List (Item α)) : flattenTypes ts = (leaves ts).map Item.leaf := by
  have h := noList_eq_map _ (flatten_noList ts)
  have h2 := flatten_simple ts
  rw [simple_of_noList _ (flatten_noList ts)] at h2
  injection h2 with h2
  rw [h2] at h; exact h

theorem filterTypes_aux (p : α → Bool) (ts acc : List α) :
    ts.foldl (fun acc t => acc ++ (if p t then [t] else [])) acc = acc ++ ts.filter p := by
  induction ts generalizing acc with
  | nil => simp
  | cons t ts ih =>
    simp only [List.foldl_cons, ih, List.filter_cons]
    split <;> simp_all

end AnyAny.TypeList
