import Verif.Model.VisitInvoke
/-
Lemmas on the overload table of `visit_invoke`.
-/
namespace AnyAny.Visit

variable {D : Type} [DecidableEq D]

/-- `lt` is a strict total order. -/
structure StrictTotal {K : Type} (lt : K → K → Bool) : Prop where
  irrefl : ∀ a, lt a a = false
  trans : ∀ a b c, lt a b = true → lt b c = true → lt a c = true
  total : ∀ a b, lt a b = false → lt b a = false → a = b

theorem StrictTotal.asymm {K : Type} {lt : K → K → Bool} (h : StrictTotal lt) {a b : K} (hab : lt a b = true) : lt b a = false := by
  cases hb : lt b a with
  | false => rfl
  | true => have := h.trans a b a hab hb; rw [h.irrefl] at this; cases this

/-- The sort function sorts: the result is a permutation without inversions. -/
structure Sorts {V : Type} (lt : D → D → Bool) (sort : List (List D × V) → List (List D × V)) : Prop where
  perm : ∀ l, (sort l).Perm l
  sorted : ∀ l, (sort l).Pairwise fun a b => keyLt lt b.1 a.1 = false

variable {lt : D → D → Bool} (O : StrictTotal lt)
include O

theorem keyLt_irrefl (a : List D) : keyLt lt a a = false := by
  induction a with
  | nil => rfl
  | cons x a ih => simp [keyLt, O.irrefl, ih]

theorem keyLt_cons (x y : D) (a b : List D) : keyLt lt (x :: a) (y :: b) = true ↔ lt x y = true ∨ (x = y ∧ keyLt lt a b = true) := by
  have hu : keyLt lt (x :: a) (y :: b) = if lt x y then true else if lt y x then false else keyLt lt a b := rfl
  rw [hu]
  by_cases h1 : lt x y = true
  · simp [h1]
  · have h1' : lt x y = false := by simpa using h1
    by_cases h2 : lt y x = true
    · constructor
      · intro h; simp [h1, h2] at h
      · rintro (h | ⟨rfl, _⟩)
        · exact absurd h h1
        · exact absurd h2 h1
    · have : x = y := O.total _ _ h1' (by simpa using h2)
      simp [this, O.irrefl]

theorem keyLt_trans {a b c : List D} (h1 : keyLt lt a b = true) (h2 : keyLt lt b c = true) : keyLt lt a c = true := by
  induction a generalizing b c with
  | nil =>
    cases b with
    | nil => cases h1
    | cons y b => cases c with
      | nil => cases h2
      | cons z c => rfl
  | cons x a ih =>
    cases b with
    | nil => cases h1
    | cons y b =>
      cases c with
      | nil => cases h2
      | cons z c =>
        rw [keyLt_cons O] at h1 h2 ⊢
        rcases h1 with h1 | ⟨rfl, h1⟩
        · rcases h2 with h2 | ⟨rfl, h2⟩
          · exact Or.inl (O.trans _ _ _ h1 h2)
          · exact Or.inl h1
        · rcases h2 with h2 | ⟨rfl, h2⟩
          · exact Or.inl h2
          · exact Or.inr ⟨rfl, ih h1 h2⟩

theorem keyLt_total {a b : List D} (h1 : keyLt lt a b = false) (h2 : keyLt lt b a = false) : a = b := by
  induction a generalizing b with
  | nil =>
    cases b with
    | nil => rfl
    | cons y b => cases h1
  | cons x a ih =>
    cases b with
    | nil => cases h2
    | cons y b =>
      have n1 := mt (keyLt_cons O x y a b).2 (by simp [h1])
      have n2 := mt (keyLt_cons O y x b a).2 (by simp [h2])
      simp only [not_or, not_and] at n1 n2
      have : x = y := O.total _ _ (by simpa using n1.1) (by simpa using n2.1)
      subst this
      rw [ih (by simpa using n1.2 rfl) (by simpa using n2.2 rfl)]

theorem keyLt_strict : StrictTotal (keyLt lt) :=
  ⟨keyLt_irrefl O, fun _ _ _ => keyLt_trans O, fun _ _ => keyLt_total O⟩

omit O in
/-- `std::lower_bound` finds the boundary of a predicate that is true on an initial segment. -/
theorem lowerBound_spec (below : Nat → Bool) (n : Nat) (mono : ∀ i j, i ≤ j → j < n → below j = true → below i = true) :
    ∀ (fuel first len : Nat), len ≤ fuel → first + len ≤ n → (∀ i, i < first → below i = true) →
      (∀ i, first + len ≤ i → i < n → below i = false) →
      lowerBound below fuel first len ≤ n ∧ (∀ i, i < lowerBound below fuel first len → below i = true) ∧
      ∀ i, lowerBound below fuel first len ≤ i → i < n → below i = false := by
  intro fuel
  induction fuel with
  | zero =>
    intro first len h1 h2 h3 h4
    have : len = 0 := by omega
    subst this
    exact ⟨by simpa [lowerBound] using h2, h3, h4⟩
  | succ fuel ih =>
    intro first len h1 h2 h3 h4
    unfold lowerBound
    by_cases hl : len = 0
    · subst hl; simp only [if_true]; exact ⟨h2, h3, h4⟩
    · simp only [if_neg hl]
      have hh : len / 2 < len := Nat.div_lt_self (by omega) (by omega)
      split
      · rename_i hb
        refine ih _ _ (by omega) (by omega) ?_ ?_
        · intro i hi
          exact mono i (first + len / 2) (by omega) (by omega) hb
        · intro i hi hn
          exact h4 i (by omega) hn
      · rename_i hb
        refine ih _ _ (by omega) (by omega) h3 ?_
        intro i hi hn
        cases hbi : below i with
        | false => rfl
        | true => exact absurd (mono _ _ hi hn hbi) hb

/-- Lookup in a strictly sorted table. -/
theorem find_sorted {V : Type} {tbl : List (List D × V)} (hs : tbl.Pairwise fun a b => keyLt lt a.1 b.1 = true) (key : List D) (v : V) :
    find lt tbl key = some v ↔ (key, v) ∈ tbl := by
  have K := keyLt_strict O
  have hget := List.pairwise_iff_getElem.1 hs
  have below_eq : ∀ i (h : i < tbl.length),
      (match tbl[i]? with | some e => keyLt lt e.1 key | none => false) = keyLt lt tbl[i].1 key := by
    intro i h; rw [List.getElem?_eq_getElem h]
  have hspec := lowerBound_spec (fun i => match tbl[i]? with | some e => keyLt lt e.1 key | none => false) tbl.length ?_
    tbl.length 0 tbl.length (Nat.le_refl _) (by omega) (fun i h => by omega) (fun i h1 h2 => by omega)
  · obtain ⟨h1, h2, h3⟩ := hspec
    unfold find
    simp only []
    revert h1 h2 h3
    generalize lowerBound _ tbl.length 0 tbl.length = it
    intro h1 h2 h3
    by_cases hit : it < tbl.length
    · rw [List.getElem?_eq_getElem hit]
      simp only []
      have hb := h3 it (Nat.le_refl _) hit
      rw [below_eq it hit] at hb
      split
      · rename_i hlt
        constructor
        · intro h; cases h
        · intro hmem
          obtain ⟨j, hj, hej⟩ := List.getElem_of_mem hmem
          by_cases hji : j < it
          · have := h2 j hji
            rw [below_eq j hj, hej, K.irrefl] at this; cases this
          · rcases Nat.lt_or_eq_of_le (Nat.le_of_not_lt hji) with hlt' | rfl
            · have h5 := hget it j hit hj hlt'
              rw [hej] at h5
              have := K.asymm h5
              rw [hlt] at this; cases this
            · rw [hej, K.irrefl] at hlt; cases hlt
      · rename_i hlt
        have hk : tbl[it].1 = key := K.total _ _ hb (by simpa using hlt)
        constructor
        · intro h
          have hv := Option.some.inj h
          have : tbl[it] = (key, v) := Prod.ext hk hv
          rw [← this]; exact List.getElem_mem hit
        · intro hmem
          obtain ⟨j, hj, hej⟩ := List.getElem_of_mem hmem
          have : j = it := by
            rcases Nat.lt_trichotomy j it with h | h | h
            · have := hget j it hj hit h; rw [hej, hk, K.irrefl] at this; cases this
            · exact h
            · have := hget it j hit hj h; rw [hej, hk, K.irrefl] at this; cases this
          subst this
          rw [hej]
    · have hn : tbl[it]? = none := List.getElem?_eq_none (by omega)
      rw [hn]
      constructor
      · intro h; cases h
      · intro hmem
        obtain ⟨j, hj, hej⟩ := List.getElem_of_mem hmem
        have := h2 j (by omega)
        rw [below_eq j hj, hej, K.irrefl] at this; cases this
  · intro i j hij hj hb
    rw [below_eq j hj] at hb
    rw [below_eq i (by omega)]
    rcases Nat.lt_or_eq_of_le hij with h | rfl
    · exact K.trans _ _ _ (hget i j (by omega) hj h) hb
    · exact hb

omit O in
theorem pairwise_and {α : Type} {R S : α → α → Prop} {l : List α} (h1 : l.Pairwise R) (h2 : l.Pairwise S) :
    l.Pairwise fun a b => R a b ∧ S a b := by
  induction l with
  | nil => exact List.Pairwise.nil
  | cons x l ih =>
    rw [List.pairwise_cons] at h1 h2 ⊢
    exact ⟨fun b hb => ⟨h1.1 b hb, h2.1 b hb⟩, ih h1.2 h2.2⟩

/-- With distinct keys, the sorted table is strictly sorted. -/
theorem sort_strict {V : Type} {sort : List (List D × V) → List (List D × V)} (S : Sorts lt sort) {es : List (List D × V)}
    (hn : es.Pairwise fun a b => a.1 ≠ b.1) : (sort es).Pairwise fun a b => keyLt lt a.1 b.1 = true := by
  have hp : (sort es).Pairwise fun a b => a.1 ≠ b.1 :=
    (S.perm es).symm.pairwise hn (fun h => fun h' => h h'.symm)
  refine (pairwise_and (S.sorted es) hp).imp ?_
  rintro a b ⟨h1, h2⟩
  cases hlt : keyLt lt a.1 b.1 with
  | true => rfl
  | false => exact absurd ((keyLt_strict O).total _ _ hlt h1) h2

omit O in
theorem le_argsCount {fs : List (Overload D)} {f : Overload D} (h : f ∈ fs) : f.params.length ≤ argsCount fs := by
  induction fs with
  | nil => cases h
  | cons g fs ih =>
    unfold argsCount
    rcases List.mem_cons.1 h with rfl | h
    · exact Nat.le_max_left _ _
    · exact Nat.le_trans (ih h) (Nat.le_max_right _ _)

omit O in
theorem mem_pairs {void : D} {n : Nat} {fs : List (Overload D)} {k : List D} {i : Nat} :
    (k, i) ∈ pairs void n fs ↔ ∃ f, fs[i]? = some f ∧ k = padKey void n (f.params.map (·.desc)) := by
  unfold pairs
  rw [List.mem_map]
  constructor
  · rintro ⟨⟨f, j⟩, hm, he⟩
    cases he
    exact ⟨f, List.mk_mem_zipIdx_iff_getElem?.1 hm, rfl⟩
  · rintro ⟨f, hf, rfl⟩
    exact ⟨(f, i), List.mk_mem_zipIdx_iff_getElem?.2 hf, rfl⟩

omit O [DecidableEq D] in
/-- Padding with `void` loses nothing if `void` does not occur. -/
theorem padKey_inj {void : D} {n : Nat} {a b : List D} (ha : void ∉ a) (hb : void ∉ b) (h : padKey void n a = padKey void n b) : a = b := by
  unfold padKey at h
  induction a generalizing b n with
  | nil =>
    cases b with
    | nil => rfl
    | cons y b =>
      simp only [List.nil_append, List.length_nil, Nat.sub_zero] at h
      have : y ∈ List.replicate n void := by rw [h]; simp
      have := (List.mem_replicate.1 this).2
      exact absurd (by simp [this]) hb
  | cons x a ih =>
    cases b with
    | nil =>
      simp only [List.nil_append, List.length_nil, Nat.sub_zero] at h
      have : x ∈ List.replicate n void := by rw [← h]; simp
      have := (List.mem_replicate.1 this).2
      exact absurd (by simp [this]) ha
    | cons y b =>
      simp only [List.cons_append, List.cons.injEq, List.length_cons] at h
      have := ih (n := n - 1) (b := b) (fun h' => ha (by simp [h'])) (fun h' => hb (by simp [h']))
        (by have h2 := h.2; rwa [show n - (a.length + 1) = n - 1 - a.length by omega, show n - (b.length + 1) = n - 1 - b.length by omega] at h2)
      rw [h.1, this]

end AnyAny.Visit
