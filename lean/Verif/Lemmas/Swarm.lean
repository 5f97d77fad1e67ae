import Verif.Spec.SwarmHist
/-
Lemmas about swarms.
-/
namespace AnyAny.Swarm

variable {n : Nat} {V : Fin n → Type}

@[simp] theorem setS_same (s : Swarm V) (i : Fin n) (l : List (V i)) : setS s i l i = l := by simp [setS]

theorem setS_ne (s : Swarm V) (i : Fin n) (l : List (V i)) {j : Fin n} (h : j ≠ i) : setS s i l j = s j := by simp [setS, h]

theorem setS_self (s : Swarm V) (i : Fin n) : setS s i (s i) = s := by
  funext j; by_cases h : j = i
  · subst h; simp
  · rw [setS_ne _ _ _ h]

@[simp] theorem upd_same {α} (f : Nat → Option α) (k v) : upd f k v k = v := by simp [upd]

theorem upd_ne {α} (f : Nat → Option α) (k v) {j} (h : j ≠ k) : upd f k v j = f j := by simp [upd, h]

/-! ### lists of variants -/

@[simp] theorem ofType_nil (i : Fin n) : ofType i ([] : List (Val V)) = [] := rfl

theorem ofType_append (i : Fin n) (l m : List (Val V)) : ofType i (l ++ m) = ofType i l ++ ofType i m := by
  induction l with
  | nil => rfl
  | cons y ys ih => simp only [List.cons_append, ofType]; split <;> simp [ih]

@[simp] theorem ofType_one (i : Fin n) (x : V i) : ofType i [(⟨i, x⟩ : Val V)] = [x] := by simp [ofType]

theorem ofType_one_ne {i j : Fin n} (h : j ≠ i) (x : V i) : ofType j [(⟨i, x⟩ : Val V)] = [] := by
  simp [ofType, Ne.symm h]

@[simp] theorem ofType_map (i : Fin n) (xs : List (V i)) : ofType i (xs.map fun x => (⟨i, x⟩ : Val V)) = xs := by
  induction xs with
  | nil => rfl
  | cons x xs ih => simp [ofType, ih]

theorem ofType_map_ne {i j : Fin n} (h : j ≠ i) (xs : List (V i)) : ofType j (xs.map fun x => (⟨i, x⟩ : Val V)) = [] := by
  induction xs with
  | nil => rfl
  | cons x xs ih => simp [ofType, ih, Ne.symm h]

/-- The elements of a list whose number is not chosen. -/
def dropNth {α} (p : Nat → Bool) : Nat → List α → List α
  | _, [] => []
  | k, x :: xs => if p k then dropNth p (k + 1) xs else x :: dropNth p (k + 1) xs

theorem ofType_eraseNth (i : Fin n) (p : Nat → Bool) (l : List (Val V)) (k : Nat) :
    ofType i (eraseNth i p k l) = dropNth p k (ofType i l) := by
  induction l generalizing k with
  | nil => rfl
  | cons y ys ih =>
    by_cases h : y.1 = i
    · simp only [eraseNth, ofType, h, if_true, dif_pos]
      by_cases hp : p k = true
      · simp [hp, dropNth, ih]
      · simp [hp, dropNth, ofType, h, ih]
    · simp [eraseNth, ofType, h, ih]

theorem ofType_eraseNth_ne {i j : Fin n} (hj : j ≠ i) (p : Nat → Bool) (l : List (Val V)) (k : Nat) :
    ofType j (eraseNth i p k l) = ofType j l := by
  induction l generalizing k with
  | nil => rfl
  | cons y ys ih =>
    by_cases h : y.1 = i
    · have : ¬ y.1 = j := fun e => hj (e.symm.trans h)
      simp only [eraseNth, h, if_true]
      by_cases hp : p k = true
      · simp [hp, ofType, this, ih]
      · simp [hp, ofType, this, ih]
    · simp only [eraseNth, h, if_false, ofType, ih]

theorem dropNth_one {α} (k : Nat) (l : List α) (a : Nat) : dropNth (· == a + k) a l = l.eraseIdx k := by
  have none_ : ∀ (l : List α) (b c : Nat), c < b → dropNth (· == c) b l = l := by
    intro l; induction l with
    | nil => intros; rfl
    | cons x xs ih =>
      intro b c h
      have : (b == c) = false := by simp; omega
      simp [dropNth, this, ih (b + 1) c (by omega)]
  induction l generalizing k a with
  | nil => simp [dropNth]
  | cons x xs ih =>
    cases k with
    | zero => simp [dropNth, none_ xs (a + 1) a (by omega)]
    | succ k =>
      have : (a == a + (k + 1)) = false := by simp
      simp only [dropNth, this, List.eraseIdx_cons_succ]
      have := ih k (a + 1)
      rw [show a + 1 + k = a + (k + 1) by omega] at this
      simp [this]

theorem dropNth_range {α} (b e : Nat) (l : List α) (a : Nat) (h : b ≤ e) :
    dropNth (fun k => decide (a + b ≤ k ∧ k < a + e)) a l = l.take b ++ l.drop e := by
  induction l generalizing a b e with
  | nil => simp [dropNth]
  | cons x xs ih =>
    cases b with
    | zero =>
      cases e with
      | zero =>
        have := ih 0 0 (a + 1) (by omega)
        simp only [dropNth]
        rw [if_neg (by simp)]
        have e2 : (fun k => decide (a + 0 ≤ k ∧ k < a + 0)) = fun k => decide (a + 1 + 0 ≤ k ∧ k < a + 1 + 0) := by
          funext k; apply decide_eq_decide.2; omega
        rw [e2, this]; simp
      | succ e =>
        have key : ∀ (xs : List α) (c : Nat), a ≤ c → dropNth (fun k => decide (a + 0 ≤ k ∧ k < a + (e + 1))) c xs = xs.drop (a + (e + 1) - c) := by
          intro xs; induction xs with
          | nil => intros; simp [dropNth]
          | cons y ys ih2 =>
            intro c hc
            by_cases hlt : c < a + (e + 1)
            · simp only [dropNth]
              rw [if_pos (by simp; omega), ih2 (c + 1) (by omega)]
              obtain ⟨m, hm⟩ : ∃ m, a + (e + 1) - c = m + 1 := ⟨a + (e + 1) - c - 1, by omega⟩
              rw [hm, List.drop_succ_cons]; congr 1; omega
            · simp only [dropNth]
              rw [if_neg (by simp; omega), ih2 (c + 1) (by omega)]
              rw [show a + (e + 1) - c = 0 by omega, show a + (e + 1) - (c + 1) = 0 by omega]; simp
        have := key (x :: xs) a (by omega)
        rw [this]; simp
    | succ b =>
      cases e with
      | zero => omega
      | succ e =>
        have := ih b e (a + 1) (by omega)
        simp only [dropNth]
        rw [if_neg (by simp)]
        have e2 : (fun k => decide (a + (b + 1) ≤ k ∧ k < a + (e + 1))) = fun k => decide (a + 1 + b ≤ k ∧ k < a + 1 + e) := by
          funext k; apply decide_eq_decide.2; omega
        rw [e2, this]; simp

theorem ofType_sum (l : List (Val V)) : ((List.finRange n).map fun i => (ofType i l).length).foldr (· + ·) 0 = l.length := by
  have h : ∀ (is : List (Fin n)) (y : Val V) (ys : List (Val V)), is.Nodup →
      (is.map fun i => (ofType i (y :: ys)).length).foldr (· + ·) 0 =
        (is.map fun i => (ofType i ys).length).foldr (· + ·) 0 + if y.1 ∈ is then 1 else 0 := by
    intro is; induction is with
    | nil => intros; simp
    | cons i is ih =>
      intro y ys hn
      obtain ⟨h1, h2⟩ := List.nodup_cons.1 hn
      simp only [List.map_cons, List.foldr_cons]
      rw [ih y ys h2]
      by_cases h : y.1 = i
      · have : ¬ y.1 ∈ is := by rw [h]; exact h1
        simp [ofType, h, h1]; omega
      · simp [ofType, h]; split <;> omega
  induction l with
  | nil =>
    have : ∀ is : List (Fin n), (is.map fun i => (ofType i ([] : List (Val V))).length).foldr (· + ·) 0 = 0 := by
      intro is; induction is with
      | nil => rfl
      | cons i is ih => simpa using ih
    exact this _
  | cons y ys ih => rw [h _ _ _ (List.nodup_finRange n), ih]; simp

theorem grouped_perm (l : List (Val V)) : (grouped (List.finRange n) l).Perm l := by
  have h : ∀ (is : List (Fin n)) (y : Val V) (ys : List (Val V)), is.Nodup → y.1 ∈ is →
      (grouped is (y :: ys)).Perm (y :: grouped is ys) := by
    intro is; induction is with
    | nil => intro y ys _ h; simp at h
    | cons i is ih =>
      intro y ys hn hm
      obtain ⟨h1, h2⟩ := List.nodup_cons.1 hn
      simp only [grouped, List.flatMap_cons]
      by_cases h : y.1 = i
      · obtain ⟨j, x⟩ := y; cases h
        have hrest : ∀ js : List (Fin n), j ∉ js → grouped js ((⟨j, x⟩ : Val V) :: ys) = grouped js ys := by
          intro js; induction js with
          | nil => intro _; rfl
          | cons k ks ihk =>
            intro hk
            simp only [List.mem_cons, not_or] at hk
            have := ihk hk.2
            simp only [grouped, List.flatMap_cons] at this ⊢
            rw [this]; simp [ofType, hk.1]
        have := hrest is h1
        simp only [grouped] at this
        rw [this]; simp [ofType]
      · have := ih y ys h2 (by simpa [h] using hm)
        simp only [grouped] at this
        simp only [ofType, h, dif_neg, not_false_eq_true]
        exact (this.append_left _).trans List.perm_middle
  induction l with
  | nil =>
    have : ∀ is : List (Fin n), grouped is ([] : List (Val V)) = [] := by
      intro is; simp [grouped]
    rw [this]
  | cons y ys ih => exact (h _ y ys (List.nodup_finRange n) (by simp)).trans (ih.cons y)

/-! ### sequences -/

/-- The swarms contain what the lists of variants do. -/
def Rep (w : World V) (S : SWorld V) : Prop :=
  ∀ d, match w d, S d with
    | none, none => True
    | some s, some l => ∀ i, s i = ofType i l
    | _, _ => False

theorem Rep.upd {w : World V} {S : SWorld V} (h : Rep w S) (d : Nat) {a b}
    (hab : match a, b with | none, none => True | some s, some l => ∀ i, s i = ofType i l | _, _ => False) :
    Rep (upd w d a) (Swarm.upd S d b) := by
  intro e
  by_cases he : e = d
  · subst he; simpa using hab
  · rw [upd_ne _ _ _ he, upd_ne _ _ _ he]; exact h e

theorem Rep.getW {w : World V} {S : SWorld V} (h : Rep w S) {d s} (hw : w d = some s) : ∃ l, S d = some l ∧ ∀ i, s i = ofType i l := by
  have := h d; rw [hw] at this
  cases hS : S d with
  | none => rw [hS] at this; exact this.elim
  | some l => rw [hS] at this; exact ⟨l, rfl, this⟩

theorem Rep.getS {w : World V} {S : SWorld V} (h : Rep w S) {d l} (hS : S d = some l) : ∃ s, w d = some s ∧ ∀ i, s i = ofType i l := by
  have := h d; rw [hS] at this
  cases hw : w d with
  | none => rw [hw] at this; exact this.elim
  | some s => rw [hw] at this; exact ⟨s, rfl, this⟩

variable {c : (i : Fin n) → Cont (V i)} {t : Nat}

/-! ### shape of the operations -/

theorem setR_fst (s : Swarm V) (i : Fin n) (r : After (V i)) : (setR s i r).1 = setS s i r.1 := rfl

theorem setR_none {s : Swarm V} {i : Fin n} {r : After (V i)} (h : (setR s i r).2 = none) : r.2 = false := by
  cases hr : r.2 with
  | false => rfl
  | true => simp [setR, hr] at h

theorem setR_some {s : Swarm V} {i k : Fin n} {r : After (V i)} (h : (setR s i r).2 = some k) : k = i ∧ r.2 = true := by
  cases hr : r.2 with
  | false => simp [setR, hr] at h
  | true => simp only [setR, hr, if_true, Option.some.injEq] at h; exact ⟨h.symm, rfl⟩

theorem insert_setR {s : Swarm V} {i : Fin n} {x : V i} {r} (h : insert c t s i x = some r) :
    ∃ f, ((c i).pushBack = some f ∨ (c i).emplaceBack = some f ∨ (c i).insertVal = some f ∨ (c i).insertEnd = some f ∨ (c i).emplaceVal = some f) ∧
      r = setR s i (f t (s i) x) := by
  unfold insert at h
  split at h
  · cases h; rename_i f hf; exact ⟨f, .inl hf, rfl⟩
  · split at h
    · cases h; rename_i f hf; exact ⟨f, .inr (.inr (.inl hf)), rfl⟩
    · split at h
      · cases h; rename_i f hf; exact ⟨f, .inr (.inr (.inr (.inl hf))), rfl⟩
      · cases h

theorem emplace_setR {s : Swarm V} {i : Fin n} {x : V i} {r} (h : emplace c t s i x = some r) :
    ∃ f, ((c i).pushBack = some f ∨ (c i).emplaceBack = some f ∨ (c i).insertVal = some f ∨ (c i).insertEnd = some f ∨ (c i).emplaceVal = some f) ∧
      r = setR s i (f t (s i) x) := by
  unfold emplace at h
  split at h
  · cases h; rename_i f hf; exact ⟨f, .inr (.inl hf), rfl⟩
  · split at h
    · cases h; rename_i f hf; exact ⟨f, .inr (.inr (.inr (.inr hf))), rfl⟩
    · cases h

theorem insertInit_setR {s : Swarm V} {i : Fin n} {xs : List (V i)} {r} (h : insertInit c t s i xs = some r) :
    ∃ f, ((c i).insertList = some f ∨ (c i).insertListEnd = some f) ∧ r = setR s i (f t (s i) xs) := by
  unfold insertInit at h
  split at h
  · cases h; rename_i f hf; exact ⟨f, .inl hf, rfl⟩
  · split at h
    · cases h; rename_i f hf; exact ⟨f, .inr hf, rfl⟩
    · cases h

theorem erase_setR (s : Swarm V) (i : Fin n) (k : Nat) :
    ∃ a, erase c t s i k = setR s i a ∧ (a.2 = false → a.1 = (s i).eraseIdx k) := by
  unfold erase
  split
  · exact ⟨_, rfl, fun _ => rfl⟩
  · exact ⟨_, rfl, fun h => by cases h⟩

theorem eraseRange_setR (s : Swarm V) (i : Fin n) (b e : Nat) :
    ∃ a, eraseRange c t s i b e = setR s i a ∧ (a.2 = false → a.1 = (s i).take b ++ (s i).drop e) := by
  unfold eraseRange
  split
  · exact ⟨_, rfl, fun _ => rfl⟩
  · exact ⟨_, rfl, fun h => by cases h⟩

/-- An operation on the values of one type. -/
theorem exec_concerns {op : Op V} {d i} (ho : op.concerns = some (d, i)) {w w' : World V} {r} (he : exec c t w op = some (w', r)) :
    ∃ s a, w d = some s ∧ w' = upd w d (some (setR s i a).1) ∧ r = (setR s i a).2 := by
  cases op with
  | insert d' i' x =>
    cases ho
    cases hw : w d with
    | none => simp [exec, hw] at he
    | some s =>
      cases hi : insert c t s i x with
      | none => simp [exec, hw, hi] at he
      | some q =>
        obtain ⟨f, _, rfl⟩ := insert_setR hi
        simp [exec, hw, hi, store] at he
        exact ⟨s, _, rfl, he.1.symm, he.2.symm⟩
  | insertVariant d' x =>
    obtain ⟨i', x⟩ := x
    cases ho
    cases hw : w d with
    | none => simp [exec, hw] at he
    | some s =>
      cases hi : insert c t s i x with
      | none => simp [exec, hw, inserterVisit, hi] at he
      | some q =>
        obtain ⟨f, _, rfl⟩ := insert_setR hi
        simp [exec, hw, inserterVisit, hi, store] at he
        exact ⟨s, _, rfl, he.1.symm, he.2.symm⟩
  | emplace d' i' x =>
    cases ho
    cases hw : w d with
    | none => simp [exec, hw] at he
    | some s =>
      cases hi : emplace c t s i x with
      | none => simp [exec, hw, hi] at he
      | some q =>
        obtain ⟨f, _, rfl⟩ := emplace_setR hi
        simp [exec, hw, hi, store] at he
        exact ⟨s, _, rfl, he.1.symm, he.2.symm⟩
  | insertInit d' i' xs =>
    cases ho
    cases hw : w d with
    | none => simp [exec, hw] at he
    | some s =>
      cases hi : insertInit c t s i xs with
      | none => simp [exec, hw, hi] at he
      | some q =>
        obtain ⟨f, _, rfl⟩ := insertInit_setR hi
        simp [exec, hw, hi, store] at he
        exact ⟨s, _, rfl, he.1.symm, he.2.symm⟩
  | erase d' i' k =>
    cases ho
    cases hw : w d with
    | none => simp [exec, hw] at he
    | some s =>
      obtain ⟨a, ha, _⟩ := erase_setR (c := c) (t := t) s i k
      simp [exec, hw, ha, store] at he
      exact ⟨s, a, rfl, he.1.symm, he.2.symm⟩
  | eraseRange d' i' b e =>
    cases ho
    cases hw : w d with
    | none => simp [exec, hw] at he
    | some s =>
      obtain ⟨a, ha, _⟩ := eraseRange_setR (c := c) (t := t) s i b e
      simp [exec, hw, ha, store] at he
      exact ⟨s, a, rfl, he.1.symm, he.2.symm⟩
  | _ => cases ho

theorem pairwise_finRange (n : Nat) : (List.finRange n).Pairwise (· < ·) := by
  rw [List.pairwise_iff_getElem]
  intro i j hi hj h
  simpa [Fin.lt_def] using h

theorem assignFrom_none {d s x : Swarm V} {is : List (Fin n)} (h : assignFrom c t d s is = (x, none)) :
    ∀ j, x j = if j ∈ is then s j else d j := by
  induction is generalizing d with
  | nil => cases h; intro j; simp
  | cons i is ih =>
    simp only [assignFrom] at h
    split at h
    · cases h
    · intro j
      rw [ih h j]
      by_cases hj : j = i
      · subst hj; simp
      · simp [hj, setS_ne _ _ _ hj]

theorem assignFrom_some {d s x : Swarm V} {is : List (Fin n)} {i : Fin n} (hp : is.Pairwise (· < ·)) (h : assignFrom c t d s is = (x, some i)) :
    i ∈ is ∧ ∀ j, (j ∈ is → j < i → x j = s j) ∧ ((j ∉ is ∨ i < j) → x j = d j) := by
  induction is generalizing d with
  | nil => cases h
  | cons k is ih =>
    simp only [assignFrom] at h
    obtain ⟨h1, h2⟩ := List.pairwise_cons.1 hp
    split at h
    · cases h
      refine ⟨List.mem_cons_self, fun j => ⟨fun hj hlt => ?_, fun hj => ?_⟩⟩
      · rcases List.mem_cons.1 hj with rfl | hj
        · exact absurd hlt (Fin.lt_irrefl _)
        · exact absurd (Fin.lt_trans hlt (h1 j hj)) (Fin.lt_irrefl _)
      · have : j ≠ i := by
          rintro rfl
          rcases hj with hj | hj
          · exact hj List.mem_cons_self
          · exact Fin.lt_irrefl _ hj
        exact setS_ne _ _ _ this
    · obtain ⟨hm, hr⟩ := ih h2 h
      have hki := h1 i hm
      refine ⟨List.mem_cons_of_mem _ hm, fun j => ⟨fun hj hlt => ?_, fun hj => ?_⟩⟩
      · rcases List.mem_cons.1 hj with rfl | hj
        · have : j ∉ is := fun hj => Fin.lt_irrefl _ (h1 j hj)
          rw [(hr j).2 (.inl this)]; simp
        · exact (hr j).1 hj hlt
      · have hne : j ≠ k := by
          rintro rfl
          rcases hj with hj | hj
          · exact hj List.mem_cons_self
          · exact Fin.lt_irrefl _ (Fin.lt_trans hj hki)
        have : j ∉ is ∨ i < j := hj.imp (fun hj hm => hj (List.mem_cons_of_mem _ hm)) id
        rw [(hr j).2 this, setS_ne _ _ _ hne]

theorem copyAssign_none {d s x : Swarm V} (h : copyAssign c t d s = (x, none)) : x = s := by
  funext j; simpa using assignFrom_none h j

theorem copyAssign_some {d s x : Swarm V} {i : Fin n} (h : copyAssign c t d s = (x, some i)) :
    (∀ j, j < i → x j = s j) ∧ ∀ j, i < j → x j = d j := by
  have := (assignFrom_some (pairwise_finRange n) h).2
  exact ⟨fun j => (this j).1 (List.mem_finRange j), fun j hj => (this j).2 (.inr hj)⟩

theorem copyCtor_ok {s x : Swarm V} (h : copyCtor c t s = .ok x) : x = s := by
  unfold copyCtor at h; split at h <;> cases h; rfl

/-- An operation that throws. -/
theorem exec_throws {op : Op V} {w w' : World V} {i : Fin n} (he : exec c t w op = some (w', some i)) :
    (∃ d s, op = .copy d s ∧ w' = w) ∨
    (∃ d s x y x', op = .copyAssign d s ∧ w d = some x ∧ w s = some y ∧ w' = upd w d (some x') ∧
      (∀ j, j < i → x' j = y j) ∧ ∀ j, i < j → x' j = x j) ∨
    ∃ d s s', op.concerns = some (d, i) ∧ w d = some s ∧ w' = upd w d (some s') ∧ ∀ j, j ≠ i → s' j = s j := by
  have one : ∀ {d k}, op.concerns = some (d, k) →
      ∃ d s s', op.concerns = some (d, i) ∧ w d = some s ∧ w' = upd w d (some s') ∧ ∀ j, j ≠ i → s' j = s j := by
    intro d k ho
    obtain ⟨s, a, hw, h1, h2⟩ := exec_concerns ho he
    obtain ⟨rfl, _⟩ := setR_some h2.symm
    exact ⟨d, s, _, ho, hw, h1, fun j hj => setS_ne _ _ _ hj⟩
  cases op with
  | make d => simp [exec] at he
  | destroy d => simp [exec] at he
  | move d s => cases hw : w s <;> simp [exec, hw] at he
  | swap d e => cases hw : w d <;> cases hv : w e <;> simp [exec, hw, hv] at he
  | copy d s =>
    refine .inl ⟨d, s, rfl, ?_⟩
    cases hw : w s with
    | none => simp [exec, hw] at he
    | some x => cases hc : copyCtor c t x <;> simp [exec, hw, hc] at he; exact he.1.symm
  | copyAssign d s =>
    refine .inr (.inl ?_)
    cases hw : w d with
    | none => simp [exec, hw] at he
    | some x =>
      cases hv : w s with
      | none => simp [exec, hw, hv] at he
      | some y =>
        cases hc : copyAssign c t x y with
        | mk x' r =>
          simp only [exec, hw, hv, hc, store, Option.bind_eq_bind, Option.bind_some, Option.some.injEq, Prod.mk.injEq] at he
          obtain ⟨h1, rfl⟩ := he
          exact ⟨d, s, x, y, x', rfl, hw, hv, h1.symm, copyAssign_some hc⟩
  | insertVariant d x => obtain ⟨k, x⟩ := x; exact .inr (.inr (one rfl))
  | insert | insertInit | emplace | erase | eraseRange => exact .inr (.inr (one rfl))

/-! ### sequences -/

theorem insert_seq (hc : ∀ i, Seq (c i)) (s : Swarm V) (i : Fin n) (x : V i) :
    ∃ a, insert c t s i x = some (setR s i a) ∧ (a.2 = false → a.1 = s i ++ [x]) := by
  unfold insert
  cases h : (c i).pushBack with
  | some f => exact ⟨_, rfl, (hc i).pushBack f h t _ _⟩
  | none =>
    simp only [(hc i).insertVal]
    cases h2 : (c i).insertEnd with
    | some f => exact ⟨_, rfl, (hc i).insertEnd f h2 t _ _⟩
    | none => exact absurd (hc i).adds (by simp [h, h2])

theorem insertInit_seq (hc : ∀ i, Seq (c i)) (s : Swarm V) (i : Fin n) (xs : List (V i)) :
    ∃ a, insertInit c t s i xs = some (setR s i a) ∧ (a.2 = false → a.1 = s i ++ xs) := by
  unfold insertInit
  simp only [(hc i).insertList]
  cases h : (c i).insertListEnd with
  | some f => exact ⟨_, rfl, (hc i).insertListEnd f h t _ _⟩
  | none => exact absurd h (hc i).addsList

theorem emplace_seq (hc : ∀ i, Seq (c i)) (s : Swarm V) (i : Fin n) (x : V i) :
    ∃ a, emplace c t s i x = some (setR s i a) ∧ (a.2 = false → a.1 = s i ++ [x]) := by
  unfold emplace
  cases h : (c i).emplaceBack with
  | some f => exact ⟨_, rfl, (hc i).emplaceBack f h t _ _⟩
  | none => exact absurd h (hc i).emplaces

theorem rep_add {s : Swarm V} {l : List (Val V)} (h : ∀ i, s i = ofType i l) (i : Fin n) (xs : List (V i)) :
    ∀ j, setS s i (s i ++ xs) j = ofType j (l ++ xs.map fun x => ⟨i, x⟩) := by
  intro j
  rw [ofType_append]
  by_cases hj : j = i
  · subst hj; simp [h j]
  · rw [setS_ne _ _ _ hj, ofType_map_ne hj, List.append_nil, h j]

/-- Operations exist. -/
theorem exec_some (hc : ∀ i, Seq (c i)) {w : World V} {S : SWorld V} (h : Rep w S) {op} (L : Legal S op) : ∃ r, exec c t w op = some r := by
  have get : ∀ {d}, (S d).isSome → ∃ s, w d = some s := by
    intro d hd
    obtain ⟨l, hl⟩ := Option.isSome_iff_exists.1 hd
    obtain ⟨s, hs, _⟩ := h.getS hl
    exact ⟨s, hs⟩
  cases op with
  | make d => exact ⟨_, rfl⟩
  | destroy d => exact ⟨_, rfl⟩
  | copy d s =>
    obtain ⟨x, hx⟩ := get L.2
    cases hk : copyCtor c t x with
    | error i => exact ⟨(w, some i), by simp [exec, hx, hk]⟩
    | ok y => exact ⟨(_, none), by simp only [exec, hx, hk, Option.bind_eq_bind, Option.bind_some]; rfl⟩
  | copyAssign d s =>
    obtain ⟨x, hx⟩ := get L.1
    obtain ⟨y, hy⟩ := get L.2
    exact ⟨_, by simp only [exec, hx, hy, Option.bind_eq_bind, Option.bind_some]; rfl⟩
  | move d s => obtain ⟨x, hx⟩ := get L; exact ⟨_, by simp only [exec, hx, Option.bind_eq_bind, Option.bind_some]; rfl⟩
  | insert d i x =>
    obtain ⟨s, hs⟩ := get L
    obtain ⟨a, ha, _⟩ := insert_seq (t := t) hc s i x
    exact ⟨_, by simp only [exec, hs, ha, Option.bind_eq_bind, Option.bind_some]; rfl⟩
  | insertVariant d x =>
    obtain ⟨s, hs⟩ := get L
    obtain ⟨a, ha, _⟩ := insert_seq (t := t) hc s x.1 x.2
    exact ⟨_, by simp only [exec, hs, inserterVisit, ha, Option.bind_eq_bind, Option.bind_some]; rfl⟩
  | emplace d i x =>
    obtain ⟨s, hs⟩ := get L
    obtain ⟨a, ha, _⟩ := emplace_seq (t := t) hc s i x
    exact ⟨_, by simp only [exec, hs, ha, Option.bind_eq_bind, Option.bind_some]; rfl⟩
  | insertInit d i xs =>
    obtain ⟨s, hs⟩ := get L
    obtain ⟨a, ha, _⟩ := insertInit_seq (t := t) hc s i xs
    exact ⟨_, by simp only [exec, hs, ha, Option.bind_eq_bind, Option.bind_some]; rfl⟩
  | erase d i k =>
    obtain ⟨l, hl, _⟩ := L
    obtain ⟨s, hs, _⟩ := h.getS hl
    exact ⟨_, by simp only [exec, hs, Option.bind_eq_bind, Option.bind_some]; rfl⟩
  | eraseRange d i b e =>
    obtain ⟨l, hl, _⟩ := L
    obtain ⟨s, hs, _⟩ := h.getS hl
    exact ⟨_, by simp only [exec, hs, Option.bind_eq_bind, Option.bind_some]; rfl⟩
  | swap d e =>
    obtain ⟨x, hx⟩ := get L.1
    obtain ⟨y, hy⟩ := get L.2
    exact ⟨_, by simp only [exec, hx, hy, Option.bind_eq_bind, Option.bind_some]; rfl⟩

theorem exec_rep (hc : ∀ i, Seq (c i)) {w w' : World V} {S : SWorld V} (h : Rep w S) {op} (L : Legal S op)
    (he : exec c t w op = some (w', none)) : Rep w' (specStep S op) := by
  have addCase : ∀ {d i s l a} {xs : List (V i)}, S d = some l → w d = some s → (∀ i, s i = ofType i l) →
      (some (upd w d (some (setR s i a).1), (setR s i a).2) : Option (World V × Option (Fin n))) = some (w', none) →
      (a.2 = false → a.1 = s i ++ xs) → Rep w' (upd S d (some (l ++ xs.map fun x => ⟨i, x⟩))) := by
    intro d i s l a xs _ hx hr he ha
    simp only [Option.some.injEq, Prod.mk.injEq] at he
    obtain ⟨rfl, h2⟩ := he
    rw [setR_fst, ha (setR_none h2)]
    exact h.upd d (rep_add hr i xs)
  cases op with
  | make d => simp only [exec, Option.some.injEq, Prod.mk.injEq, and_true] at he; subst he; exact h.upd d (fun _ => rfl)
  | destroy d => simp only [exec, Option.some.injEq, Prod.mk.injEq, and_true] at he; subst he; exact h.upd d trivial
  | copy d s =>
    obtain ⟨l, hl⟩ := Option.isSome_iff_exists.1 L.2
    obtain ⟨x, hx, hr⟩ := h.getS hl
    cases hk : copyCtor c t x with
    | error i => simp [exec, hx, hk] at he
    | ok y =>
      simp only [exec, hx, hk, Option.bind_eq_bind, Option.bind_some, Option.some.injEq, Prod.mk.injEq, and_true] at he
      subst he
      simp only [specStep, hl]
      cases copyCtor_ok hk
      exact h.upd d hr
  | copyAssign d s =>
    obtain ⟨k, hk⟩ := Option.isSome_iff_exists.1 L.1
    obtain ⟨l, hl⟩ := Option.isSome_iff_exists.1 L.2
    obtain ⟨x, hx, _⟩ := h.getS hk
    obtain ⟨y, hy, hr⟩ := h.getS hl
    cases hq : copyAssign c t x y with
    | mk z r =>
      simp only [exec, hx, hy, hq, store, Option.bind_eq_bind, Option.bind_some, Option.some.injEq, Prod.mk.injEq] at he
      obtain ⟨rfl, rfl⟩ := he
      cases copyAssign_none hq
      simp only [specStep, hl]
      exact h.upd d hr
  | move d s =>
    obtain ⟨l, hl⟩ := Option.isSome_iff_exists.1 L
    obtain ⟨x, hx, hr⟩ := h.getS hl
    simp only [exec, hx, Option.bind_eq_bind, Option.bind_some, Option.some.injEq, Prod.mk.injEq, and_true] at he
    subst he
    simp only [specStep, hl]
    exact (h.upd s (a := none) (b := none) trivial).upd d hr
  | insert d i x =>
    obtain ⟨l, hl⟩ := Option.isSome_iff_exists.1 L
    obtain ⟨s, hx, hr⟩ := h.getS hl
    obtain ⟨a, ha, hv⟩ := insert_seq (t := t) hc s i x
    simp only [exec, hx, ha, store, Option.bind_eq_bind, Option.bind_some] at he
    simp only [specStep, hl]
    exact addCase (xs := [x]) hl hx hr he hv
  | emplace d i x =>
    obtain ⟨l, hl⟩ := Option.isSome_iff_exists.1 L
    obtain ⟨s, hx, hr⟩ := h.getS hl
    obtain ⟨a, ha, hv⟩ := emplace_seq (t := t) hc s i x
    simp only [exec, hx, ha, store, Option.bind_eq_bind, Option.bind_some] at he
    simp only [specStep, hl]
    exact addCase (xs := [x]) hl hx hr he hv
  | insertVariant d x =>
    obtain ⟨l, hl⟩ := Option.isSome_iff_exists.1 L
    obtain ⟨s, hx, hr⟩ := h.getS hl
    obtain ⟨a, ha, hv⟩ := insert_seq (t := t) hc s x.1 x.2
    simp only [exec, hx, inserterVisit, ha, store, Option.bind_eq_bind, Option.bind_some] at he
    simp only [specStep, hl]
    exact addCase (xs := [x.2]) hl hx hr he hv
  | insertInit d i xs =>
    obtain ⟨l, hl⟩ := Option.isSome_iff_exists.1 L
    obtain ⟨s, hx, hr⟩ := h.getS hl
    obtain ⟨a, ha, hv⟩ := insertInit_seq (t := t) hc s i xs
    simp only [exec, hx, ha, store, Option.bind_eq_bind, Option.bind_some] at he
    simp only [specStep, hl]
    exact addCase (xs := xs) hl hx hr he hv
  | erase d i k =>
    obtain ⟨l, hl, hk⟩ := L
    obtain ⟨s, hx, hr⟩ := h.getS hl
    obtain ⟨a, ha, hv⟩ := erase_setR (c := c) (t := t) s i k
    simp only [exec, hx, ha, store, Option.bind_eq_bind, Option.bind_some, Option.some.injEq, Prod.mk.injEq] at he
    obtain ⟨rfl, h2⟩ := he
    simp only [specStep, hl, setR_fst, hv (setR_none h2)]
    refine h.upd d (fun j => ?_)
    by_cases hj : j = i
    · subst hj
      have := dropNth_one k (ofType j l) 0
      simp only [Nat.zero_add] at this
      simp [ofType_eraseNth, this, hr j]
    · simp [setS_ne _ _ _ hj, ofType_eraseNth_ne hj, hr j]
  | eraseRange d i b e =>
    obtain ⟨l, hl, hb, _⟩ := L
    obtain ⟨s, hx, hr⟩ := h.getS hl
    obtain ⟨a, ha, hv⟩ := eraseRange_setR (c := c) (t := t) s i b e
    simp only [exec, hx, ha, store, Option.bind_eq_bind, Option.bind_some, Option.some.injEq, Prod.mk.injEq] at he
    obtain ⟨rfl, h2⟩ := he
    simp only [specStep, hl, setR_fst, hv (setR_none h2)]
    refine h.upd d (fun j => ?_)
    by_cases hj : j = i
    · subst hj
      have := dropNth_range b e (ofType j l) 0 hb
      simp only [Nat.zero_add] at this
      simp only [setS_same, ofType_eraseNth, this, hr j]
    · simp [setS_ne _ _ _ hj, ofType_eraseNth_ne hj, hr j]
  | swap d e =>
    obtain ⟨l, hl⟩ := Option.isSome_iff_exists.1 L.1
    obtain ⟨m, hm⟩ := Option.isSome_iff_exists.1 L.2
    obtain ⟨s, hx, hr⟩ := h.getS hl
    obtain ⟨q, hq, hq'⟩ := h.getS hm
    simp only [exec, hx, hq, swap, Option.bind_eq_bind, Option.bind_some, Option.some.injEq, Prod.mk.injEq, and_true] at he
    subst he
    simp only [specStep, hl, hm]
    exact (h.upd d hq').upd e hr

/-- The list of variants with given values. -/
def listOf (s : Swarm V) : List (Val V) := (List.finRange n).flatMap fun i => (s i).map fun x => ⟨i, x⟩

theorem ofType_listOf (s : Swarm V) (i : Fin n) : ofType i (listOf s) = s i := by
  have h : ∀ is : List (Fin n), is.Nodup → ofType i (is.flatMap fun i => (s i).map fun x => (⟨i, x⟩ : Val V)) = if i ∈ is then s i else [] := by
    intro is; induction is with
    | nil => intro _; rfl
    | cons k ks ih =>
      intro hn
      obtain ⟨h1, h2⟩ := List.nodup_cons.1 hn
      rw [List.flatMap_cons, ofType_append, ih h2]
      by_cases hk : i = k
      · subst hk; simp [h1]
      · rw [ofType_map_ne hk]; simp [hk]
  rw [listOf, h _ (List.nodup_finRange n)]; simp

/-- An operation that threw has left one of the states allowed, and this state is known from what the container has that threw. -/
theorem throws_rep {w w' : World V} {S : SWorld V} (h : Rep w S) {op i} (he : exec c t w op = some (w', some i)) {S'}
    (hS : ThrowStep ofType S op i (leftIn w' op i) S') : Rep w' S' := by
  rcases exec_throws he with ⟨d, s, rfl, rfl⟩ | ⟨d, s, x, y, x', rfl, hx, hy, rfl, h1, h2⟩ | ⟨d, s, s', ho, hs, rfl, h1⟩
  · cases hS; exact h
  · obtain ⟨l, m, l', hl, hm, rfl, h3, h4, h5⟩ := hS
    obtain ⟨l2, hl2, hr⟩ := h.getW hx
    obtain ⟨m2, hm2, hq⟩ := h.getW hy
    rw [hl] at hl2; cases hl2; rw [hm] at hm2; cases hm2
    refine h.upd d (fun j => ?_)
    rcases Nat.lt_trichotomy j.1 i.1 with hj | hj | hj
    · rw [h1 j hj, h4 j hj, hq j]
    · have : j = i := Fin.ext hj
      subst this; rw [h3]; simp [leftIn]
    · rw [h2 j hj, h5 j hj, hr j]
  · have hS' : ∃ d1 l l', op.concerns = some (d1, i) ∧ S d1 = some l ∧ S' = Swarm.upd S d1 (some l') ∧
        ofType i l' = ((op.concerns.bind fun p => Swarm.upd w d (some s') p.1).map fun s => s i).getD [] ∧ ∀ j, j ≠ i → ofType j l' = ofType j l := by
      cases op <;> first | exact hS | (cases ho; done)
    obtain ⟨d', l, l', hd, hl, rfl, h3, h4⟩ := hS'
    rw [ho] at hd; cases hd
    obtain ⟨l2, hl2, hr⟩ := h.getW hs
    rw [hl] at hl2; cases hl2
    refine h.upd d (fun j => ?_)
    by_cases hj : j = i
    · subst hj; rw [h3, ho]; simp
    · rw [h1 j hj, h4 j hj, hr j]

theorem throws_exists {w w' : World V} {S : SWorld V} (h : Rep w S) {op i} (he : exec c t w op = some (w', some i)) :
    ∃ S', ThrowStep ofType S op i (leftIn w' op i) S' := by
  rcases exec_throws he with ⟨d, s, rfl, rfl⟩ | ⟨d, s, x, y, x', rfl, hx, hy, rfl, h1, h2⟩ | ⟨d, s, s', ho, hs, rfl, h1⟩
  · exact ⟨S, rfl⟩
  · obtain ⟨l, hl, hr⟩ := h.getW hx
    obtain ⟨m, hm, hq⟩ := h.getW hy
    refine ⟨_, l, m, listOf x', hl, hm, rfl, ?_, fun j hj => ?_, fun j hj => ?_⟩
    · rw [ofType_listOf]; simp [leftIn]
    · rw [ofType_listOf, h1 j hj, hq j]
    · rw [ofType_listOf, h2 j hj, hr j]
  · obtain ⟨l, hl, hr⟩ := h.getW hs
    have hS' : ∃ d' l l', op.concerns = some (d', i) ∧ S d' = some l ∧ upd S d (some (listOf s')) = Swarm.upd S d' (some l') ∧
        ofType i l' = ((op.concerns.bind fun p => Swarm.upd w d (some s') p.1).map fun s => s i).getD [] ∧ ∀ j, j ≠ i → ofType j l' = ofType j l := by
      refine ⟨d, l, listOf s', ho, hl, rfl, ?_, fun j hj => ?_⟩
      · rw [ofType_listOf, ho]; simp
      · rw [ofType_listOf, h1 j hj, hr j]
    refine ⟨Swarm.upd S d (some (listOf s')), ?_⟩
    cases op <;> first | exact hS' | (cases ho; done)

theorem Reach.rep (hc : ∀ i, Seq (c i)) {w : World V} {S} (h : Reach c w S) : Rep w S := by
  induction h with
  | init => intro _; trivial
  | step _ L he ih => exact exec_rep hc ih L he
  | throws _ _ he hS ih => exact throws_rep ih he hS

/-! ### any containers -/

def BagRep (w : World V) (T : Nat → Option ((i : Fin n) → List (V i))) : Prop :=
  ∀ d, match w d, T d with
    | none, none => True
    | some s, some t => ∀ i, (s i).Perm (t i)
    | _, _ => False

theorem BagRep.upd {w : World V} {S} (h : BagRep w S) (d : Nat) {a b}
    (hab : match a, b with | none, none => True | some s, some l => ∀ i, (s i).Perm (l i) | _, _ => False) :
    BagRep (upd w d a) (Swarm.upd S d b) := by
  intro e
  by_cases he : e = d
  · subst he; simpa using hab
  · rw [upd_ne _ _ _ he, upd_ne _ _ _ he]; exact h e

theorem BagRep.getW {w : World V} {S} (h : BagRep w S) {d s} (hw : w d = some s) : ∃ l, S d = some l ∧ ∀ i, (s i).Perm (l i) := by
  have := h d; rw [hw] at this
  cases hS : S d with
  | none => rw [hS] at this; exact this.elim
  | some l => rw [hS] at this; exact ⟨l, rfl, this⟩

variable {add : (i : Fin n) → List (V i) → V i → List (V i)}

theorem foldl_perm {α} {add : List α → α → List α} {c : Cont α} (hc : Adds add c) (xs : List α) {l l' : List α} (h : l.Perm l') :
    (xs.foldl add l).Perm (xs.foldl add l') := by
  induction xs generalizing l l' with
  | nil => exact h
  | cons x xs ih => exact ih (hc.perm _ _ x h)

theorem throws_bag {w w' : World V} {T} (h : BagRep w T) {op i} (he : exec c t w op = some (w', some i)) {T'}
    (hS : ThrowStep (fun j x => x j) T op i (leftIn w' op i) T') : BagRep w' T' := by
  rcases exec_throws he with ⟨d, s, rfl, rfl⟩ | ⟨d, s, x, y, x', rfl, hx, hy, rfl, h1, h2⟩ | ⟨d, s, s', ho, hs, rfl, h1⟩
  · cases hS; exact h
  · obtain ⟨l, m, l', hl, hm, rfl, h3, h4, h5⟩ := hS
    dsimp only at h3 h4 h5
    obtain ⟨l2, hl2, hr⟩ := h.getW hx
    obtain ⟨m2, hm2, hq⟩ := h.getW hy
    rw [hl] at hl2; cases hl2; rw [hm] at hm2; cases hm2
    refine h.upd d (fun j => ?_)
    rcases Nat.lt_trichotomy j.1 i.1 with hj | hj | hj
    · rw [h1 j hj, h4 j hj]; exact hq j
    · have : j = i := Fin.ext hj
      subst this; rw [h3]; simp [leftIn]
    · rw [h2 j hj, h5 j hj]; exact hr j
  · have hS' : ∃ d1 l l', op.concerns = some (d1, i) ∧ T d1 = some l ∧ T' = Swarm.upd T d1 (some l') ∧
        l' i = ((op.concerns.bind fun p => Swarm.upd w d (some s') p.1).map fun s => s i).getD [] ∧ ∀ j, j ≠ i → l' j = l j := by
      cases op <;> first | exact hS | (cases ho; done)
    obtain ⟨d', l, l', hd, hl, rfl, h3, h4⟩ := hS'
    rw [ho] at hd; cases hd
    obtain ⟨l2, hl2, hr⟩ := h.getW hs
    rw [hl] at hl2; cases hl2
    refine h.upd d (fun j => ?_)
    by_cases hj : j = i
    · subst hj; rw [h3, ho]; simp
    · rw [h1 j hj, h4 j hj]; exact hr j

theorem exec_bag (hc : ∀ i, Adds (add i) (c i)) {w w' : World V} {T T'} (h : BagRep w T) {op} (hs : BagStep add w T T' op)
    (he : exec c t w op = some (w', none)) : BagRep w' T' := by
  have addCase : ∀ {d s t t'} {i : Fin n} {r : After (V i)} {a : List (V i) → List (V i)} (_ : ∀ l l', l.Perm l' → (a l).Perm (a l')),
      w d = some s → T d = some t →
      (some (upd w d (some (setR s i r).1), (setR s i r).2) : Option (World V × Option (Fin n))) = some (w', none) →
      (r.2 = false → r.1.Perm (a (s i))) → t' i = a (t i) →
      (∀ j, j ≠ i → t' j = t j) → BagRep w' (Swarm.upd T d (some t')) := by
    intro d s t t' i r a ha hw ht he hs' h1 h2
    obtain ⟨t2, ht2, hp⟩ := h.getW hw
    rw [ht] at ht2; cases ht2
    simp only [Option.some.injEq, Prod.mk.injEq] at he
    obtain ⟨rfl, he2⟩ := he
    refine h.upd d (fun j => ?_)
    rw [setR_fst]
    by_cases hj : j = i
    · subst hj; rw [h1, setS_same]; exact (hs' (setR_none he2)).trans (ha _ _ (hp j))
    · rw [setS_ne _ _ _ hj, h2 j hj]; exact hp j
  cases op with
  | make d =>
    simp only [exec, Option.some.injEq, Prod.mk.injEq, and_true] at he; subst he; simp only [BagStep] at hs; subst hs
    exact h.upd d (fun _ => .refl _)
  | destroy d =>
    simp only [exec, Option.some.injEq, Prod.mk.injEq, and_true] at he; subst he; simp only [BagStep] at hs; subst hs
    exact h.upd d trivial
  | copy d s =>
    simp only [BagStep] at hs; subst hs
    cases hw : w s with
    | none => simp [exec, hw] at he
    | some x =>
      obtain ⟨u, ht, hp⟩ := h.getW hw
      cases hk : copyCtor c t x with
      | error i => simp [exec, hw, hk] at he
      | ok y =>
        simp only [exec, hw, hk, Option.bind_eq_bind, Option.bind_some, Option.some.injEq, Prod.mk.injEq, and_true] at he
        subst he; rw [ht]; cases copyCtor_ok hk; exact h.upd d hp
  | copyAssign d s =>
    simp only [BagStep] at hs; subst hs
    cases hw : w d with
    | none => simp [exec, hw] at he
    | some x =>
      cases hv : w s with
      | none => simp [exec, hw, hv] at he
      | some y =>
        obtain ⟨m, hm, hp⟩ := h.getW hv
        cases hq : copyAssign c t x y with
        | mk z r =>
          simp only [exec, hw, hv, hq, store, Option.bind_eq_bind, Option.bind_some, Option.some.injEq, Prod.mk.injEq] at he
          obtain ⟨rfl, rfl⟩ := he
          cases copyAssign_none hq
          rw [hm]; exact h.upd d hp
  | move d s =>
    simp only [BagStep] at hs; subst hs
    cases hw : w s with
    | none => simp [exec, hw] at he
    | some x =>
      obtain ⟨t, ht, hp⟩ := h.getW hw
      simp only [exec, hw, Option.bind_eq_bind, Option.bind_some, Option.some.injEq, Prod.mk.injEq, and_true] at he
      subst he; rw [ht]; exact (h.upd s (a := none) (b := none) trivial).upd d hp
  | insert d i x =>
    obtain ⟨u, u', hu, rfl, h1, h2⟩ := hs
    cases hw : w d with
    | none => simp [exec, hw] at he
    | some s =>
      cases hi : insert c t s i x with
      | none => simp [exec, hw, hi] at he
      | some q =>
        obtain ⟨f, hf, rfl⟩ := insert_setR hi
        simp only [exec, hw, hi, store, Option.bind_eq_bind, Option.bind_some] at he
        exact addCase (fun l l' p => (hc i).perm l l' x p) hw hu he ((hc i).one f hf _ _ _) h1 h2
  | insertVariant d x =>
    obtain ⟨i, x⟩ := x
    obtain ⟨u, u', hu, rfl, h1, h2⟩ := hs
    cases hw : w d with
    | none => simp [exec, hw] at he
    | some s =>
      cases hi : insert c t s i x with
      | none => simp [exec, hw, inserterVisit, hi] at he
      | some q =>
        obtain ⟨f, hf, rfl⟩ := insert_setR hi
        simp only [exec, hw, inserterVisit, hi, store, Option.bind_eq_bind, Option.bind_some] at he
        exact addCase (fun l l' p => (hc i).perm l l' x p) hw hu he ((hc i).one f hf _ _ _) h1 h2
  | emplace d i x =>
    obtain ⟨u, u', hu, rfl, h1, h2⟩ := hs
    cases hw : w d with
    | none => simp [exec, hw] at he
    | some s =>
      cases hi : emplace c t s i x with
      | none => simp [exec, hw, hi] at he
      | some q =>
        obtain ⟨f, hf, rfl⟩ := emplace_setR hi
        simp only [exec, hw, hi, store, Option.bind_eq_bind, Option.bind_some] at he
        exact addCase (fun l l' p => (hc i).perm l l' x p) hw hu he ((hc i).one f hf _ _ _) h1 h2
  | insertInit d i xs =>
    obtain ⟨u, u', hu, rfl, h1, h2⟩ := hs
    cases hw : w d with
    | none => simp [exec, hw] at he
    | some s =>
      cases hi : insertInit c t s i xs with
      | none => simp [exec, hw, hi] at he
      | some q =>
        obtain ⟨f, hf, rfl⟩ := insertInit_setR hi
        simp only [exec, hw, hi, store, Option.bind_eq_bind, Option.bind_some] at he
        exact addCase (a := fun l => xs.foldl (add i) l) (fun l l' p => foldl_perm (hc i) xs p) hw hu he ((hc i).list f hf _ _ _) h1 h2
  | erase d i k =>
    obtain ⟨u, u', s, x, hu, rfl, hw, hk, hp, h2⟩ := hs
    obtain ⟨a, ha, hv⟩ := erase_setR (c := c) (t := t) s i k
    simp only [exec, hw, ha, store, Option.bind_eq_bind, Option.bind_some, Option.some.injEq, Prod.mk.injEq] at he
    obtain ⟨rfl, he2⟩ := he
    obtain ⟨t2, ht2, hq⟩ := h.getW hw
    rw [hu] at ht2; cases ht2
    refine h.upd d (fun j => ?_)
    rw [setR_fst, hv (setR_none he2)]
    by_cases hj : j = i
    · subst hj
      simp only [setS_same]
      obtain ⟨hlt, hx⟩ := List.getElem?_eq_some_iff.1 hk
      have hl : (s j).Perm (x :: (s j).eraseIdx k) := by
        rw [List.eraseIdx_eq_take_drop_succ]
        conv => lhs; rw [← List.take_append_drop k (s j), List.drop_eq_getElem_cons hlt, hx]
        exact List.perm_middle
      exact (List.perm_cons x).1 (hl.symm.trans ((hq j).trans hp))
    · simp only [setS_ne _ _ _ hj, h2 j hj]; exact hq j
  | eraseRange d i b e =>
    obtain ⟨u, u', s, hu, rfl, hw, hb, hl, hp, h2⟩ := hs
    obtain ⟨a, ha, hv⟩ := eraseRange_setR (c := c) (t := t) s i b e
    simp only [exec, hw, ha, store, Option.bind_eq_bind, Option.bind_some, Option.some.injEq, Prod.mk.injEq] at he
    obtain ⟨rfl, he2⟩ := he
    obtain ⟨t2, ht2, hq⟩ := h.getW hw
    rw [hu] at ht2; cases ht2
    refine h.upd d (fun j => ?_)
    rw [setR_fst, hv (setR_none he2)]
    by_cases hj : j = i
    · subst hj
      simp only [setS_same]
      have hsplit : s j = (s j).take b ++ (((s j).drop b).take (e - b) ++ (s j).drop e) := by
        have h3 : (s j).drop e = ((s j).drop b).drop (e - b) := by rw [List.drop_drop]; congr 1; omega
        rw [h3, List.take_append_drop, List.take_append_drop]
      have hl' : (s j).Perm (((s j).drop b).take (e - b) ++ ((s j).take b ++ (s j).drop e)) := by
        conv => lhs; rw [hsplit]
        rw [← List.append_assoc, ← List.append_assoc]
        exact List.perm_append_comm.append_right _
      exact (List.perm_append_left_iff _).1 (hl'.symm.trans ((hq j).trans hp))
    · simp only [setS_ne _ _ _ hj, h2 j hj]; exact hq j
  | swap d e =>
    simp only [BagStep] at hs; subst hs
    cases hw : w d with
    | none => simp [exec, hw] at he
    | some s =>
      cases hv : w e with
      | none => simp [exec, hw, hv] at he
      | some t =>
        simp only [exec, hw, hv, swap, Option.bind_eq_bind, Option.bind_some, Option.some.injEq, Prod.mk.injEq, and_true] at he
        subst he
        obtain ⟨a, ha, hp⟩ := h.getW hw
        obtain ⟨b, hb, hq⟩ := h.getW hv
        rw [ha, hb]; exact (h.upd d hq).upd e hp

theorem BagReach.rep (hc : ∀ i, Adds (add i) (c i)) {w : World V} {T} (h : BagReach c add w T) : BagRep w T := by
  induction h with
  | init => intro _; trivial
  | step _ hs he ih => exact exec_bag hc ih hs he
  | throws _ he hs ih => exact throws_bag ih he hs

/-! ### visits -/

variable {σ R : Type}

theorem runAll_cons (v : Visitor V σ R) (out : σ → R → σ × Bool) (x : Val V) (xs : List (Val V)) (s : σ) :
    runAll v out (x :: xs) s = if (applyVisitor v out x.1 s x.2).1.2 then (applyVisitor v out x.1 s x.2).1
      else runAll v out xs (applyVisitor v out x.1 s x.2).1.1 := by
  obtain ⟨s', y, r, hv⟩ : ∃ s' y r, v x.1 s x.2 = (s', y, r) := ⟨_, _, _, rfl⟩
  cases r with
  | void => simp [runAll, applyVisitor, hv]
  | throws => simp [runAll, applyVisitor, hv]
  | val r =>
    simp only [runAll, applyVisitor, hv]
    split
    · rename_i h; rw [← h]
    · rfl

theorem runAll_append (v : Visitor V σ R) (out : σ → R → σ × Bool) (l m : List (Val V)) (s : σ) :
    runAll v out (l ++ m) s = if (runAll v out l s).2 then runAll v out l s else runAll v out m (runAll v out l s).1 := by
  induction l generalizing s with
  | nil => rfl
  | cons x xs ih =>
    rw [List.cons_append, runAll_cons, runAll_cons]
    by_cases h : (applyVisitor v out x.1 s x.2).1.2 = true
    · simp [h]
    · simp only [h, Bool.false_eq_true, if_false]; exact ih _

theorem forEach_run (v : Visitor V σ R) (out : σ → R → σ × Bool) (i : Fin n) (l : List (V i)) (s : σ) :
    (forEach v out i l s).1 = runAll v out (l.map fun x => ⟨i, x⟩) s := by
  induction l generalizing s with
  | nil => rfl
  | cons x xs ih =>
    rw [List.map_cons, runAll_cons]
    by_cases h : (applyVisitor v out i s x).1.2 = true
    · simp [forEach, h]
    · simp only [forEach, h, Bool.false_eq_true, if_false]; exact ih _

theorem forEach_length (v : Visitor V σ R) (out : σ → R → σ × Bool) (i : Fin n) (l : List (V i)) (s : σ) :
    (forEach v out i l s).2.length = l.length := by
  induction l generalizing s with
  | nil => rfl
  | cons x xs ih => simp only [forEach]; split <;> simp [ih]

theorem applyVisitor_val (v : Visitor V σ R) (out : σ → R → σ × Bool) (i : Fin n) (s : σ) (x : V i) :
    (applyVisitor v out i s x).2 = (v i s x).2.1 := by
  simp only [applyVisitor]; split <;> rfl

theorem forEach_reading (v : Visitor V σ R) (hv : Reading v) (out : σ → R → σ × Bool) (i : Fin n) (l : List (V i)) (s : σ) :
    (forEach v out i l s).2 = l := by
  induction l generalizing s with
  | nil => rfl
  | cons x xs ih =>
    simp only [forEach]
    split <;> simp [ih, applyVisitor_val, hv i s x]

theorem visit_reading (v : Visitor V σ R) (hv : Reading v) (out : σ → R → σ × Bool) (types : List (Fin n)) (sw : Swarm V) (s : σ) :
    visit v out types sw s = (runAll v out (types.flatMap fun i => (sw i).map fun x => ⟨i, x⟩) s, sw) := by
  induction types generalizing s with
  | nil => rfl
  | cons i is ih =>
    simp only [visit, forEach_reading v hv, setS_self, ih, List.flatMap_cons, runAll_append, forEach_run]
    split <;> rfl

theorem visit_nodup (v : Visitor V σ R) (out : σ → R → σ × Bool) (types : List (Fin n)) (hn : types.Nodup) (sw : Swarm V) (s : σ) :
    (visit v out types sw s).1 = runAll v out (types.flatMap fun i => (sw i).map fun x => ⟨i, x⟩) s := by
  induction types generalizing s sw with
  | nil => rfl
  | cons i is ih =>
    obtain ⟨h1, h2⟩ := List.nodup_cons.1 hn
    have : ∀ js : List (Fin n), i ∉ js → (js.flatMap fun k => (setS sw i (forEach v out i (sw i) s).2 k).map fun x => (⟨k, x⟩ : Val V)) =
        js.flatMap fun k => (sw k).map fun x => ⟨k, x⟩ := by
      intro js; induction js with
      | nil => intro _; rfl
      | cons k ks ihk =>
        intro hk
        simp only [List.mem_cons, not_or] at hk
        simp only [List.flatMap_cons, ihk hk.2, setS_ne _ _ _ (fun e : k = i => hk.1 e.symm)]
    simp only [visit, List.flatMap_cons, runAll_append, ← forEach_run]
    split
    · rfl
    · rw [ih h2, this is h1]

theorem visit_other (v : Visitor V σ R) (out : σ → R → σ × Bool) (types : List (Fin n)) (sw : Swarm V) (s : σ) {j : Fin n} (hj : j ∉ types) :
    (visit v out types sw s).2 j = sw j := by
  induction types generalizing s sw with
  | nil => rfl
  | cons i is ih =>
    simp only [List.mem_cons, not_or] at hj
    simp only [visit]
    split
    · exact setS_ne _ _ _ hj.1
    · rw [ih _ _ hj.2, setS_ne _ _ _ hj.1]

theorem visit_length (v : Visitor V σ R) (out : σ → R → σ × Bool) (types : List (Fin n)) (sw : Swarm V) (s : σ) (j : Fin n) :
    ((visit v out types sw s).2 j).length = (sw j).length := by
  induction types generalizing s sw with
  | nil => rfl
  | cons i is ih =>
    have hs : (setS sw i (forEach v out i (sw i) s).2 j).length = (sw j).length := by
      by_cases h : j = i
      · subst h; simp [forEach_length]
      · rw [setS_ne _ _ _ h]
    simp only [visit]
    split
    · exact hs
    · rw [ih, hs]

theorem runAll_copy (v : Visitor V σ R) (l : List (Val V)) (s : σ) (o : Out R) :
    runAll (fun i (st : σ × Out R) x => let r := v i st.1 x; ((r.1, st.2), r.2.1, r.2.2)) (fun st r => ((st.1, st.2.write r), false)) l (s, o) =
      (((results v l s).2.1, (results v l s).1.foldl Out.write o), (results v l s).2.2) := by
  induction l generalizing s o with
  | nil => rfl
  | cons x xs ih =>
    simp only [runAll, results]
    obtain ⟨s', y, r, hv⟩ : ∃ s' y r, v x.1 s x.2 = (s', y, r) := ⟨_, _, _, rfl⟩
    cases r with
    | void => simp only [hv]; exact ih s' o
    | throws => simp [hv]
    | val r => simp only [hv]; exact ih s' (o.write r)

/-- Where the `k`-th value of the container is after the visit of this container. -/
theorem forEach_get (v : Visitor V σ R) (out : σ → R → σ × Bool) (i : Fin n) (l : List (V i)) (s : σ) (k : Nat) (x : V i) (h : l[k]? = some x) :
    (forEach v out i l s).2[k]? =
      some (if (runAll v out ((l.take k).map fun x => ⟨i, x⟩) s).2 then x else (v i (runAll v out ((l.take k).map fun x => ⟨i, x⟩) s).1 x).2.1) := by
  induction l generalizing k s with
  | nil => simp at h
  | cons y ys ih =>
    cases k with
    | zero =>
      simp only [List.getElem?_cons_zero, Option.some.injEq] at h
      subst h
      simp only [forEach]
      split <;> simp [runAll, applyVisitor_val]
    | succ k =>
      simp only [List.getElem?_cons_succ] at h
      rw [List.take_succ_cons, List.map_cons, runAll_cons]
      by_cases hq : (applyVisitor v out i s y).1.2 = true
      · simp [forEach, hq, h]
      · simp only [forEach, hq, Bool.false_eq_true, if_false, List.getElem?_cons_succ]; exact ih _ _ h

theorem write_all (rs : List R) (o : Out R) :
    (rs.foldl Out.write o).pos = o.pos + rs.length ∧ (∀ k (h : k < rs.length), (rs.foldl Out.write o).mem (o.pos + k) = rs[k]) ∧
    ∀ a, (a < o.pos ∨ o.pos + rs.length ≤ a) → (rs.foldl Out.write o).mem a = o.mem a := by
  induction rs generalizing o with
  | nil => exact ⟨rfl, by simp, fun _ _ => rfl⟩
  | cons r rs ih =>
    obtain ⟨h1, h2, h3⟩ := ih (o.write r)
    have hp : (o.write r).pos = o.pos + 1 := rfl
    simp only [hp] at h1 h2 h3
    refine ⟨by simp only [List.foldl_cons, h1, List.length_cons]; omega, ?_, ?_⟩
    · intro k hk
      cases k with
      | zero =>
        simp only [List.foldl_cons, Nat.add_zero, List.getElem_cons_zero]
        rw [h3 o.pos (.inl (by omega))]; simp [Out.write]
      | succ k =>
        simp only [List.foldl_cons, List.getElem_cons_succ]
        rw [show o.pos + (k + 1) = o.pos + 1 + k by omega]; exact h2 k (by simpa using hk)
    · intro a ha
      simp only [List.length_cons] at ha
      simp only [List.foldl_cons]
      rw [h3 a (by omega)]
      simp only [Out.write]; rw [if_neg (by omega)]

end AnyAny.Swarm
