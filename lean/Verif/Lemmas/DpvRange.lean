import Verif.Spec.DpvRange
/- Lemmas for C88, C89. -/
namespace AnyAny.DpvRange

variable {n : Nat} {V : Fin n → Type} {moved : (j : Fin n) → V j → V j} {m : Mode}

theorem setRec_same (r : (j : Fin n) → V j) (j x) : setRec r j x j = x := by simp [setRec]
theorem setRec_ne (r : (j : Fin n) → V j) (j x) {k} (h : k ≠ j) : setRec r j x k = r k := by simp [setRec, h]

theorem iter_succ {α} (f : α → α) (k : Nat) (x : α) : iter f (k + 1) x = f (iter f k x) := by
  induction k generalizing x with
  | zero => rfl
  | succ k ih => exact ih (f x)

/-- What `fieldArgs` does. -/
theorem fieldArgs_spec (k : Nat) (js : List (Fin n)) (hd : js.Nodup) (r : (j : Fin n) → V j) (s : St V) :
    (∀ j, (fieldArgs moved m k js r s).1 j = if j ∈ js then s.src k j else r j) ∧
    (fieldArgs moved m k js r s).2.cols = s.cols ∧
    (∀ j, (fieldArgs moved m k js r s).2.copies j = s.copies j + if m = .lvalue ∧ j ∈ js then 1 else 0) ∧
    (∀ j, (fieldArgs moved m k js r s).2.moves j = s.moves j + if m ≠ .lvalue ∧ j ∈ js then 1 else 0) ∧
    (∀ i j, (fieldArgs moved m k js r s).2.src i j = if m = .xvalue ∧ i = k ∧ j ∈ js then moved j (s.src i j) else s.src i j) ∧
    ∀ i, (fieldArgs moved m k js r s).2.derefs i = s.derefs i + if i = k then js.length else 0 := by
  induction js generalizing r s with
  | nil => refine ⟨?_, ?_, ?_, ?_, ?_, ?_⟩ <;> simp [fieldArgs]
  | cons a js ih =>
    obtain ⟨ha, hd⟩ := List.nodup_cons.1 hd
    simp only [fieldArgs]
    obtain ⟨h1, h2, h3, h4, h5, h6⟩ := ih hd (setRec r a (takeField moved m k a (deref k s)).1) (takeField moved m k a (deref k s)).2
    refine ⟨fun j => ?_, ?_, fun j => ?_, fun j => ?_, fun i j => ?_, fun i => ?_⟩
    · rw [h1]
      by_cases hj : j = a
      · subst hj
        simp only [ha, if_false, List.mem_cons, true_or, if_true, setRec_same]
        cases m <;> rfl
      · rw [setRec_ne _ _ _ hj]
        simp only [List.mem_cons, hj, false_or]
        split
        · cases m <;> simp [takeField, deref, setRec_ne _ _ _ hj]
        · rfl
    · rw [h2]; cases m <;> rfl
    · rw [h3]
      by_cases hj : j = a
      · subst hj; cases m <;> simp [takeField, deref, incr, ha]
      · cases m <;> simp [takeField, deref, incr, hj]
    · rw [h4]
      by_cases hj : j = a
      · subst hj; cases m <;> simp [takeField, deref, incr, ha]
      · cases m <;> simp [takeField, deref, incr, hj]
    · rw [h5]
      cases m with
      | lvalue => simp [takeField, deref]
      | prvalue => simp [takeField, deref]
      | xvalue =>
        by_cases hi : i = k
        · subst hi
          by_cases hj : j = a
          · subst hj; simp [takeField, deref, ha, setRec_same]
          · simp [takeField, deref, hj, setRec_ne _ _ _ hj]
        · simp [takeField, deref, hi]
    · rw [h6]
      have : (takeField moved m k a (deref k s)).2.derefs i = s.derefs i + if i = k then 1 else 0 := by
        cases m <;> (simp only [takeField, deref, incr]; split <;> rfl)
      rw [this]
      split <;> simp; omega

/-- What `takeRec` does. -/
theorem takeRec_spec (k : Nat) (s : St V) :
    (takeRec moved m k s).1 = s.src k ∧ (takeRec moved m k s).2.cols = s.cols ∧
    (∀ j, (takeRec moved m k s).2.copies j = s.copies j + if m = .lvalue then 1 else 0) ∧
    (∀ j, (takeRec moved m k s).2.moves j = s.moves j + if m = .xvalue then 1 else 0) ∧
    (∀ i j, (takeRec moved m k s).2.src i j = if m = .xvalue ∧ i = k then moved j (s.src i j) else s.src i j) ∧
    (takeRec moved m k s).2.derefs = s.derefs := by
  cases m
  · refine ⟨rfl, rfl, fun _ => rfl, fun _ => rfl, fun _ _ => by simp [takeRec], rfl⟩
  · refine ⟨rfl, rfl, fun _ => rfl, fun _ => rfl, fun i j => ?_, rfl⟩
    by_cases hi : i = k
    · subst hi; simp [takeRec]
    · simp [takeRec, hi]
  · refine ⟨rfl, rfl, fun _ => rfl, fun _ => rfl, fun _ _ => by simp [takeRec], rfl⟩

/-- What `recArgs` does. -/
theorem recArgs_spec (k : Nat) (js : List (Fin n)) (hd : js.Nodup) (r : (j : Fin n) → V j) (s : St V) :
    (∀ j, (recArgs moved m k js r s).1 j =
      if j ∈ js then (if m = .xvalue then iter (moved j) (js.idxOf j) (s.src k j) else s.src k j) else r j) ∧
    (recArgs moved m k js r s).2.cols = s.cols ∧
    (∀ j, (recArgs moved m k js r s).2.copies j = s.copies j + if m = .lvalue then js.length else 0) ∧
    (∀ j, (recArgs moved m k js r s).2.moves j = s.moves j + (if m = .xvalue then js.length else 0) + if j ∈ js then 1 else 0) ∧
    (∀ i j, (recArgs moved m k js r s).2.src i j = if m = .xvalue ∧ i = k then iter (moved j) js.length (s.src i j) else s.src i j) ∧
    ∀ i, (recArgs moved m k js r s).2.derefs i = s.derefs i + if i = k then js.length else 0 := by
  induction js generalizing r s with
  | nil => refine ⟨?_, ?_, ?_, ?_, ?_, ?_⟩ <;> simp [recArgs, iter]
  | cons a js ih =>
    obtain ⟨ha, hd⟩ := List.nodup_cons.1 hd
    simp only [recArgs]
    obtain ⟨t1, t2, t3, t4, t5, t6⟩ := takeRec_spec (moved := moved) (m := m) k (deref k s)
    generalize takeRec moved m k (deref k s) = q at *
    obtain ⟨h1, h2, h3, h4, h5, h6⟩ := ih hd (setRec r a (q.1 a)) { q.2 with moves := incr q.2.moves a }
    refine ⟨fun j => ?_, ?_, fun j => ?_, fun j => ?_, fun i j => ?_, fun i => ?_⟩
    · rw [h1]
      by_cases hj : j = a
      · subst hj
        simp only [ha, if_false, List.mem_cons, true_or, if_true, setRec_same, List.idxOf_cons_self, iter, t1]
        split <;> rfl
      · rw [setRec_ne _ _ _ hj]
        simp only [List.mem_cons, hj, false_or]
        split
        · have hx : (a :: js).idxOf j = js.idxOf j + 1 := by
            have hb : (a == j) = false := beq_eq_false_iff_ne.2 (Ne.symm hj)
            rw [List.idxOf_cons, hb]; rfl
          rw [hx, t5]
          by_cases hm : m = .xvalue
          · simp [hm, iter, deref]
          · simp [hm, deref]
        · rfl
    · rw [h2]; exact t2
    · rw [h3, t3]
      simp only [deref]
      split <;> simp; omega
    · rw [h4]
      by_cases hj : j = a
      · subst hj
        simp only [incr, if_true, t4, ha, if_false, List.mem_cons, true_or, deref, List.length_cons]
        split <;> omega
      · simp only [incr, hj, if_false, t4, List.mem_cons, false_or, deref, List.length_cons]
        split <;> split <;> omega
    · rw [h5, t5]
      by_cases hm : m = .xvalue
      · by_cases hi : i = k
        · simp [hm, hi, iter, deref]
        · simp [hi, deref]
      · simp [hm, deref]
    · rw [h6]
      simp only [t6, deref, incr]
      split <;> simp; omega

theorem Orders.nodup {ord : Nat → List (Fin n)} (h : Orders ord) (k : Nat) : (ord k).Nodup :=
  (h k).nodup_iff.2 (List.nodup_finRange n)
theorem Orders.mem {ord : Nat → List (Fin n)} (h : Orders ord) (k : Nat) (j : Fin n) : j ∈ ord k :=
  (h k).mem_iff.2 (List.mem_finRange j)
theorem Orders.len {ord : Nat → List (Fin n)} (h : Orders ord) (k : Nat) : (ord k).length = n := by
  rw [(h k).length_eq, List.length_finRange]

theorem Rows.size {s : St V} {l} (h : Rows s l) (hn : 0 < n) : size s = l.length := by
  simp [DpvRange.size, hn, h ⟨0, hn⟩]

theorem Rows.emplace {s : St V} {l} (h : Rows s l) (i : Nat) (r) : Rows (emplace i r s) (vectorInsert i [r] l) := by
  intro j
  simp [DpvRange.emplace, vectorInsert, h j, List.map_take, List.map_drop]

theorem pushAll_spec (hn : 0 < n) {ord : Nat → List (Fin n)} (ho : Orders ord) (c k : Nat) (s : St V) (l) (h : Rows s l) :
    Rows (pushAll moved m ord c k s) (l ++ (List.range' k c).map s.src) ∧
    (∀ i j, (pushAll moved m ord c k s).src i j = if m = .xvalue ∧ k ≤ i ∧ i < k + c then moved j (s.src i j) else s.src i j) ∧
    (∀ j, (pushAll moved m ord c k s).copies j = s.copies j + if m = .lvalue then 2 * c else c) ∧
    (∀ j, (pushAll moved m ord c k s).moves j = s.moves j + if m = .lvalue then 0 else c) ∧
    ∀ i, (pushAll moved m ord c k s).derefs i = s.derefs i + if k ≤ i ∧ i < k + c then n else 0 := by
  induction c generalizing k s l with
  | zero =>
    refine ⟨by simpa [pushAll] using h, fun i j => ?_, fun j => ?_, fun j => ?_, fun i => ?_⟩
    · have : ¬ (k ≤ i ∧ i < k + 0) := by omega
      simp [pushAll, this]; intros; omega
    · simp [pushAll]
    · simp [pushAll]
    · have : ¬ (k ≤ i ∧ i < k + 0) := by omega
      simp only [pushAll, this, if_false]; rfl
  | succ c ih =>
    obtain ⟨h1, h2, h3, h4, h5, h6⟩ := fieldArgs_spec (moved := moved) (m := m) k (ord k) (ho.nodup k) (s.src k) s
    simp only [pushAll]
    generalize fieldArgs moved m k (ord k) (s.src k) s = q at *
    have hq : q.1 = s.src k := by funext j; rw [h1]; simp
    have hr : Rows q.2 l := by intro j; rw [h2]; exact h j
    have hs : DpvRange.size q.2 = l.length := hr.size hn
    rw [hs, hq]
    have hl : vectorInsert l.length [s.src k] l = l ++ [s.src k] := by simp [vectorInsert]
    have hr' := hr.emplace l.length (s.src k)
    rw [hl] at hr'
    obtain ⟨g1, g2, g3, g4, g5⟩ := ih (k + 1) _ _ hr'
    have e2 : (DpvRange.emplace l.length (s.src k) q.2).src = q.2.src := rfl
    have e3 : ∀ j, (DpvRange.emplace l.length (s.src k) q.2).copies j = q.2.copies j + 1 := fun _ => rfl
    have e4 : (DpvRange.emplace l.length (s.src k) q.2).moves = q.2.moves := rfl
    have e5 : (DpvRange.emplace l.length (s.src k) q.2).derefs = q.2.derefs := rfl
    rw [e2] at g1 g2
    rw [e4] at g4
    rw [e5] at g5
    refine ⟨?_, fun i j => ?_, fun j => ?_, fun j => ?_, fun i => ?_⟩
    · have : (List.range' (k + 1) c).map q.2.src = (List.range' (k + 1) c).map s.src := by
        apply List.map_congr_left
        intro i hi
        have := List.mem_range'_1.1 hi
        funext j
        have hne : i ≠ k := by omega
        rw [h5]; simp [hne]
      rw [this] at g1
      simpa [List.range'_succ] using g1
    · rw [g2, h5]
      by_cases hi : i = k
      · subst hi
        have : ¬ (i + 1 ≤ i) := by omega
        simp [this, ho.mem]
      · have : (k + 1 ≤ i ∧ i < k + 1 + c) ↔ (k ≤ i ∧ i < k + (c + 1)) := by omega
        simp [this, hi]
    · rw [g3, e3, h3]
      simp only [ho.mem, and_true]
      split <;> omega
    · rw [g4, h4]
      simp only [ho.mem, and_true]
      cases m <;> simp; omega
      omega
    · rw [g5, h6, ho.len]
      by_cases hi : i = k
      · subst hi
        have h1 : ¬ (i + 1 ≤ i ∧ i < i + 1 + c) := by omega
        have h2 : i ≤ i ∧ i < i + (c + 1) := by omega
        simp only [h1, h2, if_true, if_false]; simp
      · have : (k + 1 ≤ i ∧ i < k + 1 + c) ↔ (k ≤ i ∧ i < k + (c + 1)) := by omega
        simp only [this, hi, if_false]; rfl

theorem insertRest_spec (c k i : Nat) (s : St V) (a b) (hi : a.length = i + 1) (h : Rows s (a ++ b)) :
    Rows (insertRest moved m c k i s) (a ++ (List.range' k c).map s.src ++ b) ∧
    (∀ t j, (insertRest moved m c k i s).src t j = if m = .xvalue ∧ k ≤ t ∧ t < k + c then moved j (s.src t j) else s.src t j) ∧
    (∀ j, (insertRest moved m c k i s).copies j = s.copies j + if m = .lvalue then 2 * c else c) ∧
    (∀ j, (insertRest moved m c k i s).moves j = s.moves j + if m = .xvalue then 2 * c else c) ∧
    ∀ t, (insertRest moved m c k i s).derefs t = s.derefs t + if k ≤ t ∧ t < k + c then 1 else 0 := by
  induction c generalizing k i s a with
  | zero =>
    refine ⟨by simpa [insertRest] using h, fun t j => ?_, fun j => ?_, fun j => ?_, fun t => ?_⟩
    · have : ¬ (k ≤ t ∧ t < k + 0) := by omega
      simp [insertRest, this]; intros; omega
    · simp [insertRest]
    · simp [insertRest]
    · have : ¬ (k ≤ t ∧ t < k + 0) := by omega
      simp only [insertRest, this, if_false]; rfl
  | succ c ih =>
    simp only [insertRest]
    obtain ⟨h1, h2, h3, h4, h5, h6⟩ := takeRec_spec (moved := moved) (m := m) k (deref k s)
    generalize takeRec moved m k (deref k s) = q at *
    have hq : q.1 = s.src k := h1
    rw [hq]
    have hr : Rows { q.2 with moves := fun j => q.2.moves j + 1 } (a ++ b) := by
      intro j; show q.2.cols j = _; rw [h2]; exact h j
    have hr' := hr.emplace (i + 1) (s.src k)
    have hl : vectorInsert (i + 1) [s.src k] (a ++ b) = (a ++ [s.src k]) ++ b := by
      rw [← hi]; simp [vectorInsert]
    rw [hl] at hr'
    generalize hE : DpvRange.emplace (i + 1) (s.src k) { q.2 with moves := fun j => q.2.moves j + 1 } = e at *
    obtain ⟨g1, g2, g3, g4, g5⟩ := ih (k + 1) (i + 1) e (a ++ [s.src k]) (by simp [hi]) hr'
    have e2 : e.src = q.2.src := by rw [← hE]; rfl
    have e3 : ∀ j, e.copies j = q.2.copies j + 1 := fun _ => by rw [← hE]; rfl
    have e4 : ∀ j, e.moves j = q.2.moves j + 1 := fun _ => by rw [← hE]; rfl
    have e5 : e.derefs = q.2.derefs := by rw [← hE]; rfl
    rw [e2] at g1 g2
    rw [e5, h6] at g5
    refine ⟨?_, fun t j => ?_, fun j => ?_, fun j => ?_, fun t => ?_⟩
    · have : (List.range' (k + 1) c).map q.2.src = (List.range' (k + 1) c).map s.src := by
        apply List.map_congr_left
        intro t ht
        have := List.mem_range'_1.1 ht
        funext j
        have hne : t ≠ k := by omega
        rw [h5]; simp [hne, deref]
      rw [this] at g1
      simpa [List.range'_succ] using g1
    · rw [g2, h5]
      by_cases ht : t = k
      · subst ht
        have : ¬ (t + 1 ≤ t) := by omega
        simp [this, deref]
      · have : (k + 1 ≤ t ∧ t < k + 1 + c) ↔ (k ≤ t ∧ t < k + (c + 1)) := by omega
        simp [this, ht, deref]
    · rw [g3, e3, h3]
      simp only [deref]
      split <;> omega
    · rw [g4, e4, h4]
      simp only [deref]
      split <;> omega
    · rw [g5]
      simp only [deref, incr]
      by_cases ht : t = k
      · subst ht
        have h1 : ¬ (t + 1 ≤ t ∧ t < t + 1 + c) := by omega
        have h2 : t ≤ t ∧ t < t + (c + 1) := by omega
        simp only [h1, h2, if_true, if_false]; simp
      · have : (k + 1 ≤ t ∧ t < k + 1 + c) ↔ (k ≤ t ∧ t < k + (c + 1)) := by omega
        simp only [this, ht, if_false]

end AnyAny.DpvRange
