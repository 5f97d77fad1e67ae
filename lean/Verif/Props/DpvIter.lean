import Verif.Model.DpvIter
/-
C56: iterators of data_parallel_vector are random access iterators, with machine integers of any width.

`At sz it d i`: `it` is an iterator to position `i` of container `d`. Sizes are below `2^(b-1)`, as `max_size()` of `std::vector` on every platform
is; offsets are the signed values `dif.toInt`.
-/
namespace AnyAny.DpvIter

variable {b : Nat}

/-- An iterator to position `i` of container `d`, not beyond its end. -/
def At (sz : Nat → BitVec b) (it : It b) (d i : Nat) : Prop := it.owner = some d ∧ it.index.toNat = i ∧ i ≤ (sz d).toNat

/-- Sizes are representable as differences. -/
def Sized (sz : Nat → BitVec b) : Prop := ∀ d, 2 * (sz d).toNat < 2 ^ b

variable {sz : Nat → BitVec b} {it jt : It b} {d i j : Nat} {m n : BitVec b}

/-- `begin()` is at position 0 and `end()` at position `size()`. -/
theorem C56_begin_end (d : Nat) : (∃ it, begin_ sz d = some it ∧ At sz it d 0) ∧ ∃ it, end_ sz d = some it ∧ At sz it d (sz d).toNat := by
  refine ⟨⟨⟨some d, 0⟩, ?_, rfl, by simp, by simp⟩, ⟨⟨some d, sz d⟩, ?_, rfl, rfl, Nat.le_refl _⟩⟩
  · simp [begin_, make, BitVec.le_def]
  · simp [end_, make, BitVec.le_def]

/-- `it + n`, for every signed `n` that stays in the range, is at position `i + n`. -/
theorem C56_add (hs : Sized sz) (h : At sz it d i) (h1 : 0 ≤ (i : Int) + n.toInt) (h2 : (i : Int) + n.toInt ≤ (sz d).toNat) :
    ∃ it', add it n = some it' ∧ At sz it' d ((i : Int) + n.toInt).toNat := by
  obtain ⟨ho, hi, hle⟩ := h
  refine ⟨{ it with index := it.index + n }, by simp [add, ho], ho, ?_, by omega⟩
  have hsz := hs d
  have hn := n.isLt
  simp only [BitVec.toNat_add, hi]
  rw [BitVec.toInt_eq_toNat_cond] at h1 h2 ⊢
  split at h1 <;> rename_i hc
  · simp only [hc, if_true] at h2 ⊢
    rw [Nat.mod_eq_of_lt (by omega)]; omega
  · simp only [hc, if_false] at h2 ⊢
    have : i + n.toNat = (i + n.toNat - 2 ^ b) + 2 ^ b := by omega
    rw [this, Nat.add_mod_right, Nat.mod_eq_of_lt (by omega)]; omega

/-- `jt - it` is the signed difference of the positions. -/
theorem C56_diff (hs : Sized sz) (h : At sz it d i) (h' : At sz jt d j) : (diff jt it).toInt = (j : Int) - i := by
  obtain ⟨_, hi, hle⟩ := h
  obtain ⟨_, hj, hle'⟩ := h'
  have hsz := hs d
  rw [BitVec.toInt_eq_toNat_cond]
  simp only [diff, BitVec.toNat_sub, hi, hj]
  by_cases hc : i ≤ j
  · have : 2 ^ b - i + j = (j - i) + 2 ^ b := by omega
    rw [this, Nat.add_mod_right, Nat.mod_eq_of_lt (by omega)]
    rw [if_pos (by omega)]; omega
  · rw [Nat.mod_eq_of_lt (by omega), if_neg (by omega)]; omega

/-- `(it + n) - it == n`. -/
theorem C56_add_diff (hs : Sized sz) (h : At sz it d i) (h1 : 0 ≤ (i : Int) + n.toInt) (h2 : (i : Int) + n.toInt ≤ (sz d).toNat) :
    ∃ it', add it n = some it' ∧ diff it' it = n := by
  obtain ⟨it', e, h'⟩ := C56_add hs h h1 h2
  refine ⟨it', e, BitVec.eq_of_toInt_eq ?_⟩
  rw [C56_diff hs h h']; omega

/-- Positions determine iterators. -/
theorem At.unique (h : At sz it d i) (h' : At sz jt d i) : it = jt := by
  obtain ⟨h1, h2, _⟩ := h
  obtain ⟨h3, h4, _⟩ := h'
  cases it; cases jt
  simp only [It.mk.injEq] at *
  exact ⟨h1.trans h3.symm, BitVec.eq_of_toNat_eq (h2.trans h4.symm)⟩

/-- `it + (jt - it) == jt`. -/
theorem C56_diff_add (hs : Sized sz) (h : At sz it d i) (h' : At sz jt d j) : add it (diff jt it) = some jt := by
  have hd := C56_diff hs h h'
  obtain ⟨it', e, h1⟩ := C56_add hs h (n := diff jt it) (by rw [hd]; omega) (by rw [hd]; have := h'.2.2; omega)
  rw [hd] at h1
  have : ((i : Int) + ((j : Int) - i)).toNat = j := by omega
  rw [this] at h1
  rw [e, h1.unique h']

/-- `(it + n) + m == it + (n + m)`, also if `n` and `m` have different signs. -/
theorem C56_add_add (hs : Sized sz) (h : At sz it d i) (h1 : 0 ≤ (i : Int) + n.toInt) (h2 : (i : Int) + n.toInt ≤ (sz d).toNat)
    (h3 : 0 ≤ (i : Int) + n.toInt + m.toInt) (h4 : (i : Int) + n.toInt + m.toInt ≤ (sz d).toNat) :
    ∃ it', (add it n >>= fun x => add x m) = some it' ∧ add it (n + m) = some it' ∧ At sz it' d ((i : Int) + n.toInt + m.toInt).toNat := by
  obtain ⟨it1, e1, a1⟩ := C56_add hs h h1 h2
  have hcast : ((((i : Int) + n.toInt).toNat : Nat) : Int) = (i : Int) + n.toInt := Int.toNat_of_nonneg h1
  obtain ⟨it2, e2, a2⟩ := C56_add hs a1 (n := m) (by rw [hcast]; exact h3) (by rw [hcast]; exact h4)
  rw [hcast] at a2
  refine ⟨it2, by rw [e1]; exact e2, ?_, a2⟩
  rw [← e2]
  have ho := h.1
  simp only [add, ho, Option.some.injEq] at e1 ⊢
  subst e1
  simp [ho, BitVec.add_assoc]

/-- `it - n` is `it + (-n)` for offsets that are not negative. -/
theorem C56_sub_partial (h : At sz it d i) (h1 : 0 ≤ n.toInt) (h2 : n.toInt ≤ i) :
    ∃ it', sub it n = some it' ∧ add it (-n) = some it' ∧ At sz it' d (i - n.toInt.toNat) := by
  obtain ⟨ho, hi, hle⟩ := h
  have hn := n.isLt
  have hu : (n.toNat : Int) = n.toInt := by
    rw [BitVec.toInt_eq_toNat_cond] at h1 ⊢
    split at h1 <;> rename_i hc
    · rw [if_pos hc]
    · omega
  have hle2 : n.toNat ≤ i := by omega
  refine ⟨{ it with index := it.index - n }, ?_, ?_, ho, ?_, by omega⟩
  · simp [sub, BitVec.le_def, hi, hle2]
  · simp [add, ho, BitVec.sub_eq_add_neg]
  · have := it.index.isLt
    simp only [BitVec.toNat_sub, hi] at this ⊢
    have : 2 ^ b - n.toNat + i = (i - n.toNat) + 2 ^ b := by omega
    rw [this, Nat.add_mod_right, Nat.mod_eq_of_lt (by omega)]; omega

/-- The law fails for negative offsets: the assertion of `-=` compares unsigned values, and fails although `it + (-n)` is in range. -/
theorem C56_fails (hs : Sized sz) (h : At sz it d i) (h1 : n.toInt < 0) : sub it n = none := by
  obtain ⟨ho, hi, hle⟩ := h
  have hsz := hs d
  have hn := n.isLt
  have : ¬n ≤ it.index := by
    rw [BitVec.le_def, hi]
    rw [BitVec.toInt_eq_toNat_cond] at h1
    split at h1 <;> omega
  simp [sub, this]

/-- `<=>` and `==` are those of the positions. -/
theorem C56_order (h : At sz it d i) (h' : At sz jt d j) : cmp it jt = some (compare i j) ∧ eq it jt = some (i == j) := by
  obtain ⟨h1, h2, _⟩ := h
  obtain ⟨h3, h4, _⟩ := h'
  refine ⟨by simp [cmp, h1, h3, h2, h4], ?_⟩
  simp only [eq, h1, h3, if_true, Option.some.injEq]
  rw [← h2, ← h4, Bool.eq_iff_iff]
  simp [BitVec.toNat_inj]

/-- `++` and `--` move by one position; `*it` is the element at the position, `it[n]` the one at `i + n`. -/
theorem C56_step (hs : Sized sz) (h : At sz it d i) :
    (i < (sz d).toNat → (∃ it', inc sz it = some it' ∧ At sz it' d (i + 1)) ∧ deref sz it = some (d, i)) ∧
    (0 < i → ∃ it', dec it = some it' ∧ At sz it' d (i - 1)) ∧
    (0 ≤ (i : Int) + n.toInt → (i : Int) + n.toInt < (sz d).toNat → at_ sz it n = some (d, ((i : Int) + n.toInt).toNat)) ∧
    (atEnd sz it = true ↔ i = (sz d).toNat) := by
  have hsz := hs d
  refine ⟨fun hlt => ⟨?_, ?_⟩, fun hpos => ?_, fun h1 h2 => ?_, ?_⟩
  · obtain ⟨ho, hi, hle⟩ := h
    refine ⟨{ it with index := it.index + 1 }, ?_, ho, ?_, by omega⟩
    · have : it.index ≠ sz d := fun hc => by rw [← hc, hi] at hlt; omega
      simp [inc, ho, this]
    · have hb : 1 < 2 ^ b := by omega
      have h1 : (1 : BitVec b).toNat = 1 := by simp [Nat.mod_eq_of_lt hb]
      simp only [BitVec.toNat_add, hi, h1]
      rw [Nat.mod_eq_of_lt (by omega)]
  · obtain ⟨ho, hi, hle⟩ := h
    simp [deref, ho, BitVec.lt_def, hi, hlt]
  · obtain ⟨ho, hi, hle⟩ := h
    have hb : 1 < 2 ^ b := by omega
    have h1 : (1 : BitVec b).toNat = 1 := by simp [Nat.mod_eq_of_lt hb]
    refine ⟨{ it with index := it.index - 1 }, ?_, ho, ?_, by omega⟩
    · have : it.index ≠ 0 := fun hc => by rw [hc] at hi; simp at hi; omega
      simp only [dec]
      rw [if_pos this]
    · simp only [BitVec.toNat_sub, hi, h1]
      have : 2 ^ b - 1 + i = (i - 1) + 2 ^ b := by omega
      rw [this, Nat.add_mod_right, Nat.mod_eq_of_lt (by omega)]
  · obtain ⟨it', e, ho, hi, hle⟩ := C56_add hs h h1 (by omega)
    simp only [at_, e, bind, Option.bind, deref, ho, BitVec.lt_def, hi]
    rw [if_pos (by omega)]
  · obtain ⟨ho, hi, hle⟩ := h
    simp only [atEnd, ho, beq_iff_eq]
    constructor
    · intro he; rw [he, hi]
    · intro he; exact BitVec.eq_of_toNat_eq (by rw [hi, he])

/-- `v[pos]`, `front()`, `back()` refer to the elements at these positions. -/
theorem C56_access (hs : Sized sz) (d : Nat) :
    (∀ pos : BitVec b, pos.toNat < (sz d).toNat → subscript sz d pos = some (d, pos.toNat)) ∧
    (0 < (sz d).toNat → front sz d = some (d, 0) ∧ back sz d = some (d, (sz d).toNat - 1)) := by
  obtain ⟨⟨bi, eb, hb⟩, ei, ee, he⟩ := C56_begin_end (sz := sz) d
  have hsz := hs d
  refine ⟨fun pos hp => ?_, fun hpos => ⟨?_, ?_⟩⟩
  · have hi : pos.toInt = pos.toNat := by
      rw [BitVec.toInt_eq_toNat_cond, if_pos (by omega)]
    have := (C56_step hs hb (n := pos)).2.2.1 (by omega) (by omega)
    simp only [subscript, eb, bind, Option.bind]
    rw [this]; congr; omega
  · have hne : sz d ≠ 0 := fun hc => by rw [hc] at hpos; simp at hpos
    simp only [front, hne, ne_eq, not_false_eq_true, if_true, eb, bind, Option.bind]
    exact ((C56_step hs hb (n := 0)).1 hpos).2
  · have hne : sz d ≠ 0 := fun hc => by rw [hc] at hpos; simp at hpos
    obtain ⟨l, el, hl⟩ := (C56_step hs he (n := 0)).2.1 hpos
    simp only [back, hne, ne_eq, not_false_eq_true, if_true, ee, bind, Option.bind, el]
    exact ((C56_step hs hl (n := 0)).1 (by omega)).2

/-- Value-initialised iterators are equal to each other; an iterator without a container, value-initialised or not, is equal to the
sentinel and may not be compared with an iterator of a container. -/
theorem C56_value_initialized (g : BitVec b) (h : At sz it d i) :
    eq (valueInit : It b) valueInit = some true ∧ cmp (valueInit : It b) valueInit = some .eq ∧ (diff (valueInit : It b) valueInit).toInt = 0 ∧
    atEnd sz (defaultInit g) = true ∧ deref sz (defaultInit g) = none ∧ eq (defaultInit g) it = none ∧ eq it (defaultInit g) = none := by
  obtain ⟨ho, -, -⟩ := h
  refine ⟨by simp [eq], by simp [cmp], by simp [diff, valueInit, defaultInit], rfl, rfl, ?_, ?_⟩ <;> simp [eq, defaultInit, ho]

/-- 64 bits, a container of 5 elements, iterators at 1 and 4: differences in both directions, and the failing `it - (-2)`. -/
example : Sized (fun _ : Nat => (5 : BitVec 64)) ∧ At (fun _ => (5 : BitVec 64)) ⟨some 0, 4⟩ 0 4 ∧
    (diff (⟨some 0, 1⟩ : It 64) ⟨some 0, 4⟩).toInt = -3 ∧ add (⟨some 0, 4⟩ : It 64) (-3) = some ⟨some 0, 1⟩ ∧
    sub (⟨some 0, 1⟩ : It 64) (-2) = none ∧ add (⟨some 0, 1⟩ : It 64) 2 = some ⟨some 0, 3⟩ := by
  refine ⟨fun _ => (by decide : 2 * (5 : BitVec 64).toNat < 2 ^ 64), ⟨rfl, rfl, by decide⟩, by decide, by decide, by decide, by decide⟩

end AnyAny.DpvIter
