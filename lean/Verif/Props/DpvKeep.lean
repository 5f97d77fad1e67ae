import Verif.Spec.DpvKeep
/-
Property C134: memory that was reserved is kept and used. True for all operations but `assign` and assignment of `{...}`.
-/
namespace AnyAny.DpvKeep

variable {E : Env}

theorem foldl_min_le (n : Nat) : ∀ (cs : List Col) (a : Nat), n ≤ cs.foldl (fun a c => min a c.cap) a ↔ n ≤ a ∧ ∀ c ∈ cs, n ≤ c.cap := by
  intro cs
  induction cs with
  | nil => intro a; simp
  | cons c cs ih =>
    intro a
    rw [List.foldl_cons, ih]
    simp only [List.mem_cons, forall_eq_or_imp, Nat.le_min]
    exact and_assoc

/-- **C134 (`capacity()`).** It is at least `n` iff every column has room for `n` elements. -/
theorem C134_capacity (d : Dpv) (h : d.cols ≠ []) (n : Nat) : n ≤ d.capacity ↔ ∀ c ∈ d.cols, n ≤ c.cap := by
  unfold Dpv.capacity
  split
  · exact absurd ‹_› h
  · rename_i c cs e
    rw [e, foldl_min_le]
    simp

theorem emplaceLoop_len (m : Nat) : ∀ d : Dpv, (emplaceLoop E m d).len = d.len + m ∧ (emplaceLoop E m d).dflt = d.dflt ∧
    (emplaceLoop E m d).cols.length = d.cols.length := by
  induction m with
  | zero => intro d; exact ⟨rfl, rfl, rfl⟩
  | succ m ih =>
    intro d
    have := ih (emplace E d)
    rw [emplaceLoop]
    refine ⟨by rw [this.1]; simp only [emplace]; omega, this.2.1, ?_⟩
    rw [this.2.2]
    simp [emplace, Dpv.room]

theorem insertRange_len (ra : Bool) (i m : Nat) (d : Dpv) : (insertRange E ra i m d).len = d.len + m ∧
    (insertRange E ra i m d).cols.length = d.cols.length := by
  unfold insertRange
  split
  · exact ⟨(emplaceLoop_len m d).1, (emplaceLoop_len m d).2.2⟩
  · cases ra
    · exact ⟨(emplaceLoop_len m d).1, (emplaceLoop_len m d).2.2⟩
    · have := emplaceLoop_len (E := E) m (d.room E (d.len + m))
      exact ⟨this.1, by rw [if_pos rfl, this.2.2]; simp [Dpv.room]⟩

/-- **C134 (sizes).** Every operation leaves as many elements as it should, and all columns. -/
theorem C134_sizes (o : Op) (d : Dpv) : (o.run E d).len = sizeAfter o d.len ∧ (o.run E d).cols.length = d.cols.length := by
  cases o with
  | insertRange ra i m => exact insertRange_len ra i m d
  | assignRange ra m =>
    have := insertRange_len (E := E) ra 0 m ⟨0, List.replicate d.cols.length ⟨0, 0⟩, true⟩
    refine ⟨?_, ?_⟩
    · show (ofRange E ra d.cols.length m).len = m
      unfold ofRange
      rw [this.1]
      simp
    · simp [Op.run, moveFrom, ofRange, this.2]
  | assignCount m => simp [Op.run, moveFrom, ofCount, sizeAfter]
  | _ => simp [Op.run, sizeAfter, Dpv.room, emplace]

theorem insertRange_dflt (ra : Bool) (i m : Nat) (d : Dpv) : (insertRange E ra i m d).dflt = d.dflt := by
  unfold insertRange
  split
  · exact (emplaceLoop_len m d).2.1
  · cases ra
    · exact (emplaceLoop_len m d).2.1
    · exact (emplaceLoop_len (E := E) m (d.room E (d.len + m))).2.1

/-- **C134 (the allocator).** Whether the allocator is equal to a default constructed one changes only by `assign`, and only if allocators are propagated:
then it is from then on. -/
theorem C134_allocator (o : Op) (d : Dpv) : (o.run E d).dflt = true ↔ d.dflt = true ∨ (o.assigns = true ∧ E.prop = true) := by
  cases o with
  | insertRange ra i m => simp [Op.run, insertRange_dflt, Op.assigns]
  | assignRange ra m => simp [Op.run, moveFrom, Op.assigns, or_comm]
  | assignCount m => simp [Op.run, moveFrom, Op.assigns, or_comm]
  | _ => simp [Op.run, Dpv.room, emplace, Op.assigns]

/-! ### Everything but `assign` -/

theorem room_eq {need len : Nat} {cs : List Col} (h : ∀ c ∈ cs, need ≤ c.cap) : cs.map (Col.room E len need) = cs := by
  conv => rhs; rw [← List.map_id cs]
  apply List.map_congr_left
  intro c hc
  simp [Col.room, h c hc]

theorem emplaceLoop_fits (m : Nat) : ∀ d : Dpv, (∀ c ∈ d.cols, d.len + m ≤ c.cap) → (emplaceLoop E m d).cols = d.cols := by
  induction m with
  | zero => intro d _; rfl
  | succ m ih =>
    intro d h
    have e : (emplace E d).cols = d.cols := room_eq fun c hc => by have := h c hc; omega
    rw [emplaceLoop, ih, e]
    rw [e]
    intro c hc
    have := h c hc
    simp only [emplace]
    omega

theorem run_fits (o : Op) (d : Dpv) (ha : o.assigns = false) (h : ∀ c ∈ d.cols, need o d.len ≤ c.cap) : (o.run E d).cols = d.cols := by
  cases o with
  | assignCount m => cases ha
  | assignRange ra m => cases ha
  | insertRange ra i m =>
    simp only [Op.run, insertRange]
    have h' : ∀ c ∈ d.cols, d.len + m ≤ c.cap := h
    split
    · exact emplaceLoop_fits m d h'
    · cases ra
      · exact emplaceLoop_fits m d h'
      · have e : d.room E (d.len + m) = d := by simp only [Dpv.room, room_eq h']
        rw [if_pos rfl, e]
        exact emplaceLoop_fits m d h'
  | popBack => rfl
  | erase => rfl
  | clear => rfl
  | _ => exact room_eq h

/-- **C134 (partial: programs without `assign`).** Memory for `n` elements is used and kept: as long as no operation needs more than `n` elements, the columns
neither allocate nor get another capacity. Missing: `assign`, false. -/
theorem C134_partial (n : Nat) (ops : List Op) (d : Dpv) (h0 : d.cols ≠ []) (hc : n ≤ d.capacity) (ha : ∀ o ∈ ops, o.assigns = false)
    (hf : Fits n ops d.len) : (runAll E ops d).cols = d.cols := by
  have hc' := (C134_capacity d h0 n).1 hc
  clear hc
  induction ops generalizing d with
  | nil => rfl
  | cons o ops ih =>
    have e := run_fits (E := E) o d (ha o (by simp)) fun c m => Nat.le_trans hf.1 (hc' c m)
    unfold runAll
    rw [List.foldl_cons]
    have := ih (o.run E d) (by rw [e]; exact h0) (fun o m => ha o (by simp [m])) (by rw [(C134_sizes o d).1]; exact hf.2) (by rw [e]; exact hc')
    unfold runAll at this
    rw [this, e]

/-- **C134 (`reserve`).** It makes `capacity()` at least `n`, and never smaller than it was; it allocates only if some column had less. -/
theorem C134_reserve (n : Nat) (d : Dpv) (h : d.cols ≠ []) : n ≤ (Op.run E (.reserve n) d).capacity ∧ d.capacity ≤ (Op.run E (.reserve n) d).capacity ∧
    (n ≤ d.capacity → Op.run E (.reserve n) d = d) := by
  have h' : (Op.run E (.reserve n) d).cols ≠ [] := by simp [Op.run, Dpv.room, h]
  refine ⟨(C134_capacity _ h' n).2 ?_, (C134_capacity _ h' _).2 ?_, ?_⟩
  · intro c hc
    obtain ⟨c', _, rfl⟩ := List.mem_map.1 hc
    unfold Col.room
    split
    · assumption
    · simp only; omega
  · intro c hc
    obtain ⟨c', m, rfl⟩ := List.mem_map.1 hc
    have := (C134_capacity d h _).1 (Nat.le_refl _) c' m
    unfold Col.room
    split
    · assumption
    · simp only; omega
  · intro hn
    simp only [Op.run, Dpv.room, room_eq ((C134_capacity d h n).1 hn)]

theorem room_le (need len x : Nat) (cs : List Col) (h : ∀ c ∈ cs, x ≤ c.cap) : ∀ c ∈ cs.map (Col.room E len need), x ≤ c.cap := by
  intro c hc
  obtain ⟨c', m, rfl⟩ := List.mem_map.1 hc
  have := h c' m
  unfold Col.room
  split
  · assumption
  · simp only; omega

theorem emplaceLoop_le (m x : Nat) : ∀ d : Dpv, (∀ c ∈ d.cols, x ≤ c.cap) → ∀ c ∈ (emplaceLoop E m d).cols, x ≤ c.cap := by
  induction m with
  | zero => intro d h; exact h
  | succ m ih => intro d h; exact ih _ (room_le _ _ _ _ h)

/-- **C134 (capacity never falls).** Without `assign` the capacity is never smaller than before. -/
theorem C134_never_falls (ops : List Op) (d : Dpv) (h0 : d.cols ≠ []) (ha : ∀ o ∈ ops, o.assigns = false) : d.capacity ≤ (runAll E ops d).capacity := by
  have key : ∀ (x : Nat) (d : Dpv), d.cols ≠ [] → (∀ c ∈ d.cols, x ≤ c.cap) → (runAll E ops d).cols ≠ [] ∧ ∀ c ∈ (runAll E ops d).cols, x ≤ c.cap := by
    intro x
    clear h0
    induction ops with
    | nil => intro d h0 h; exact ⟨h0, h⟩
    | cons o ops ih =>
      intro d h0 h
      unfold runAll
      rw [List.foldl_cons]
      refine ih (fun o m => ha o (by simp [m])) (o.run E d) ?_ ?_
      · have := (C134_sizes (E := E) o d).2
        intro e
        rw [e] at this
        exact h0 (List.eq_nil_of_length_eq_zero this.symm)
      · have hA := ha o (by simp)
        cases o with
        | assignCount m => cases hA
        | assignRange ra m => cases hA
        | insertRange ra i m =>
          simp only [Op.run, insertRange]
          split
          · exact emplaceLoop_le m x d h
          · cases ra
            · exact emplaceLoop_le m x d h
            · exact emplaceLoop_le m x _ (room_le _ _ _ _ h)
        | popBack => exact h
        | erase => exact h
        | clear => exact h
        | _ => exact room_le _ _ _ _ h
  obtain ⟨h1, h2⟩ := key d.capacity d h0 ((C134_capacity d h0 _).1 (Nat.le_refl _))
  exact (C134_capacity _ h1 _).2 h2

/-! ### `assign` -/

theorem zipWith_replicate (f : Col → Col → Col) (b : Col) : ∀ cs : List Col, List.zipWith f cs (List.replicate cs.length b) = cs.map fun c => f c b := by
  intro cs
  induction cs with
  | nil => rfl
  | cons c cs ih => simp [List.replicate_succ, ih]

theorem assignCount_cols (m : Nat) (d : Dpv) : (Op.run E (.assignCount m) d).cols =
    d.cols.map fun c => Col.moveFrom E d.dflt d.len m c (Col.room E 0 m ⟨0, 0⟩) := by
  simp only [Op.run, moveFrom, ofCount]
  rw [zipWith_replicate]

/-- **C134, exactly (`assign(m, value)`).** The capacity of a column that had one becomes what a new vector of `m` elements has, whatever was reserved, iff
the allocator is propagated or equal to a default constructed one; otherwise it does not fall. With `m > 0` there is always an allocation. -/
theorem C134_assign_exact (m j : Nat) (d : Dpv) (c : Col) (hc : d.cols[j]? = some c) : ∃ c', (Op.run E (.assignCount m) d).cols[j]? = some c' ∧
    (0 < m → c.allocs < c'.allocs) ∧
    (E.prop = true ∨ d.dflt = true → c'.cap = if m = 0 then 0 else max (E.grow 0 0 m) m) ∧ (¬ (E.prop = true ∨ d.dflt = true) → max c.cap m ≤ c'.cap) := by
  rw [assignCount_cols]
  refine ⟨_, by simp [hc]; rfl, ?_, ?_, ?_⟩
  · intro hm
    have h1 : (Col.room E 0 m ⟨0, 0⟩).allocs = 1 := by
      unfold Col.room
      rw [if_neg (by simp only; omega)]
    unfold Col.moveFrom
    split
    · simp only [h1]; omega
    · simp only [h1]
      unfold Col.room
      split
      · omega
      · simp only; omega
  · intro h
    have h' : (E.prop || d.dflt) = true := by simpa using h
    unfold Col.moveFrom
    rw [if_pos h']
    unfold Col.room
    by_cases hm : m = 0
    · simp [hm]
    · simp [hm]
  · intro h
    have h' : ¬ (E.prop || d.dflt) = true := by simpa using h
    unfold Col.moveFrom
    rw [if_neg h']
    unfold Col.room
    split <;> simp only <;> omega

theorem emplaceLoop_replicate (m : Nat) : ∀ (len : Nat) (c : Col), len ≤ c.cap → ∃ c', c.allocs ≤ c'.allocs ∧ (c.cap < len + m → c.allocs < c'.allocs) ∧
    len + m ≤ c'.cap ∧ (m = 0 → c' = c) ∧ ∀ n, (emplaceLoop E m ⟨len, List.replicate n c, true⟩).cols = List.replicate n c' := by
  induction m with
  | zero => intro len c h; exact ⟨c, Nat.le_refl _, fun h' => by omega, h, fun _ => rfl, fun _ => rfl⟩
  | succ m ih =>
    intro len c h
    have h1 : len + 1 ≤ (c.room E len (len + 1)).cap ∧ c.allocs ≤ (c.room E len (len + 1)).allocs ∧
        ((c.room E len (len + 1)).cap ≠ c.cap → c.allocs < (c.room E len (len + 1)).allocs) := by
      unfold Col.room
      split
      · exact ⟨‹_›, Nat.le_refl _, fun h => absurd rfl h⟩
      · exact ⟨by simp only; omega, by simp, fun _ => by simp⟩
    obtain ⟨c', h2, h3, h4, _, h6⟩ := ih (len + 1) (c.room E len (len + 1)) h1.1
    refine ⟨c', by omega, ?_, by omega, fun h => by omega, ?_⟩
    · intro hlt
      by_cases he : (c.room E len (len + 1)).cap = c.cap
      · have := h3 (by omega)
        omega
      · have := h1.2.2 he
        omega
    · intro n
      rw [emplaceLoop]
      have e : emplace E ⟨len, List.replicate n c, true⟩ = ⟨len + 1, List.replicate n (c.room E len (len + 1)), true⟩ := by
        simp [emplace, Dpv.room]
      rw [e]
      exact h6 n

/-- **C134, exactly (`assign(first, last)`, `assign({...})`, `= {...}`).** The same as with `assign(m, value)`: the capacity depends only on the number of
elements assigned (`K`, for which `m` have room; nothing for no elements), not on what was reserved. -/
theorem C134_assign_range_exact (ra : Bool) (m : Nat) : ∃ K, m ≤ K ∧ (m = 0 → K = 0) ∧ ∀ (d : Dpv) (j : Nat) (c : Col), d.cols[j]? = some c →
    ∃ c', (Op.run E (.assignRange ra m) d).cols[j]? = some c' ∧ (0 < m → c.allocs < c'.allocs) ∧
      (E.prop = true ∨ d.dflt = true → c'.cap = K) ∧ (¬ (E.prop = true ∨ d.dflt = true) → max c.cap m ≤ c'.cap) := by
  obtain ⟨b, _, h2, h3, h4, h5⟩ := emplaceLoop_replicate (E := E) m 0 ⟨0, 0⟩ (Nat.le_refl _)
  have hb : ∀ n, (ofRange E ra n m).cols = List.replicate n b := fun n => by
    unfold ofRange insertRange
    rw [if_pos rfl]
    exact h5 n
  refine ⟨b.cap, by omega, fun h => by rw [h4 h], ?_⟩
  intro d j c hc
  have hl : (ofRange E ra d.cols.length m).len = m := by
    unfold ofRange
    rw [(insertRange_len ra 0 m _).1]
    simp
  have e : (Op.run E (.assignRange ra m) d).cols = d.cols.map fun c => Col.moveFrom E d.dflt d.len m c b := by
    simp only [Op.run, moveFrom]
    rw [hb, hl, zipWith_replicate]
  rw [e]
  have hb1 : 0 < m → 0 < b.allocs := fun hm => h2 (by simp only; omega)
  refine ⟨_, by simp [hc]; rfl, ?_, ?_, ?_⟩
  · intro hm
    have := hb1 hm
    unfold Col.moveFrom
    split
    · simp only; omega
    · unfold Col.room
      split <;> simp only <;> omega
  · intro h
    have h' : (E.prop || d.dflt) = true := by simpa using h
    unfold Col.moveFrom
    rw [if_pos h']
  · intro h
    have h' : ¬ (E.prop || d.dflt) = true := by simpa using h
    unfold Col.moveFrom
    rw [if_neg h']
    unfold Col.room
    split <;> simp only <;> omega

/-- **C134 fails: `assign` loses reserved memory.** With an allocator that is propagated or equal to a default constructed one (always so for
`std::allocator`), after `reserve(n)`, `clear` by `assign(0, value)` leaves no memory: `capacity()` is 0. -/
theorem C134_fails (n : Nat) (d : Dpv) (h0 : d.cols ≠ []) (h : E.prop = true ∨ d.dflt = true) :
    n ≤ (runAll E [.reserve n] d).capacity ∧ (runAll E [.reserve n, .assignCount 0] d).capacity = 0 := by
  refine ⟨(C134_reserve n d h0).1, ?_⟩
  apply Nat.eq_zero_of_not_pos
  intro hpos
  have hne : (runAll E [.reserve n, .assignCount 0] d).cols ≠ [] := by
    intro e
    have := (C134_sizes (E := E) (.assignCount 0) (Op.run E (.reserve n) d)).2
    have h2 := (C134_sizes (E := E) (.reserve n) d).2
    have e' : (Op.run E (.assignCount 0) (Op.run E (.reserve n) d)).cols = [] := e
    rw [e', h2] at this
    exact h0 (List.eq_nil_of_length_eq_zero this.symm)
  obtain ⟨c, cs, e⟩ : ∃ c cs, (Op.run E (.reserve n) d).cols = c :: cs := by
    cases e : (Op.run E (.reserve n) d).cols with
    | nil =>
      have h2 := (C134_sizes (E := E) (.reserve n) d).2
      rw [e] at h2
      exact absurd (List.eq_nil_of_length_eq_zero h2.symm) h0
    | cons c cs => exact ⟨c, cs, rfl⟩
  obtain ⟨c', h1, _, h3, _⟩ := C134_assign_exact (E := E) 0 0 (Op.run E (.reserve n) d) c (by rw [e]; rfl)
  have := (C134_capacity _ hne 1).1 hpos c' (List.mem_of_getElem? h1)
  have h4 := h3 h
  simp at h4
  omega

/-- **C134 fails: a program that reserves once and then assigns at most `n` elements in each of `k` rounds** allocates in every round, in every column and
with every allocator. (A `std::vector` does not allocate after `reserve`.) -/
theorem C134_rounds_fails (n m k j : Nat) (hm : 0 < m) (_ : m ≤ n) (d : Dpv) (c : Col) (hc : (runAll E [.reserve n] d).cols[j]? = some c) :
    ∃ c', (runAll E (.reserve n :: rounds m k) d).cols[j]? = some c' ∧ c.allocs + k ≤ c'.allocs := by
  have key : ∀ (k : Nat) (d : Dpv) (c : Col), d.cols[j]? = some c → ∃ c', (runAll E (rounds m k) d).cols[j]? = some c' ∧ c.allocs + k ≤ c'.allocs := by
    intro k
    induction k with
    | zero => intro d c h; exact ⟨c, h, by omega⟩
    | succ k ih =>
      intro d c h
      obtain ⟨c1, h1, h2, _⟩ := C134_assign_exact (E := E) m j d c h
      obtain ⟨c2, h3, h4⟩ := ih _ c1 h1
      refine ⟨c2, ?_, by have := h2 hm; omega⟩
      unfold runAll rounds at *
      rw [List.replicate_succ, List.foldl_cons]
      exact h3
  exact key k _ c hc

/-- **C134 (`assign` with allocators that are neither propagated nor equal).** What was reserved stays. -/
theorem C134_assign_other_partial (m : Nat) (d : Dpv) (h0 : d.cols ≠ []) (hp : E.prop = false) (hd : d.dflt = false) :
    max d.capacity m ≤ (Op.run E (.assignCount m) d).capacity := by
  have hne : (Op.run E (.assignCount m) d).cols ≠ [] := by
    rw [assignCount_cols]
    simpa using h0
  apply (C134_capacity _ hne _).2
  intro c' hc'
  rw [assignCount_cols] at hc'
  obtain ⟨c, hc, rfl⟩ := List.mem_map.1 hc'
  obtain ⟨j, hj⟩ := List.getElem?_of_mem hc
  obtain ⟨c2, h1, _, _, h4⟩ := C134_assign_exact (E := E) m j d c hj
  rw [assignCount_cols] at h1
  simp only [List.getElem?_map, hj, Option.map_some, Option.some.injEq] at h1
  subst h1
  have := h4 (by simp [hp, hd])
  have h5 := (C134_capacity d h0 _).1 (Nat.le_refl _) c hc
  omega

/-! ### Examples -/

/-- Capacities double, or are exactly what is needed; `std::allocator`. -/
def exEnv : Env := ⟨fun _ c _ => 2 * c, true⟩

/-- Two fields, no elements. -/
def exEmpty : Dpv := ⟨0, [⟨0, 0⟩, ⟨0, 0⟩], true⟩

-- one allocation per column
example : runAll exEnv [.reserve 10, .pushBack, .insertRange true 0 5, .insertCount 2, .erase, .resize 10, .clear, .insertRange false 0 4, .popBack] exEmpty =
    ⟨3, [⟨10, 1⟩, ⟨10, 1⟩], true⟩ := by decide
example : Fits 10 [.reserve 10, .pushBack, .insertRange true 0 5, .insertCount 2, .erase, .resize 10, .clear] 0 := by simp [Fits, need, sizeAfter]
-- `assign` in a loop
example : runAll exEnv (.reserve 10 :: rounds 3 4) exEmpty = ⟨3, [⟨3, 5⟩, ⟨3, 5⟩], true⟩ := by decide
-- then there is no room for the ten elements that were reserved
example : runAll exEnv [.reserve 10, .assignRange true 1, .insertRange true 1 9] exEmpty = ⟨10, [⟨16, 6⟩, ⟨16, 6⟩], true⟩ := by decide
-- a memory resource that is not the default one
example : runAll ⟨fun _ c _ => 2 * c, false⟩ (.reserve 10 :: rounds 3 4) { exEmpty with dflt := false } = ⟨3, [⟨10, 5⟩, ⟨10, 5⟩], false⟩ := by decide

end AnyAny.DpvKeep
