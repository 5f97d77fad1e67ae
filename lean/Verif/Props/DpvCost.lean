import Verif.Spec.DpvCost
/-
Property C133: adding elements to a `data_parallel_vector` moves as many elements as with `std::vector`, up to a constant factor. True at the end and for
single elements; false for ranges inserted before other elements.
-/
namespace AnyAny.DpvCost

variable {grow : Nat → Nat}

/-! ### At the end -/

/-- A column after `t` elements were appended. -/
def Good (k t len : Nat) (c : Col) : Prop := len ≤ c.cap ∧ c.moves ≤ k * c.cap ∧ c.moves ≤ (k + 1) * t ∧ len ≤ t

theorem good_emplace {k t len : Nat} {c : Col} (G : Geometric grow k) (h : Good k t len c) : Good k (t + 1) (len + 1) (c.emplace grow len len) := by
  obtain ⟨h1, h2, h3, h4⟩ := h
  have m1 : (k + 1) * t ≤ (k + 1) * (t + 1) := Nat.mul_le_mul_left _ (by omega)
  unfold Col.emplace
  split
  · exact ⟨by simpa using ‹_›, by simpa using h2, by simp; omega, by omega⟩
  · have e : len = c.cap := by omega
    have g := G c.cap
    have m2 : (k + 1) * len ≤ (k + 1) * t := Nat.mul_le_mul_left _ h4
    have m3 : (k + 1) * c.cap = k * c.cap + c.cap := Nat.succ_mul _ _
    refine ⟨by simp only; omega, ?_, ?_, by omega⟩
    · simp only
      subst e
      omega
    · simp only
      subst e
      omega

/-- All columns. -/
def GoodAll (k t : Nat) (d : Dpv) : Prop := ∀ c ∈ d.cols, Good k t d.len c

theorem good_emplaceBack {k t : Nat} {d : Dpv} (G : Geometric grow k) (h : GoodAll k t d) : GoodAll k (t + 1) (emplaceBack grow d) := by
  intro c hc
  obtain ⟨c', hc', rfl⟩ := List.mem_map.1 hc
  exact good_emplace G (h c' hc')

theorem good_appendLoop {k : Nat} (G : Geometric grow k) (m : Nat) : ∀ {t : Nat} {d : Dpv}, GoodAll k t d → GoodAll k (t + m) (appendLoop grow m d) := by
  induction m with
  | zero => intro t d h; exact h
  | succ m ih =>
    intro t d h
    have := ih (good_emplaceBack G h)
    rw [show t + 1 + m = t + (m + 1) by omega] at this
    exact this

theorem good_runAll {k : Nat} (G : Geometric grow k) (ops : List EndOp) : ∀ {t : Nat} {d : Dpv}, GoodAll k t d →
    GoodAll k (t + appended ops) (runAll grow ops d) := by
  induction ops with
  | nil => intro t d h; exact h
  | cons o ops ih =>
    intro t d h
    unfold runAll
    rw [List.foldl_cons]
    cases o with
    | pushBack =>
      have := ih (good_emplaceBack G h)
      rw [show t + 1 + appended ops = t + appended (.pushBack :: ops) by simp only [appended]; omega] at this
      exact this
    | insertEnd ra m =>
      have e : EndOp.run grow (.insertEnd ra m) d = appendLoop grow m d := by simp [EndOp.run, insertRange]
      have := ih (good_appendLoop G m h)
      rw [show t + m + appended ops = t + appended (.insertEnd ra m :: ops) by simp only [appended]; omega] at this
      rw [e]
      exact this
    | popBack =>
      refine ih (d := popBack d) fun c hc => ?_
      obtain ⟨h1, h2, h3, h4⟩ := h c hc
      exact ⟨by simp only [popBack]; omega, h2, h3, by simp only [popBack]; omega⟩
    | clear =>
      refine ih (d := clear d) fun c hc => ?_
      obtain ⟨h1, h2, h3, h4⟩ := h c hc
      exact ⟨Nat.zero_le _, h2, h3, Nat.zero_le _⟩

/-- **C133 (at the end).** Appending takes constant time per element on average: whatever `push_back`, `emplace_back`, `insert(end(), first, last)`, `pop_back`
and `clear` do in any order to an empty container, each column has moved at most `(k + 1) * t` elements when `t` were appended, if full vectors
grow by at least one `k`-th. -/
theorem C133_append {k : Nat} (G : Geometric grow k) (n : Nat) (ops : List EndOp) :
    ∀ c ∈ (runAll grow ops ⟨0, List.replicate n ⟨0, 0⟩⟩).cols, c.moves ≤ (k + 1) * appended ops := by
  intro c hc
  have h : GoodAll k 0 ⟨0, List.replicate n ⟨0, 0⟩⟩ := by
    intro c hc
    rw [(List.mem_replicate.1 hc).2]
    exact ⟨Nat.le_refl _, Nat.zero_le _, Nat.zero_le _, Nat.le_refl _⟩
  have := (good_runAll G ops h c hc).2.2.1
  rwa [Nat.zero_add] at this

theorem appendLoop_len (m : Nat) : ∀ d : Dpv, (appendLoop grow m d).len = d.len + m := by
  induction m with
  | zero => intro d; rfl
  | succ m ih => intro d; rw [appendLoop, ih]; simp only [emplaceBack, emplace]; omega

theorem insertLoop_len (m : Nat) : ∀ (i : Nat) (d : Dpv), (insertLoop grow i m d).len = d.len + m := by
  induction m with
  | zero => intro i d; rfl
  | succ m ih => intro i d; rw [insertLoop, ih]; simp only [emplace]; omega

/-- **C133 (sizes).** Every form adds as many elements as it is given. -/
theorem C133_sizes (ra : Bool) (i m : Nat) (d : Dpv) : (insertRange grow ra i m d).len = d.len + m ∧ (emplace grow i d).len = d.len + 1 := by
  refine ⟨?_, rfl⟩
  unfold insertRange
  split
  · exact appendLoop_len m d
  · rw [insertLoop_len]
    cases ra <;> rfl

/-- **C133 (sizes after programs).** Programs of operations at the end leave as many elements as they should. -/
theorem C133_program_sizes (ops : List EndOp) (d : Dpv) : (runAll grow ops d).len = sizeAfter ops d.len := by
  induction ops generalizing d with
  | nil => rfl
  | cons o ops ih =>
    unfold runAll
    rw [List.foldl_cons]
    refine (ih _).trans ?_
    cases o with
    | insertEnd ra m => simp only [EndOp.run, sizeAfter, (C133_sizes ra d.len m d).1]
    | _ => rfl

/-! ### Single elements -/

/-- **C133 (single elements).** `insert(pos, value)`, `emplace` and `push_back` do to each column what `std::vector` does. -/
theorem C133_single (i j : Nat) (d : Dpv) : (emplace grow i d).column j = (d.column j).map (Vec.insert grow i 1) := by
  unfold Dpv.column emplace
  simp only [List.getElem?_map, Option.map_map]
  congr 1
  funext c
  simp only [Function.comp, Vec.insert, Col.emplace]
  by_cases h : d.len < c.cap
  · have : d.len + 1 ≤ c.cap := h
    simp [h, this]
  · have : ¬ d.len + 1 ≤ c.cap := by omega
    simp [h, this]

/-- **C133 (copies of a value).** `insert(pos, count, value)` does to each column what `std::vector` does. -/
theorem C133_count (i m j : Nat) (d : Dpv) : (insertCount grow i m d).column j = (d.column j).map (Vec.insert grow i m) := by
  unfold Dpv.column insertCount
  simp only [List.getElem?_map, Option.map_map]
  congr 1
  funext c
  simp only [Function.comp, Vec.insert, Col.insertCount]
  by_cases h0 : m = 0
  · simp [h0]
  · by_cases h : d.len + m ≤ c.cap <;> simp [h0, h]

/-! ### Ranges -/

theorem map_map_col (f g : Col → Col) (l : List Col) : (l.map f).map g = l.map fun c => g (f c) := by simp

/-- The columns after the loop, if there is room. -/
theorem insertLoop_room (m : Nat) : ∀ (i : Nat) (d : Dpv), i ≤ d.len → (∀ c ∈ d.cols, d.len + m ≤ c.cap) →
    (insertLoop grow i m d).cols = d.cols.map fun c => { c with moves := c.moves + m * (d.len - i) } := by
  induction m with
  | zero =>
    intro i d _ _
    rw [insertLoop]
    simp
  | succ m ih =>
    intro i d hi hc
    have he : (emplace grow i d).cols = d.cols.map fun c => { c with moves := c.moves + (d.len - i) } := by
      refine List.map_congr_left fun c hm => ?_
      unfold Col.emplace
      rw [if_pos (by have := hc c hm; omega)]
    rw [insertLoop, ih (i + 1) (emplace grow i d) (by simp only [emplace]; omega)]
    · rw [he, map_map_col]
      refine List.map_congr_left fun c _ => ?_
      simp only [emplace, Col.mk.injEq, true_and]
      rw [show d.len + 1 - (i + 1) = d.len - i by omega, Nat.succ_mul]
      omega
    · intro c hm
      rw [he] at hm
      obtain ⟨c', hm', rfl⟩ := List.mem_map.1 hm
      have := hc c' hm'
      simp only [emplace]
      omega

/-- **C133, exactly (random-access iterators).** `insert(pos, first, last)` of `m` elements before `len - i` others moves each of these `m` times; before, it
moves all elements if there is no room. -/
theorem C133_range_exact (i m j : Nat) (d : Dpv) (hi : i < d.len) (v : Vec) (hv : d.column j = some v) :
    ∃ v', (insertRange grow true i m d).column j = some v' ∧
      v'.col.moves = v.col.moves + (if d.len + m ≤ v.col.cap then 0 else d.len) + m * (d.len - i) ∧ v'.col.cap = max v.col.cap (d.len + m) := by
  unfold Dpv.column at hv ⊢
  obtain ⟨c, hc, rfl⟩ := Option.map_eq_some_iff.1 hv
  have hlen := (C133_sizes (grow := grow) true i m d).1
  unfold insertRange at hlen ⊢
  rw [if_neg (by omega)] at hlen ⊢
  rw [if_pos rfl] at hlen ⊢
  rw [insertLoop_room m i (reserve (d.len + m) d) (by simp only [reserve]; omega)]
  · simp only [reserve, List.map_map, List.getElem?_map, hc, Option.map_some, Function.comp]
    refine ⟨_, rfl, ?_⟩
    simp only [Col.reserve]
    split
    · exact ⟨by simp, by omega⟩
    · exact ⟨by simp, by simp only; omega⟩
  · intro c' hm
    obtain ⟨c0, _, rfl⟩ := List.mem_map.1 hm
    simp only [reserve, Col.reserve]
    split
    · exact ‹_›
    · exact Nat.le_refl _

theorem insertLoop_least (m : Nat) : ∀ (i j : Nat) (d : Dpv) (c : Col), i ≤ d.len → d.cols[j]? = some c →
    ∃ c', (insertLoop grow i m d).cols[j]? = some c' ∧ c.moves + m * (d.len - i) ≤ c'.moves := by
  induction m with
  | zero => intro i j d c _ hc; exact ⟨c, hc, by omega⟩
  | succ m ih =>
    intro i j d c hi hc
    have h1 : (emplace grow i d).cols[j]? = some (c.emplace grow d.len i) := by simp [emplace, hc]
    obtain ⟨c', h2, h3⟩ := ih (i + 1) j (emplace grow i d) _ (by simp only [emplace]; omega) h1
    refine ⟨c', h2, ?_⟩
    have h4 : c.moves + (d.len - i) ≤ (c.emplace grow d.len i).moves := by
      unfold Col.emplace
      split
      · exact Nat.le_refl _
      · simp only; omega
    simp only [emplace] at h3
    rw [show d.len + 1 - (i + 1) = d.len - i by omega] at h3
    rw [Nat.succ_mul]
    omega

/-- **C133 (other iterators).** With other iterators too each element behind the position is moved at least `m` times. -/
theorem C133_range_least (ra : Bool) (i m j : Nat) (d : Dpv) (hi : i < d.len) (v : Vec) (hv : d.column j = some v) :
    ∃ v', (insertRange grow ra i m d).column j = some v' ∧ v.col.moves + m * (d.len - i) ≤ v'.col.moves := by
  cases ra with
  | true =>
    obtain ⟨v', h1, h2, _⟩ := C133_range_exact (grow := grow) i m j d hi v hv
    exact ⟨v', h1, by omega⟩
  | false =>
    unfold Dpv.column at hv ⊢
    obtain ⟨c, hc, rfl⟩ := Option.map_eq_some_iff.1 hv
    unfold insertRange
    rw [if_neg (by omega)]
    obtain ⟨c', h1, h2⟩ := insertLoop_least (grow := grow) m i j d c (by omega) hc
    exact ⟨⟨_, c'⟩, by rw [if_neg (by decide), h1]; rfl, h2⟩

/-- **C133 (ranges), partial.** For random-access iterators the moves are at most `m` times those of `std::vector`, plus one move of each element.
Missing: a bound that does not depend on `m`. -/
theorem C133_range_partial (i m j : Nat) (d : Dpv) (hi : i < d.len) (v : Vec) (hv : d.column j = some v) (hm : 0 < m) :
    ∃ v', (insertRange grow true i m d).column j = some v' ∧ v.col.moves ≤ v'.col.moves ∧
      v'.col.moves - v.col.moves ≤ (m + 1) * ((v.insert grow i m).col.moves - v.col.moves) := by
  obtain ⟨v', h1, h2, _⟩ := C133_range_exact (grow := grow) i m j d hi v hv
  have hl : v.len = d.len := by
    unfold Dpv.column at hv
    obtain ⟨c, _, rfl⟩ := Option.map_eq_some_iff.1 hv
    rfl
  refine ⟨v', h1, by omega, ?_⟩
  unfold Vec.insert
  rw [if_neg (by omega), hl, Nat.succ_mul]
  by_cases h : d.len + m ≤ v.col.cap
  · rw [if_pos h] at h2 ⊢
    have : v.col.moves + (d.len - i) - v.col.moves = d.len - i := by omega
    simp only [this]
    omega
  · rw [if_neg h] at h2 ⊢
    have : v.col.moves + d.len - v.col.moves = d.len := by omega
    simp only [this]
    have m1 : m * (d.len - i) ≤ m * d.len := Nat.mul_le_mul_left _ (by omega)
    omega

/-- **C133 fails (one range).** For every constant `K` there is a range whose insertion moves more than `K` times as many elements as there are
elements inserted and elements behind the position, although there is room; `std::vector` moves the elements behind the position once. -/
theorem C133_range_fails (grow : Nat → Nat) (ra : Bool) (K : Nat) : ∃ (d : Dpv) (i m : Nat) (v v' : Vec), d.column 0 = some v ∧ i < d.len ∧ 0 < m ∧
    v.len + m ≤ v.col.cap ∧ (insertRange grow ra i m d).column 0 = some v' ∧
    K * (m + (d.len - i)) < v'.col.moves - v.col.moves ∧ (v.insert grow i m).col.moves - v.col.moves = d.len - i := by
  let n := 2 * K + 1
  obtain ⟨v', h1, h2⟩ := C133_range_least (grow := grow) ra 0 n 0 ⟨n, [⟨n + n, 0⟩]⟩ (Nat.succ_pos _) ⟨n, ⟨n + n, 0⟩⟩ rfl
  refine ⟨⟨n, [⟨n + n, 0⟩]⟩, 0, n, ⟨n, ⟨n + n, 0⟩⟩, v', rfl, Nat.succ_pos _, Nat.succ_pos _, Nat.le_refl _, h1, ?_, ?_⟩
  · simp only [Nat.zero_add, Nat.sub_zero] at h2 ⊢
    refine Nat.lt_of_lt_of_le ?_ h2
    have e : ∀ n, K * (n + n) = (2 * K) * n := fun n => by rw [Nat.mul_add, Nat.mul_assoc]; omega
    rw [e]
    exact Nat.mul_lt_mul_of_pos_right (by omega) (by omega)
  · unfold Vec.insert
    rw [if_neg (by omega), if_pos (Nat.le_refl _)]
    simp

/-! ### Many ranges -/

theorem insertMany_one (k : Nat) : ∀ (len mv : Nat), 0 < len → ∃ mv', insertMany grow true 1 k ⟨len, [⟨len, mv⟩]⟩ = ⟨len + k, [⟨len + k, mv'⟩]⟩ ∧
    2 * mv' = 2 * mv + 2 * (k * len) + k * (k + 1) := by
  induction k with
  | zero => intro len mv _; exact ⟨mv, rfl, by omega⟩
  | succ k ih =>
    intro len mv hl
    have e : insertRange grow true (len - 1) 1 ⟨len, [⟨len, mv⟩]⟩ = ⟨len + 1, [⟨len + 1, mv + len + 1⟩]⟩ := by
      unfold insertRange
      rw [if_neg (by simp only; omega), if_pos rfl]
      simp only [insertLoop, emplace, reserve, List.map_cons, List.map_nil, Col.reserve]
      rw [if_neg (by omega)]
      simp only [Col.emplace]
      rw [if_pos (by omega)]
      simp only [Dpv.mk.injEq, List.cons.injEq, Col.mk.injEq, true_and, and_true]
      omega
    obtain ⟨mv', h1, h2⟩ := ih (len + 1) (mv + len + 1) (by omega)
    refine ⟨mv', ?_, ?_⟩
    · rw [insertMany]
      simp only
      rw [e, h1, show len + 1 + k = len + (k + 1) by omega]
    · simp only [Nat.mul_succ, Nat.succ_mul, Nat.mul_add, Nat.add_mul, Nat.mul_one, Nat.one_mul] at h2 ⊢
      omega

/-- **C133 fails (many ranges).** A range of one element, given by random-access iterators, is inserted before the last element `k` times: each time all
elements are moved to new memory, altogether more than `k * k / 2` moves, however vectors grow. -/
theorem C133_many_ranges_fails (grow : Nat → Nat) (k : Nat) : ∃ v, (insertMany grow true 1 k ⟨1, [⟨1, 0⟩]⟩).column 0 = some v ∧ v.len = k + 1 ∧
    2 * v.col.moves = k * k + 3 * k := by
  obtain ⟨mv, h1, h2⟩ := insertMany_one (grow := grow) k 1 0 (by omega)
  refine ⟨⟨1 + k, ⟨1 + k, mv⟩⟩, by rw [h1]; rfl, by simp only; omega, ?_⟩
  simp only [Nat.mul_succ] at h2
  simp only
  omega

theorem vec_insertMany {k : Nat} (G : Geometric grow k) (n : Nat) : ∀ (v : Vec), 0 < v.len → v.len ≤ v.col.cap → v.col.moves ≤ k * v.col.cap + (v.len - 1) →
    v.col.moves ≤ (k + 2) * v.len → (Vec.insertMany grow 1 n v).len = v.len + n ∧ (Vec.insertMany grow 1 n v).col.moves ≤ (k + 2) * (v.len + n) := by
  induction n with
  | zero => intro v _ _ _ h; exact ⟨rfl, h⟩
  | succ n ih =>
    intro v hl hc hm ht
    have m1 : (k + 2) * (v.len + 1) = (k + 2) * v.len + (k + 2) := Nat.mul_succ _ _
    rw [Vec.insertMany]
    have key : ∀ w : Vec, w = v.insert grow (v.len - 1) 1 → w.len = v.len + 1 ∧ w.len ≤ w.col.cap ∧ w.col.moves ≤ k * w.col.cap + (w.len - 1) ∧
        w.col.moves ≤ (k + 2) * w.len := by
      intro w hw
      unfold Vec.insert at hw
      rw [if_neg (by decide)] at hw
      by_cases h : v.len + 1 ≤ v.col.cap
      · rw [if_pos h] at hw
        subst hw
        refine ⟨rfl, h, ?_, ?_⟩
        · simp only; omega
        · simp only; omega
      · rw [if_neg h] at hw
        have e : v.len = v.col.cap := by omega
        have g := G v.col.cap
        have m3 : (k + 1) * v.col.cap = k * v.col.cap + v.col.cap := Nat.succ_mul _ _
        have m4 : (k + 2) * v.len = k * v.len + 2 * v.len := Nat.add_mul _ _ _
        have m5 : k * v.len = k * v.col.cap := by rw [e]
        subst hw
        refine ⟨rfl, by simp only; omega, ?_, ?_⟩
        · simp only
          rw [e] at *
          omega
        · simp only
          omega
    obtain ⟨k1, k2, k3, k4⟩ := key _ rfl
    obtain ⟨h1, h2⟩ := ih _ (by omega) k2 k3 k4
    rw [k1] at h1 h2
    exact ⟨by omega, by rwa [show v.len + 1 + n = v.len + (n + 1) by omega] at h2⟩

/-- `std::vector` moves a constant number of elements for each of these insertions on average. -/
theorem C133_vector {k : Nat} (G : Geometric grow k) (n : Nat) : (Vec.insertMany grow 1 n ⟨1, ⟨1, 0⟩⟩).len = n + 1 ∧
    (Vec.insertMany grow 1 n ⟨1, ⟨1, 0⟩⟩).col.moves ≤ (k + 2) * (n + 1) := by
  have := vec_insertMany G n ⟨1, ⟨1, 0⟩⟩ (by decide) (by decide) (by simp) (by simp)
  simp only at this
  rwa [Nat.add_comm 1 n] at this

/-! ### Constructors -/

theorem appendLoop_first (n m : Nat) : ∀ (len : Nat), len + m ≤ max (grow 0) 1 → 0 < len →
    appendLoop grow m ⟨len, List.replicate n ⟨max (grow 0) 1, 0⟩⟩ = ⟨len + m, List.replicate n ⟨max (grow 0) 1, 0⟩⟩ := by
  induction m with
  | zero => intro len _ _; rfl
  | succ m ih =>
    intro len h hl
    have e : emplaceBack grow ⟨len, List.replicate n ⟨max (grow 0) 1, 0⟩⟩ = ⟨len + 1, List.replicate n ⟨max (grow 0) 1, 0⟩⟩ := by
      simp only [emplaceBack, emplace, List.map_replicate, Col.emplace]
      rw [if_pos (by omega)]
      simp
    rw [appendLoop, e, ih (len + 1) (by omega) (by omega)]
    rw [show len + 1 + m = len + (m + 1) by omega]

theorem appendLoop_add (a b : Nat) : ∀ d : Dpv, appendLoop grow (a + b) d = appendLoop grow b (appendLoop grow a d) := by
  induction a with
  | zero => intro d; rw [Nat.zero_add]; rfl
  | succ a ih => intro d; rw [Nat.succ_add, appendLoop, ih]; rfl

theorem appendLoop_mono (m : Nat) : ∀ (d : Dpv) (x : Nat), (∀ c ∈ d.cols, x ≤ c.moves) → ∀ c ∈ (appendLoop grow m d).cols, x ≤ c.moves := by
  induction m with
  | zero => intro d x h; exact h
  | succ m ih =>
    intro d x h
    refine ih _ x fun c hc => ?_
    obtain ⟨c', hc', rfl⟩ := List.mem_map.1 hc
    have := h c' hc'
    unfold Col.emplace
    split
    · simp only; omega
    · simp only; omega

theorem ofRange_eq (n m : Nat) (hm : 0 < m) (h : m ≤ max (grow 0) 1) : ofRange grow n m = ⟨m, List.replicate n ⟨max (grow 0) 1, 0⟩⟩ := by
  unfold ofRange insertRange
  rw [if_pos rfl]
  obtain ⟨k, rfl⟩ : ∃ k, m = k + 1 := ⟨m - 1, by omega⟩
  have e : emplaceBack grow ⟨0, List.replicate n ⟨0, 0⟩⟩ = ⟨1, List.replicate n ⟨max (grow 0) 1, 0⟩⟩ := by
    simp [emplaceBack, emplace, Col.emplace]
  rw [appendLoop, e, appendLoop_first n k 1 (by omega) (by omega), Nat.add_comm]

/-- **C133, exactly (constructors).** Constructing from a range of `m` elements, also given by random-access iterators, moves no elements iff they fit in the
memory the vectors allocate first; `std::vector` moves none. (Hence also for `assign`, 641-652.) -/
theorem C133_constructor_exact (n m : Nat) (hn : 0 < n) : (∀ c ∈ (ofRange grow n m).cols, c.moves = 0) ↔ m ≤ max (grow 0) 1 := by
  constructor
  · intro h
    apply Nat.le_of_not_lt
    intro hlt
    obtain ⟨k, hk⟩ : ∃ k, m = max (grow 0) 1 + (1 + k) := ⟨m - max (grow 0) 1 - 1, by omega⟩
    have h0 := ofRange_eq (grow := grow) n (max (grow 0) 1) (by omega) (Nat.le_refl _)
    have e : ∀ m, ofRange grow n m = appendLoop grow m ⟨0, List.replicate n ⟨0, 0⟩⟩ := fun m => by simp [ofRange, insertRange]
    rw [e] at h0 h
    rw [hk, appendLoop_add, h0, appendLoop_add] at h
    have hmono := appendLoop_mono (grow := grow) k (appendLoop grow 1 ⟨max (grow 0) 1, List.replicate n ⟨max (grow 0) 1, 0⟩⟩) 1 (fun c hc => by
      simp only [appendLoop, emplaceBack, emplace, List.map_replicate, Col.emplace] at hc
      rw [(List.mem_replicate.1 hc).2, if_neg (by omega)]
      simp only
      omega)
    have hne : (appendLoop grow k (appendLoop grow 1 ⟨max (grow 0) 1, List.replicate n ⟨max (grow 0) 1, 0⟩⟩)).cols ≠ [] := by
      have hlen : ∀ (m : Nat) (d : Dpv), (appendLoop grow m d).cols.length = d.cols.length := by
        intro m
        induction m with
        | zero => intro d; rfl
        | succ m ih => intro d; rw [appendLoop, ih]; simp [emplaceBack, emplace]
      intro h'
      have := congrArg List.length h'
      rw [hlen, hlen] at this
      simp at this
      omega
    obtain ⟨c, hc⟩ := List.exists_mem_of_ne_nil _ hne
    have h1 := hmono c hc
    have h2 := h c hc
    omega
  · intro h c hc
    by_cases hm : m = 0
    · subst hm
      simp only [ofRange, insertRange, appendLoop, if_pos] at hc
      rw [(List.mem_replicate.1 hc).2]
    · rw [ofRange_eq n m (by omega) h] at hc
      rw [(List.mem_replicate.1 hc).2]

/-- **C133 fails (constructors).** A vector that grows from nothing to one element (as libstdc++, libc++ and MSVC do) moves elements if it is constructed from two
or more. -/
theorem C133_constructor_fails (hg : grow 0 ≤ 1) (n m : Nat) (hn : 0 < n) (hm : 2 ≤ m) : ∃ c ∈ (ofRange grow n m).cols, 0 < c.moves := by
  apply Classical.byContradiction
  intro h
  have := (C133_constructor_exact (grow := grow) n m hn).1 fun c hc => by
    apply Classical.byContradiction
    intro h'
    exact h ⟨c, hc, by omega⟩
  omega

/-! ### Examples -/

/-- Capacities double. -/
def exDouble : Nat → Nat := fun c => 2 * c

theorem exDouble_geometric : Geometric exDouble 1 := fun c => by simp only [exDouble]; omega

-- one and a half times, rounded down
example : Geometric (fun c => c + c / 2) 3 := fun c => by simp only; omega

example : runAll exDouble [.pushBack, .insertEnd true 3, .popBack, .pushBack, .pushBack] ⟨0, [⟨0, 0⟩, ⟨0, 0⟩]⟩ = ⟨5, [⟨8, 7⟩, ⟨8, 7⟩]⟩ := by decide
-- ten elements before ten others: 100 moves; `std::vector`: 10
example : insertRange exDouble true 0 10 ⟨10, [⟨20, 0⟩]⟩ = ⟨20, [⟨20, 100⟩]⟩ ∧ Vec.insert exDouble 0 10 ⟨10, ⟨20, 0⟩⟩ = ⟨20, ⟨20, 10⟩⟩ := by decide
example : insertMany exDouble true 1 20 ⟨1, [⟨1, 0⟩]⟩ = ⟨21, [⟨21, 230⟩]⟩ ∧ Vec.insertMany exDouble 1 20 ⟨1, ⟨1, 0⟩⟩ = ⟨21, ⟨32, 46⟩⟩ := by decide +kernel
example : ofRange exDouble 2 5 = ⟨5, [⟨8, 7⟩, ⟨8, 7⟩]⟩ := by decide

end AnyAny.DpvCost
