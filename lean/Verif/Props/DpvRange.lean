import Verif.Lemmas.DpvRange
/-
C88: elements that are added to a `data_parallel_vector<T>` have the values of the arguments. C89: how often arguments are read and copied.
-/
namespace AnyAny.DpvRange

variable {n : Nat} {V : Fin n → Type} {moved : (j : Fin n) → V j → V j} {m : Mode}

/-- **C88**. `insert(pos, first, last)`, `insert(pos, {...})`: the container has the contents of a `std::vector<T>` after the same call. The
objects of the range are as before, or moved from once if the iterators give xvalues (`std::move_iterator`). For all orders in which a
compiler may evaluate arguments. Not covered, because it is not so (`C88_xvalues_exact`, `C88_xvalues_fails`): xvalues inserted before
other elements, if the type has two or more fields. -/
theorem C88_insert_partial (hn : 0 < n) {ord : Nat → List (Fin n)} (ho : Orders ord) {s : St V} {l} (h : Rows s l) {i c : Nat}
    (hi : i ≤ l.length) (hm : m ≠ .xvalue ∨ i = l.length ∨ n = 1) :
    Rows (insertRange moved m ord i c s) (vectorInsert i ((List.range c).map s.src) l) ∧
    (insertRange moved m ord i c s).src = srcAfter moved m c s.src := by
  simp only [insertRange, h.size hn]
  split
  · rename_i he
    obtain ⟨h1, h2, _⟩ := pushAll_spec (moved := moved) (m := m) hn ho c 0 s l h
    refine ⟨by simpa [vectorInsert, he, List.range_eq_range'] using h1, ?_⟩
    funext k j
    rw [h2]
    simp only [srcAfter, Nat.zero_le, true_and, Nat.zero_add]
    split <;> rfl
  · rename_i he
    cases c with
    | zero => exact ⟨by simpa [vectorInsert] using h, by funext k; simp [srcAfter]⟩
    | succ c =>
      obtain ⟨h1, h2, _, _, h5, _⟩ := recArgs_spec (moved := moved) (m := m) 0 (ord 0) (ho.nodup 0) (s.src 0) s
      dsimp only
      generalize recArgs moved m 0 (ord 0) (s.src 0) s = q at *
      have hx : m = .xvalue → n = 1 := fun hx => by
        rcases hm with hm | hm | hm
        · exact absurd hx hm
        · exact absurd hm he
        · exact hm
      have hq : q.1 = s.src 0 := by
        funext j
        rw [h1]
        simp only [ho.mem, if_true]
        split
        · rename_i hxv
          have hlt : (ord 0).idxOf j < (ord 0).length := List.idxOf_lt_length_iff.2 (ho.mem 0 j)
          have hl := ho.len 0
          have h1 := hx hxv
          have : (ord 0).idxOf j = 0 := by omega
          rw [this]; rfl
        · rfl
      have hr : Rows q.2 l := by intro j; rw [h2]; exact h j
      have hr' := hr.emplace i q.1
      have hl : vectorInsert i [q.1] l = (l.take i ++ [q.1]) ++ l.drop i := by simp [vectorInsert]
      rw [hl] at hr'
      obtain ⟨g1, g2, _⟩ := insertRest_spec (moved := moved) (m := m) c 1 i (emplace i q.1 q.2) (l.take i ++ [q.1]) (l.drop i)
        (by simp; omega) hr'
      have e2 : (emplace i q.1 q.2).src = q.2.src := rfl
      rw [e2] at g1 g2
      have hs : (List.range' 1 c).map q.2.src = (List.range' 1 c).map s.src := by
        apply List.map_congr_left
        intro k hk
        have := List.mem_range'_1.1 hk
        funext j
        have hne : k ≠ 0 := by omega
        rw [h5]; simp [hne]
      refine ⟨?_, ?_⟩
      · rw [hs, hq] at g1
        simpa [vectorInsert, List.range_eq_range', List.range'_succ, hq] using g1
      · funext k j
        rw [g2, h5]
        simp only [srcAfter, ho.len]
        by_cases hxv : m = .xvalue
        · cases k with
          | zero => simp [hxv, hx hxv, iter]
          | succ k =>
            have : (1 ≤ k + 1 ∧ k + 1 < 1 + c) ↔ k + 1 < c + 1 := by omega
            simp only [hxv, true_and, this]
            split <;> simp
        · simp [hxv]

/-- **C88**. `data_parallel_vector(first, last)`, `assign(first, last)`, `assign({...})`: whatever the iterators are. -/
theorem C88_rangeCtor (hn : 0 < n) {ord : Nat → List (Fin n)} (ho : Orders ord) (s : St V) (c : Nat) :
    Rows (rangeCtor moved m ord c s) ((List.range c).map s.src) ∧ (rangeCtor moved m ord c s).src = srcAfter moved m c s.src := by
  have h : Rows { s with cols := fun _ => [] } [] := fun _ => rfl
  have := C88_insert_partial (moved := moved) (m := m) hn ho h (i := 0) (c := c) (Nat.le_refl 0) (.inr (.inl rfl))
  simpa [vectorInsert, rangeCtor] using this

/-- **C88**. `push_back(v)`, `insert(pos, v)`: the new element has the value of the argument, which is as before if it is an lvalue, and moved
from once if it is an xvalue. -/
theorem C88_insertOne {js : List (Fin n)} (hj : js.Perm (List.finRange n)) {s : St V} {l} (h : Rows s l) (i : Nat) :
    Rows (insertOne moved m js i s) (vectorInsert i [s.src 0] l) ∧ (insertOne moved m js i s).src = srcAfter moved m 1 s.src := by
  obtain ⟨h1, h2, _, _, h5, _⟩ := fieldArgs_spec (moved := moved) (m := m) 0 js (hj.nodup_iff.2 (List.nodup_finRange n)) (s.src 0) s
  have hmem : ∀ j, j ∈ js := fun j => hj.mem_iff.2 (List.mem_finRange j)
  simp only [insertOne]
  generalize fieldArgs moved m 0 js (s.src 0) s = q at *
  have hq : q.1 = s.src 0 := by funext j; rw [h1]; simp
  rw [hq]
  refine ⟨Rows.emplace (fun j => ?_) i _, ?_⟩
  · show q.2.cols j = _; rw [h2]; exact h j
  · funext k j
    show q.2.src k j = _
    rw [h5]
    simp only [srcAfter, hmem, and_true]
    by_cases hk : k = 0
    · subst hk; simp; split <;> rfl
    · have : ¬ k < 1 := by omega
      simp [hk, this]

/-- **C88**, xvalues inserted before other elements, exactly: the object for the first element is moved from once for each field; the new element
has the value of that field which is evaluated first, and of the other fields what is there after moving from them. The other elements
are right. -/
theorem C88_xvalues_exact (hn : 0 < n) {ord : Nat → List (Fin n)} (ho : Orders ord) {s : St V} {l} (h : Rows s l) {i c : Nat}
    (hi : i < l.length) :
    Rows (insertRange moved .xvalue ord i (c + 1) s)
      (vectorInsert i ((fun j => iter (moved j) ((ord 0).idxOf j) (s.src 0 j)) :: (List.range' 1 c).map s.src) l) := by
  have hne : i ≠ l.length := by omega
  simp only [insertRange, h.size hn, hne, if_false]
  obtain ⟨h1, h2, _, _, h5, _⟩ := recArgs_spec (moved := moved) (m := .xvalue) 0 (ord 0) (ho.nodup 0) (s.src 0) s
  generalize recArgs moved .xvalue 0 (ord 0) (s.src 0) s = q at *
  have hq : q.1 = fun j => iter (moved j) ((ord 0).idxOf j) (s.src 0 j) := by
    funext j; rw [h1]; simp [ho.mem]
  have hr : Rows q.2 l := by intro j; rw [h2]; exact h j
  have hr' := hr.emplace i q.1
  have hl : vectorInsert i [q.1] l = (l.take i ++ [q.1]) ++ l.drop i := by simp [vectorInsert]
  rw [hl] at hr'
  obtain ⟨g1, _⟩ := insertRest_spec (moved := moved) (m := .xvalue) c 1 i (emplace i q.1 q.2) (l.take i ++ [q.1]) (l.drop i)
    (by simp; omega) hr'
  have hs : (List.range' 1 c).map (emplace i q.1 q.2).src = (List.range' 1 c).map s.src := by
    apply List.map_congr_left
    intro k hk
    have := List.mem_range'_1.1 hk
    funext j
    have hne : k ≠ 0 := by omega
    show q.2.src k j = _
    rw [h5]; simp [hne]
  rw [hs] at g1
  rw [← hq]
  simpa [vectorInsert] using g1

/-- **C88** does not hold for xvalues inserted before other elements: for every type with two or more fields, every value `x` with fields that are
changed when they are moved from, every container that is not empty and every order of evaluation, `insert(begin(), first, last)` with move
iterators gives something else than it does for `std::vector<T>`. -/
theorem C88_xvalues_fails (hn : 2 ≤ n) {ord : Nat → List (Fin n)} (ho : Orders ord) {s : St V} {l} (h : Rows s l) (hl : l ≠ []) (c : Nat)
    (hx : ∀ j k, iter (moved j) (k + 1) (s.src 0 j) ≠ s.src 0 j) :
    ¬ Rows (insertRange moved .xvalue ord 0 (c + 1) s) (vectorInsert 0 ((List.range (c + 1)).map s.src) l) := by
  intro hr
  have hlen : 0 < l.length := List.length_pos_iff.2 hl
  have he := C88_xvalues_exact (moved := moved) (by omega) ho h (i := 0) (c := c) hlen
  have hlo := ho.len 0
  have hnd := ho.nodup 0
  generalize ord 0 = js at *
  match js, hlo, hnd with
  | [], h, _ => simp at h; omega
  | [_], h, _ => simp at h; omega
  | a :: b :: js, _, hnd =>
    have hab : (a == b) = false := beq_eq_false_iff_ne.2 fun h => by simp [h] at hnd
    have hidx : (a :: b :: js).idxOf b = 1 := by rw [List.idxOf_cons, hab]; simp
    have hc := hr b
    rw [he b] at hc
    simp only [vectorInsert, List.take_zero, List.nil_append, List.range_eq_range', List.range'_succ, List.map_cons, List.cons_append,
      List.cons.injEq, hidx] at hc
    exact hx _ 0 hc.1

/-- **C89**, exactly: how often `insert(pos, first, last)` dereferences iterators and copies fields. At the end of the container, and for
constructors and `assign`: every iterator once for each field of the type, every field of an element of the range copied twice if it is an
lvalue, and moved and copied otherwise. -/
theorem C89_end_exact (hn : 0 < n) {ord : Nat → List (Fin n)} (ho : Orders ord) {s : St V} {l} (h : Rows s l) (c : Nat) :
    (∀ j, (insertRange moved m ord l.length c s).copies j = s.copies j + if m = .lvalue then 2 * c else c) ∧
    (∀ j, (insertRange moved m ord l.length c s).moves j = s.moves j + if m = .lvalue then 0 else c) ∧
    ∀ k, (insertRange moved m ord l.length c s).derefs k = s.derefs k + if k < c then n else 0 := by
  simp only [insertRange, h.size hn, if_true]
  obtain ⟨_, _, h3, h4, h5⟩ := pushAll_spec (moved := moved) (m := m) hn ho c 0 s l h
  exact ⟨h3, h4, fun k => by simpa using h5 k⟩

/-- **C89**, exactly, before other elements: the first iterator is dereferenced once for each field of the type, and its fields copied `n + 1`
times if it is an lvalue; every other iterator is dereferenced once. -/
theorem C89_middle_exact (hn : 0 < n) {ord : Nat → List (Fin n)} (ho : Orders ord) {s : St V} {l} (h : Rows s l) {i c : Nat} (hi : i < l.length) :
    (∀ j, (insertRange moved m ord i (c + 1) s).copies j = s.copies j + if m = .lvalue then n + 1 + 2 * c else c + 1) ∧
    (∀ j, (insertRange moved m ord i (c + 1) s).moves j = s.moves j + if m = .xvalue then n + 1 + 2 * c else c + 1) ∧
    ∀ k, (insertRange moved m ord i (c + 1) s).derefs k = s.derefs k + if k = 0 then n else if k ≤ c then 1 else 0 := by
  have hne : i ≠ l.length := by omega
  simp only [insertRange, h.size hn, hne, if_false]
  obtain ⟨_, h2, h3, h4, _, h6⟩ := recArgs_spec (moved := moved) (m := m) 0 (ord 0) (ho.nodup 0) (s.src 0) s
  generalize recArgs moved m 0 (ord 0) (s.src 0) s = q at *
  have hr : Rows q.2 l := by intro j; rw [h2]; exact h j
  have hr' := hr.emplace i q.1
  have hl : vectorInsert i [q.1] l = (l.take i ++ [q.1]) ++ l.drop i := by simp [vectorInsert]
  rw [hl] at hr'
  obtain ⟨_, _, g3, g4, g5⟩ := insertRest_spec (moved := moved) (m := m) c 1 i (emplace i q.1 q.2) (l.take i ++ [q.1]) (l.drop i)
    (by simp; omega) hr'
  refine ⟨fun j => ?_, fun j => ?_, fun k => ?_⟩
  · rw [g3]
    show q.2.copies j + 1 + _ = _
    rw [h3, ho.len]
    split <;> omega
  · rw [g4]
    show q.2.moves j + _ = _
    rw [h4, ho.len]
    simp only [ho.mem, if_true]
    split <;> omega
  · rw [g5]
    show q.2.derefs k + _ = _
    rw [h6, ho.len]
    by_cases hk : k = 0
    · subst hk; simp
    · have : (1 ≤ k ∧ k < 1 + c) ↔ k ≤ c := by omega
      simp only [hk, if_false, this]; rfl

/-- **C89**, one element: `push_back(v)`, `insert(pos, v)` copy every field of an lvalue twice, and move and copy every field of an xvalue. -/
theorem C89_one_exact {js : List (Fin n)} (hj : js.Perm (List.finRange n)) (s : St V) (i : Nat) :
    (∀ j, (insertOne moved m js i s).copies j = s.copies j + if m = .lvalue then 2 else 1) ∧
    ∀ j, (insertOne moved m js i s).moves j = s.moves j + if m = .lvalue then 0 else 1 := by
  obtain ⟨_, _, h3, h4, _, _⟩ := fieldArgs_spec (moved := moved) (m := m) 0 js (hj.nodup_iff.2 (List.nodup_finRange n)) (s.src 0) s
  have hmem : ∀ j, j ∈ js := fun j => hj.mem_iff.2 (List.mem_finRange j)
  simp only [insertOne]
  generalize fieldArgs moved m 0 js (s.src 0) s = q at *
  refine ⟨fun j => ?_, fun j => ?_⟩
  · show q.2.copies j + 1 = _
    rw [h3]; simp only [hmem, and_true]; split <;> omega
  · show q.2.moves j = _
    rw [h4]; simp only [hmem, and_true]; cases m <;> simp

/-- **C89**, what holds: inserting a range of `c` elements copies no field more than `2c + n` times and dereferences no iterator more than `n` times,
nor one that is not in the range. -/
theorem C89_bound_partial (hn : 0 < n) {ord : Nat → List (Fin n)} (ho : Orders ord) {s : St V} {l} (h : Rows s l) {i c : Nat}
    (hi : i ≤ l.length) :
    (∀ j, (insertRange moved m ord i c s).copies j ≤ s.copies j + (2 * c + n)) ∧
    ∀ k, (insertRange moved m ord i c s).derefs k ≤ s.derefs k + if k < c then n else 0 := by
  by_cases he : i = l.length
  · subst he
    obtain ⟨h1, _, h3⟩ := C89_end_exact (moved := moved) (m := m) hn ho h c
    refine ⟨fun j => ?_, fun k => Nat.le_of_eq (h3 k)⟩
    rw [h1]; split <;> omega
  · cases c with
    | zero => simp [insertRange, h.size hn, he]
    | succ c =>
      obtain ⟨h1, _, h3⟩ := C89_middle_exact (moved := moved) (m := m) hn ho h (i := i) (c := c) (by omega)
      refine ⟨fun j => ?_, fun k => ?_⟩
      · rw [h1]; split <;> omega
      · rw [h3]
        by_cases hk : k = 0
        · simp [hk]
        · simp only [hk, if_false]
          by_cases hc : k ≤ c
          · have : k < c + 1 := by omega
            simp only [hc, this, if_true]; omega
          · have : ¬ k < c + 1 := by omega
            simp only [hc, this, if_false]; omega

/-- **C89** does not hold. `std::vector` dereferences every iterator of a range exactly once (C++ standard, [sequence.reqmts]); here, for every
type with two or more fields, the first iterator of a range is dereferenced more than once. -/
theorem C89_deref_fails (hn : 2 ≤ n) {ord : Nat → List (Fin n)} (ho : Orders ord) {s : St V} {l} (h : Rows s l) {i c : Nat} (hi : i ≤ l.length) :
    (insertRange moved m ord i (c + 1) s).derefs 0 > s.derefs 0 + 1 := by
  by_cases he : i = l.length
  · subst he
    rw [(C89_end_exact (moved := moved) (m := m) (by omega) ho h (c + 1)).2.2]
    simp; omega
  · rw [(C89_middle_exact (moved := moved) (m := m) (by omega) ho h (i := i) (c := c) (by omega)).2.2]
    simp; omega

/-- **C89** does not hold: `push_back(std::move(v))` and `insert(pos, std::move(v))` of a `std::vector` copy nothing; here they copy every field. (So
they do not compile for types with fields that cannot be copied.) -/
theorem C89_copy_fails {js : List (Fin n)} (hj : js.Perm (List.finRange n)) (s : St V) (i : Nat) (j : Fin n) :
    (insertOne moved .xvalue js i s).copies j > s.copies j := by
  rw [(C89_one_exact (moved := moved) (m := .xvalue) hj s i).1]; simp

/-! ### examples -/

/-- Records of two strings, numbers of characters; a string that is moved from is empty. The container has `(1, 2)`, the range `(5, 6), (7, 8)`. -/
def exSt : St fun _ : Fin 2 => Nat where
  cols := fun j => [1 + j.val]
  src := fun k j => 5 + 2 * k + j.val
  copies := fun _ => 0
  moves := fun _ => 0
  derefs := fun _ => 0

def exOrd : Nat → List (Fin 2) := fun k => if k = 0 then [1, 0] else [0, 1]

theorem exOrd_ok : Orders exOrd := by
  intro k
  by_cases h : k = 0
  · subst h; decide
  · simp only [exOrd, h, if_false]; decide

theorem exRows : Rows exSt [fun j => 1 + j.val] := fun _ => rfl

/-- A history to which `C88_insert_partial` applies, and its result. -/
example : ((insertRange (fun _ _ => 0) .lvalue exOrd 0 2 exSt).cols 0, (insertRange (fun _ _ => 0) .lvalue exOrd 0 2 exSt).cols 1) =
    ([5, 7, 1], [6, 8, 2]) := rfl
example := C88_insert_partial (moved := fun _ _ => 0) (m := .lvalue) (by decide) exOrd_ok exRows (i := 0) (c := 2) (by decide) (.inl (by decide))
/-- Moving at the end. -/
example : ((insertRange (fun _ _ => 0) .xvalue exOrd 1 2 exSt).cols 0, (insertRange (fun _ _ => 0) .xvalue exOrd 1 2 exSt).cols 1) =
    ([1, 5, 7], [2, 6, 8]) := rfl
/-- Moving to the front: the first element is `("", 6)` instead of `(5, 6)`. -/
example : ((insertRange (fun _ _ => 0) .xvalue exOrd 0 2 exSt).cols 0, (insertRange (fun _ _ => 0) .xvalue exOrd 0 2 exSt).cols 1) =
    ([0, 7, 1], [6, 8, 2]) := rfl
example : ¬ Rows (insertRange (fun _ _ => 0) .xvalue exOrd 0 2 exSt) (vectorInsert 0 ((List.range 2).map exSt.src) [fun j => 1 + j.val]) :=
  C88_xvalues_fails (by decide) exOrd_ok exRows (by decide) 1 (fun j k => by
    have : ∀ k x, iter (fun _ : Nat => 0) (k + 1) x = 0 := fun k x => by rw [iter_succ]
    rw [this]; show (0 : Nat) ≠ 5 + 2 * 0 + j.val; omega)
/-- Copies and dereferences: 2 fields, 2 elements, in front. -/
example : ((insertRange (fun _ _ => 0) .lvalue exOrd 0 2 exSt).copies 0, (insertRange (fun _ _ => 0) .lvalue exOrd 0 2 exSt).derefs 0,
    (insertRange (fun _ _ => 0) .lvalue exOrd 0 2 exSt).derefs 1) = (5, 2, 1) := rfl

end AnyAny.DpvRange
