import Verif.Model.Vtable
import Verif.Lemmas.TypeList
/-
C32: layout of sub-vtables. C33: changing entries of a vtable.
-/
namespace AnyAny.Vtable
open AnyAny.TypeList

/-! ### C33 -/

section
variable {M V : Type} [DecidableEq M]

theorem changeImpl_get (m : M) (v : V) (ms : List M) (es : List V) (i : Nat) :
    (changeImpl m v ms es)[i]? = if ms[i]? = some m ∧ i < es.length then some v else es[i]? := by
  induction ms generalizing es i with
  | nil => cases es <;> simp [changeImpl]
  | cons x ms ih =>
    cases es with
    | nil => simp [changeImpl]
    | cons e es =>
      cases i with
      | zero =>
        by_cases h : m = x
        · subst h; simp [changeImpl]
        · have : x ≠ m := fun h' => h h'.symm
          simp [changeImpl, h, this]
      | succ i => simp [changeImpl, ih]

theorem numberOfFirst_get {m : M} {ms : List M} {i : Nat} (h : numberOfFirst m ms = some i) : ms[i]? = some m := by
  have key : ∀ (l : List M) (n : Nat), numberOfImpl n m l = some i → n ≤ i ∧ l[i - n]? = some m := by
    intro l
    induction l with
    | nil => intro n h; cases h
    | cons x l ih =>
      intro n h
      unfold numberOfImpl at h
      split at h
      · cases h; rename_i hx; simp [hx]
      · obtain ⟨h1, h2⟩ := ih _ h
        refine ⟨by omega, ?_⟩
        have : i - n = (i - (n + 1)) + 1 := by omega
        rw [this, List.getElem?_cons_succ]; exact h2
  exact (key ms 0 h).2

/-- C33: after `change<M>(v)` every entry of `M`, however often it occurs, is `v`, and every other entry is
what it was. The number of entries stays. -/
theorem C33_entries (ms : List M) (m : M) (v : V) (es : List V) (hl : es.length = ms.length) :
    (change ms m v es).length = es.length ∧
    ∀ (i : Nat) (m' : M), ms[i]? = some m' → (change ms m v es)[i]? = if m' = m then some v else es[i]? := by
  constructor
  · unfold change
    clear hl
    induction ms generalizing es with
    | nil => cases es <;> rfl
    | cons x ms ih => cases es with
      | nil => rfl
      | cons e es => simp [changeImpl, ih]
  · intro i m' hi
    rw [change, changeImpl_get]
    have hlt : i < es.length := by rw [hl]; exact (List.getElem?_eq_some_iff.1 hi).1
    simp [hi, hlt]

/-- C33: `invoke<M>()` then returns `v`, and `invoke` of every other method returns what it returned
before. -/
theorem C33_invoke (ms : List M) (m : M) (v : V) (es : List V) (hl : es.length = ms.length) :
    (m ∈ ms → invoke ms (change ms m v es) m = some v) ∧
    ∀ m', m' ≠ m → invoke ms (change ms m v es) m' = invoke ms es m' := by
  constructor
  · intro hm
    cases hn : numberOfFirst m ms with
    | none => exact absurd hm ((numberOfImpl_none m ms 0).1 hn)
    | some i =>
      have := (C33_entries ms m v es hl).2 i m (numberOfFirst_get hn)
      simpa [invoke, hn] using this
  · intro m' hne
    cases hn : numberOfFirst m' ms with
    | none => simp [invoke, hn]
    | some i =>
      have := (C33_entries ms m v es hl).2 i m' (numberOfFirst_get hn)
      rw [if_neg hne] at this
      simpa [invoke, hn] using this

/-- A table with a repeated method. -/
example : change [1, 2, 1, 3] 1 'x' ['a', 'b', 'c', 'd'] = ['x', 'b', 'x', 'd'] ∧
    invoke [1, 2, 1, 3] ['x', 'b', 'x', 'd'] 1 = some 'x' ∧ invoke [1, 2, 1, 3] ['x', 'b', 'x', 'd'] 3 = some 'd' := by decide
end

/-! ### C32 -/

theorem roundUp_ge (x a : Nat) (ha : 0 < a) : x ≤ roundUp x a := by
  unfold roundUp
  have h := Nat.div_add_mod (x + a - 1) a
  have h2 := Nat.mod_lt (x + a - 1) ha
  have : a * ((x + a - 1) / a) = (x + a - 1) / a * a := Nat.mul_comm _ _
  omega

theorem roundUp_dvd (x a : Nat) : a ∣ roundUp x a := ⟨(x + a - 1) / a, Nat.mul_comm _ _⟩

theorem roundUp_lt (x a : Nat) (ha : 0 < a) : roundUp x a < x + a := by
  unfold roundUp
  have := Nat.div_mul_le_self (x + a - 1) a
  omega

theorem roundUp_self {x a : Nat} (ha : 0 < a) (h : a ∣ x) : roundUp x a = x := by
  obtain ⟨k, rfl⟩ := h
  have h1 := roundUp_ge (a * k) a ha
  have h2 := roundUp_lt (a * k) a ha
  obtain ⟨j, hj⟩ := roundUp_dvd (a * k) a
  rw [hj] at h1 h2 ⊢
  have : k ≤ j := Nat.le_of_mul_le_mul_left h1 ha
  have : j < k + 1 := by
    apply Nat.lt_of_mul_lt_mul_left (a := a)
    rw [Nat.mul_add]; omega
  have : j = k := by omega
  rw [this]

/-- Shifting by a multiple of the alignment shifts the result. -/
theorem roundUp_add {o x a : Nat} (ha : 0 < a) (h : a ∣ o) : roundUp (o + x) a = o + roundUp x a := by
  obtain ⟨k, rfl⟩ := h
  unfold roundUp
  have : a * k + x + a - 1 = (x + a - 1) + a * k := by omega
  rw [this, Nat.add_mul_div_left _ _ ha, Nat.add_mul]
  have : k * a = a * k := Nat.mul_comm _ _
  omega

theorem offsets_shift (o s : Nat) (es : List Entry) (h : ∀ e ∈ es, e.align ∣ o) :
    offsets (o + s) es = (offsets s es).map (o + ·) := by
  induction es generalizing s with
  | nil => rfl
  | cons e es ih =>
    simp only [offsets, List.map_cons]
    rw [roundUp_add e.alignPos (h e (by simp)), Nat.add_assoc, ih _ fun x hx => h x (by simp [hx])]

theorem offsets_append (s : Nat) (xs ys : List Entry) :
    ∃ s', offsets s (xs ++ ys) = offsets s xs ++ offsets s' ys ∧ (xs = [] → s' = s) := by
  induction xs generalizing s with
  | nil => exact ⟨s, rfl, fun _ => rfl⟩
  | cons x xs ih =>
    obtain ⟨s', h, _⟩ := ih (roundUp s x.align + x.size)
    exact ⟨s', by simp [offsets, h], fun h => by cases h⟩

theorem offsets_length (s : Nat) (xs : List Entry) : (offsets s xs).length = xs.length := by
  induction xs generalizing s with
  | nil => rfl
  | cons x xs ih => simp [offsets, ih]

theorem offsets_head (s : Nat) (e : Entry) (es : List Entry) :
    offsets s (e :: es) = offsets (roundUp s e.align) (e :: es) := by
  simp only [offsets]
  rw [roundUp_self e.alignPos (roundUp_dvd s e.align)]

/-- C32: when the address of the sub-vtable is suitably aligned for all its entries, every entry lies
exactly where a free-standing vtable of the target interface has it: entry `j` of the sub-vtable is entry
`pre.length + j` of the full table. -/
theorem C32_aligned_partial (pre sub post : List Entry) (o : Nat)
    (ho : subtableOffset (pre ++ sub ++ post) pre.length = some o) (ha : ∀ e ∈ sub, e.align ∣ o) :
    ∀ j, j < sub.length → ∃ d, entryOffset sub j = some d ∧ (offsets 0 (pre ++ sub ++ post))[pre.length + j]? = some (o + d) := by
  obtain ⟨s1, h1, _⟩ := offsets_append 0 pre (sub ++ post)
  rw [List.append_assoc] at ho ⊢
  unfold subtableOffset at ho
  rw [h1] at ho ⊢
  have hlen := offsets_length 0 pre
  have hget : ∀ j, (offsets 0 pre ++ offsets s1 (sub ++ post))[pre.length + j]? = (offsets s1 (sub ++ post))[j]? := by
    intro j
    rw [List.getElem?_append_right (by omega)]
    congr 1; omega
  have h0 := hget 0
  rw [Nat.add_zero, ho] at h0
  intro j hj
  rw [hget j]
  obtain ⟨s2, h2, _⟩ := offsets_append s1 sub post
  rw [h2] at h0 ⊢
  cases sub with
  | nil => cases hj
  | cons e es =>
    rw [List.getElem?_append_left (by rw [offsets_length]; exact hj)]
    have he : roundUp s1 e.align = o := by simpa [offsets] using h0.symm
    have hs : offsets s1 (e :: es) = (offsets 0 (e :: es)).map (o + ·) := by
      rw [offsets_head, he]
      have := offsets_shift o 0 (e :: es) ha
      rwa [Nat.add_zero] at this
    rw [hs, List.getElem?_map]
    unfold entryOffset
    have : j < (offsets 0 (e :: es)).length := by rw [offsets_length]; exact hj
    rw [List.getElem?_eq_getElem this]
    exact ⟨_, rfl, rfl⟩

theorem offsets_aligned {s j d : Nat} {es : List Entry} {e : Entry} (he : es[j]? = some e) (hd : (offsets s es)[j]? = some d) : e.align ∣ d := by
  induction es generalizing s j with
  | nil => simp at he
  | cons x es ih =>
    cases j with
    | zero =>
      simp only [List.getElem?_cons_zero, Option.some.injEq, offsets] at he hd
      rw [← he, ← hd]
      exact roundUp_dvd _ _
    | succ j => exact ih (by simpa using he) (by simpa [offsets] using hd)

/-- C32, exactly: the sub-vtable is laid out as a free-standing vtable if and only if its address is aligned for all its entries. -/
theorem C32_exact (pre sub post : List Entry) (o : Nat) (ho : subtableOffset (pre ++ sub ++ post) pre.length = some o) :
    (∀ j, j < sub.length → ∃ d, entryOffset sub j = some d ∧ (offsets 0 (pre ++ sub ++ post))[pre.length + j]? = some (o + d)) ↔
      ∀ e ∈ sub, e.align ∣ o := by
  refine ⟨fun h e he => ?_, C32_aligned_partial pre sub post o ho⟩
  obtain ⟨j, hj⟩ := List.mem_iff_getElem?.1 he
  have hlt : j < sub.length := (List.getElem?_eq_some_iff.1 hj).1
  obtain ⟨d, h1, h2⟩ := h j hlt
  have hf : (pre ++ sub ++ post)[pre.length + j]? = some e := by
    rw [List.append_assoc, List.getElem?_append_right (by omega), Nat.add_sub_cancel_left, List.getElem?_append_left hlt]
    exact hj
  exact (Nat.dvd_add_iff_left (offsets_aligned hj h1)).2 (offsets_aligned hf h2)

theorem offsets_uniform (sz al : Nat) (hp : 0 < al) (hd : al ∣ sz) (s : Nat) (hs : al ∣ s) (es : List Entry)
    (h : ∀ e ∈ es, e.size = sz ∧ e.align = al) : ∀ i, i < es.length → (offsets s es)[i]? = some (s + sz * i) := by
  induction es generalizing s with
  | nil => intro i hi; cases hi
  | cons e es ih =>
    intro i hi
    obtain ⟨h1, h2⟩ := h e (by simp)
    have hr : roundUp s e.align = s := by rw [h2]; exact roundUp_self hp hs
    cases i with
    | zero => simp [offsets, hr]
    | succ i =>
      simp only [offsets, hr, h1, List.getElem?_cons_succ]
      rw [ih (s + sz) (Nat.dvd_add hs hd) (fun x hx => h x (by simp [hx])) i (by simpa using hi)]
      congr 1
      rw [Nat.mul_add]; omega

/-- C32 holds in particular for tables of function pointers: entries of one size and alignment (the size a
multiple of the alignment, as for every C++ type). -/
theorem C32_function_pointers_partial (pre sub post : List Entry) (sz al : Nat) (hp : 0 < al) (hd : al ∣ sz)
    (h : ∀ e ∈ pre ++ sub ++ post, e.size = sz ∧ e.align = al) (hne : sub ≠ []) :
    ∃ o, subtableOffset (pre ++ sub ++ post) pre.length = some o ∧
      ∀ j, j < sub.length → ∃ d, entryOffset sub j = some d ∧ (offsets 0 (pre ++ sub ++ post))[pre.length + j]? = some (o + d) := by
  have hlt : pre.length < (pre ++ sub ++ post).length := by
    have : 0 < sub.length := List.length_pos_iff.2 hne
    simp only [List.length_append]; omega
  have ho : subtableOffset (pre ++ sub ++ post) pre.length = some (0 + sz * pre.length) :=
    offsets_uniform sz al hp hd 0 (Nat.dvd_zero al) _ h _ hlt
  refine ⟨_, ho, C32_aligned_partial pre sub post _ ho ?_⟩
  intro e he
  rw [(h e (by simp [he])).2, Nat.zero_add]
  exact Nat.dvd_trans hd (Nat.dvd_mul_right _ _)

/-- C32 fails for pseudomethods of mixed sizes: methods of 4, 4 and 8 bytes; the sub-vtable of the last
two starts at offset 4, and its second entry is expected 8 bytes further but lies 4 bytes further. -/
theorem C32_fails : ∃ pre sub post : List Entry, ∃ o : Nat, subtableOffset (pre ++ sub ++ post) pre.length = some o ∧
    entryOffset sub 1 = some 8 ∧ (offsets 0 (pre ++ sub ++ post))[pre.length + 1]? = some (o + 4) :=
  ⟨[⟨4, 4, by decide⟩], [⟨4, 4, by decide⟩, ⟨8, 8, by decide⟩], [], 4, by decide, by decide, by decide⟩

/-- Mixed sizes at an aligned offset are fine. -/
example : subtableOffset ([⟨8, 8, by decide⟩] ++ [⟨4, 4, by decide⟩, ⟨8, 8, by decide⟩] ++ []) 1 = some 8 ∧
    entryOffset [⟨4, 4, by decide⟩, ⟨8, 8, by decide⟩] 1 = some 8 := by decide

end AnyAny.Vtable
