import Verif.Model.Descriptor
/-
C42, C43: type descriptors.
-/
namespace AnyAny.Descriptor

/-- There is a NUL-terminated string with the characters `name` at address `p`; anything may follow. -/
def Str (m : Mem) (p : Nat) (name : List Int) : Prop := (0 : Int) ∉ name ∧ ∃ rest, m p = name ++ 0 :: rest

theorem cmp_swap (a b : Int) : (compare a b).swap = compare b a := by
  simp only [compare, compareOfLessAndEq]
  split
  · split
    · omega
    · split
      · omega
      · rfl
  · split
    · subst_vars; simp
    · split
      · rfl
      · omega

theorem cmp_eq (a b : Int) : compare a b = .eq ↔ a = b := by
  simp only [compare, compareOfLessAndEq]
  split
  · simp; omega
  · split <;> simp [*]

theorem cmp_lt (a b : Int) : compare a b = .lt ↔ a < b := by
  simp only [compare, compareOfLessAndEq]
  split
  · simp [*]
  · split <;> simp [*]

/-- The order in words: the first difference decides, the end of a name counting as the character 0. -/
def Less (x y : List Int) : Prop :=
  ∃ pre a b xs ys, x ++ [0] = pre ++ a :: xs ∧ y ++ [0] = pre ++ b :: ys ∧ a < b

/-- Names without the terminator inside. -/
def NoNul (x : List Int) : Prop := (0 : Int) ∉ x

/-- Comparison of two names. -/
def nameCmp : List Int → List Int → Ordering
  | [], [] => .eq
  | [], b :: _ => compare 0 b
  | a :: _, [] => compare a 0
  | a :: as, b :: bs => if a = b then nameCmp as bs else compare a b

theorem strcmp_eq {x y : List Int} (hx : NoNul x) (hy : NoNul y) (r r' : List Int) :
    strcmp (x ++ 0 :: r) (y ++ 0 :: r') = some (nameCmp x y) := by
  induction x generalizing y with
  | nil =>
    cases y with
    | nil => simp [strcmp, nameCmp, compare, compareOfLessAndEq]
    | cons b y => simp [strcmp, nameCmp]
  | cons a x ih =>
    have ha : a ≠ 0 := by rintro rfl; exact hx (by simp)
    have hx' : NoNul x := fun h => hx (by simp [h])
    cases y with
    | nil => simp [strcmp, nameCmp, ha]
    | cons b y =>
      have hy' : NoNul y := fun h => hy (by simp [h])
      by_cases he : a = b
      · simp [strcmp, nameCmp, he, he ▸ ha, ih hx' hy']
      · simp [strcmp, nameCmp, he]

theorem nameCmp_eq {x y : List Int} (hx : NoNul x) (hy : NoNul y) : nameCmp x y = .eq ↔ x = y := by
  induction x generalizing y with
  | nil =>
    cases y with
    | nil => simp [nameCmp]
    | cons b y => simp only [nameCmp, cmp_eq]; constructor
                  · rintro rfl; exact absurd (by simp) hy
                  · intro h; cases h
  | cons a x ih =>
    have ha : a ≠ 0 := by rintro rfl; exact hx (by simp)
    have hx' : NoNul x := fun h => hx (by simp [h])
    cases y with
    | nil => simp [nameCmp, cmp_eq, ha]
    | cons b y =>
      have hy' : NoNul y := fun h => hy (by simp [h])
      unfold nameCmp
      split
      · subst_vars; simp [ih hx' hy']
      · rename_i h; simp [cmp_eq, h]

theorem nameCmp_swap (x y : List Int) : (nameCmp x y).swap = nameCmp y x := by
  induction x generalizing y with
  | nil => cases y <;> simp [nameCmp, cmp_swap]
  | cons a x ih =>
    cases y with
    | nil => simp [nameCmp, cmp_swap]
    | cons b y =>
      unfold nameCmp
      by_cases h : a = b
      · subst h; simp [ih]
      · have : b ≠ a := fun h' => h h'.symm
        simp [h, this, cmp_swap]

theorem nameCmp_lt {x y : List Int} (hx : NoNul x) (hy : NoNul y) : nameCmp x y = .lt ↔ Less x y := by
  induction x generalizing y with
  | nil =>
    cases y with
    | nil =>
      simp only [nameCmp, reduceCtorEq, false_iff]
      rintro ⟨pre, a, b, xs, ys, h1, h2, h3⟩
      have := h1.symm.trans h2
      have := List.append_cancel_left this
      injection this with h
      omega
    | cons b y =>
      simp only [nameCmp, cmp_lt]
      constructor
      · intro h; exact ⟨[], 0, b, [], y ++ [0], rfl, rfl, h⟩
      · rintro ⟨pre, a, c, xs, ys, h1, h2, h3⟩
        cases pre with
        | nil => simp at h1 h2; omega
        | cons p pre => simp at h1
  | cons a x ih =>
    have hx' : NoNul x := fun h => hx (by simp [h])
    cases y with
    | nil =>
      simp only [nameCmp, cmp_lt]
      constructor
      · intro h; exact ⟨[], a, 0, x ++ [0], [], rfl, rfl, h⟩
      · rintro ⟨pre, c, d, xs, ys, h1, h2, h3⟩
        cases pre with
        | nil => simp at h1 h2; omega
        | cons p pre => simp at h2
    | cons b y =>
      have hy' : NoNul y := fun h => hy (by simp [h])
      unfold nameCmp
      split
      · rename_i he
        subst he
        rw [ih hx' hy']
        constructor
        · rintro ⟨pre, c, d, xs, ys, h1, h2, h3⟩
          exact ⟨a :: pre, c, d, xs, ys, by simp [h1], by simp [h2], h3⟩
        · rintro ⟨pre, c, d, xs, ys, h1, h2, h3⟩
          cases pre with
          | nil => simp at h1 h2; omega
          | cons p pre =>
            simp only [List.cons_append, List.cons.injEq] at h1 h2
            exact ⟨pre, c, d, xs, ys, h1.2, h2.2, h3⟩
      · rename_i he
        rw [cmp_lt]
        constructor
        · intro h; exact ⟨[], a, b, x ++ [0], y ++ [0], rfl, rfl, h⟩
        · rintro ⟨pre, c, d, xs, ys, h1, h2, h3⟩
          cases pre with
          | nil => simp at h1 h2; omega
          | cons p pre =>
            simp only [List.cons_append, List.cons.injEq] at h1 h2
            exact absurd (h1.1.trans h2.1.symm) he

theorem nameCmp_trans {x y z : List Int} (h1 : nameCmp x y = .lt) (h2 : nameCmp y z = .lt) : nameCmp x z = .lt := by
  induction x generalizing y z with
  | nil =>
    cases y with
    | nil => exact absurd h1 (by simp [nameCmp])
    | cons b y =>
      simp only [nameCmp, cmp_lt] at h1
      cases z with
      | nil => simp only [nameCmp, cmp_lt] at h2; omega
      | cons c z =>
        unfold nameCmp at h2 ⊢
        rw [cmp_lt]
        split at h2
        · omega
        · rw [cmp_lt] at h2; omega
  | cons a x ih =>
    cases y with
    | nil =>
      simp only [nameCmp, cmp_lt] at h1
      cases z with
      | nil => exact absurd h2 (by simp [nameCmp])
      | cons c z =>
        simp only [nameCmp, cmp_lt] at h2
        have : a ≠ c := by omega
        simp only [nameCmp, if_neg this, cmp_lt]; omega
    | cons b y =>
      cases z with
      | nil =>
        simp only [nameCmp, cmp_lt] at h2 ⊢
        unfold nameCmp at h1
        split at h1
        · omega
        · rw [cmp_lt] at h1; omega
      | cons c z =>
        unfold nameCmp at h1 h2 ⊢
        split at h1
        · subst_vars
          split at h2
          · subst_vars; simpa using ih h1 h2
          · rename_i hne; rw [if_neg hne]; exact h2
        · rw [cmp_lt] at h1
          split at h2
          · subst_vars
            rename_i hne
            rw [if_neg hne, cmp_lt]; exact h1
          · rw [cmp_lt] at h2
            have : a ≠ c := by omega
            rw [if_neg this, cmp_lt]; omega

theorem stringView_str {x : List Int} (hx : NoNul x) (r : List Int) : stringView (x ++ 0 :: r) = some x := by
  induction x with
  | nil => simp [stringView]
  | cons a x ih =>
    have ha : a ≠ 0 := by rintro rfl; exact hx (by simp)
    have hx' : NoNul x := fun h => hx (by simp [h])
    simp [stringView, ha, ih hx']

/-! ### C42 -/

/-- C42: comparing two descriptors reads no memory beyond the names and returns whether the names are
equal; at run time (with the comparison of the pointers first) and during constant evaluation. -/
theorem C42_equal_names {m : Mem} {p q : Nat} {x y : List Int} (hp : Str m p x) (hq : Str m q y) :
    descEq m p q = some (decide (x = y)) ∧ descEqConst m p q = some (decide (x = y)) := by
  obtain ⟨hx, r, er⟩ := hp
  obtain ⟨hy, r', er'⟩ := hq
  have hc : descEqConst m p q = some (decide (x = y)) := by
    simp only [descEqConst, er, er', strcmp_eq hx hy, Option.map_some, Option.some.injEq]
    by_cases h : x = y
    · rw [(nameCmp_eq hx hy).2 h]; simp [h]
    · have := mt (nameCmp_eq hx hy).1 h
      simp only [h, decide_false, beq_eq_false_iff_ne]
      exact this
  refine ⟨?_, hc⟩
  unfold descEq
  split
  · rename_i he
    subst he
    have : x = y := by
      have h := er.symm.trans er'
      have h1 := stringView_str hx r
      have h2 := stringView_str hy r'
      rw [h, h2] at h1
      exact (Option.some.inj h1).symm
    simp [this]
  · exact hc

/-- C42: if distinct types have distinct names, descriptors identify the decayed types. `addr` is the
address of the name of a type, `decay` is `std::decay`. -/
theorem C42_identify {T : Type} [DecidableEq T] {m : Mem} {addr : T → Nat} {name : T → List Int} {decay : T → T}
    (hs : ∀ t, Str m (addr t) (name t)) (hinj : ∀ t u, name t = name u → t = u) (t u : T) :
    descEq m (addr (decay t)) (addr (decay u)) = some (decide (decay t = decay u)) := by
  rw [(C42_equal_names (hs _) (hs _)).1]
  congr 1
  by_cases h : decay t = decay u
  · simp [h]
  · have : name (decay t) ≠ name (decay u) := fun h' => h (hinj _ _ h')
    simp [h, this]

/-- C42: equal descriptors hash equally, whatever the hash of strings and wherever the names lie. -/
theorem C42_hash {m : Mem} {p q : Nat} {x y : List Int} (h : List Int → Nat) (hp : Str m p x) (hq : Str m q y)
    (he : descEq m p q = some true) : descHash h m p = descHash h m q ∧ descHash h m p = some (h x) := by
  rw [(C42_equal_names hp hq).1] at he
  have he : x = y := by simpa using he
  subst he
  obtain ⟨hx, r, er⟩ := hp
  obtain ⟨_, r', er'⟩ := hq
  simp [descHash, er, er', stringView_str hx]

/-- `starts_with(part, all)` is whether `part` is a prefix. -/
theorem C42_starts_with {p x : List Int} (hp : NoNul p) (hx : NoNul x) (r r' : List Int) :
    startsWith (p ++ 0 :: r) (x ++ 0 :: r') = some (decide (p <+: x)) := by
  induction p generalizing x with
  | nil => cases x <;> simp [startsWith]
  | cons a p ih =>
    have ha : a ≠ 0 := by rintro rfl; exact hp (by simp)
    have hp' : NoNul p := fun h => hp (by simp [h])
    cases x with
    | nil => simp [startsWith, ha]
    | cons b x =>
      have hx' : NoNul x := fun h => hx (by simp [h])
      by_cases he : a = b
      · subst he
        simp only [List.cons_append, startsWith]
        rw [if_pos ⟨trivial, ha⟩, ih hp' hx']
        simp [List.cons_prefix_cons]
      · simp [startsWith, he, ha, List.cons_prefix_cons]

/-- C42: with MSVC the keyword `class` or `struct` and the character behind it are removed from a name and nothing
else, so a type declared with either keyword has one descriptor. -/
theorem C42_strip_keyword {cls strct y : List Int} {sp : Int} (hc : NoNul cls) (hs : NoNul strct) (hy : NoNul y) (hsp : sp ≠ 0)
    (hcs : ¬ cls <+: strct ++ sp :: y) (r : List Int) :
    stripMsvc cls strct ((cls ++ sp :: y) ++ 0 :: r) = some (y ++ 0 :: r) ∧
    stripMsvc cls strct ((strct ++ sp :: y) ++ 0 :: r) = some (y ++ 0 :: r) ∧
    ∀ x, NoNul x → ¬ cls <+: x → ¬ strct <+: x → stripMsvc cls strct (x ++ 0 :: r) = some (x ++ 0 :: r) := by
  have n1 : NoNul (cls ++ sp :: y) := by simp [NoNul, not_or]; exact ⟨hc, fun h => hsp h.symm, hy⟩
  have n2 : NoNul (strct ++ sp :: y) := by simp [NoNul, not_or]; exact ⟨hs, fun h => hsp h.symm, hy⟩
  have d : ∀ k : List Int, ((k ++ sp :: y) ++ 0 :: r).drop (k.length + 1) = y ++ 0 :: r := by
    intro k
    have : (k ++ sp :: y) ++ 0 :: r = (k ++ [sp]) ++ (y ++ 0 :: r) := by simp
    rw [this, List.drop_left' (by simp)]
  refine ⟨?_, ?_, ?_⟩
  · simp only [stripMsvc, C42_starts_with hc n1, List.prefix_append, decide_true, d]
  · simp only [stripMsvc, C42_starts_with hc n2, C42_starts_with hs n2, hcs, List.prefix_append, decide_true, decide_false, d]
  · intro x hx h1 h2
    simp only [stripMsvc, C42_starts_with hc hx, C42_starts_with hs hx, h1, h2, decide_false]

/-- `class A` and `struct A`. -/
example : stripMsvc [99, 108] [115, 116] [99, 108, 32, 65, 0] = some [65, 0] ∧
    stripMsvc [99, 108] [115, 116] [115, 116, 32, 65, 0] = some [65, 0] := by decide

/-- Two copies of one name at different addresses, and a longer name. -/
example : let m : Mem := fun p => if p = 0 then [65, -1, 0, 7] else if p = 1 then [65, -1, 0] else [65, -1, 66, 0]
    Str m 0 [65, -1] ∧ Str m 1 [65, -1] ∧ Str m 2 [65, -1, 66] ∧ descEq m 0 1 = some true ∧ descEq m 0 2 = some false := by
  refine ⟨⟨by decide, [7], rfl⟩, ⟨by decide, [], rfl⟩, ⟨by decide, [], rfl⟩, by decide, by decide⟩

/-! ### C43 -/

/-- C43: `<=>` is `less` exactly if at the first difference the left name has the smaller character. -/
theorem C43_lexicographic {m : Mem} {p q : Nat} {x y : List Int} (hp : Str m p x) (hq : Str m q y) :
    (descCmp m p q = some .lt ↔ Less x y) ∧ (descCmp m p q = some .gt ↔ Less y x) ∧ (descCmp m p q = some .eq ↔ x = y) := by
  obtain ⟨hx, r, er⟩ := hp
  obtain ⟨hy, r', er'⟩ := hq
  simp only [descCmp, er, er', strcmp_eq hx hy, Option.some.injEq]
  refine ⟨nameCmp_lt hx hy, ?_, nameCmp_eq hx hy⟩
  rw [← nameCmp_lt hy hx, ← nameCmp_swap x y]
  cases nameCmp x y <;> simp [Ordering.swap]

/-- C43: a strict total order consistent with `==`: the result is always defined; exchanging the operands
reverses it; it is `equal` iff `==`; it is transitive. -/
theorem C43_total_order {m : Mem} {p q r : Nat} {x y z : List Int} (hp : Str m p x) (hq : Str m q y) (hr : Str m r z) :
    (∃ c, descCmp m p q = some c ∧ descCmp m q p = some c.swap ∧ descEq m p q = some (c == .eq)) ∧
    (descCmp m p q = some .lt → descCmp m q r = some .lt → descCmp m p r = some .lt) := by
  have e := (C42_equal_names hp hq).1
  have h3 := C43_lexicographic hp hq
  obtain ⟨hx, s, es⟩ := hp
  obtain ⟨hy, s', es'⟩ := hq
  obtain ⟨hz, s'', es''⟩ := hr
  refine ⟨⟨nameCmp x y, ?_, ?_, ?_⟩, ?_⟩
  · simp only [descCmp, es, es', strcmp_eq hx hy]
  · simp only [descCmp, es, es', strcmp_eq hy hx, nameCmp_swap]
  · rw [e]
    by_cases h : x = y
    · rw [(nameCmp_eq hx hy).2 h]; simp [h]
    · have := mt (nameCmp_eq hx hy).1 h
      simp only [h, decide_false]
      cases hc : nameCmp x y <;> first | rfl | exact absurd hc this
  · simp only [descCmp, es, es', es'', strcmp_eq hx hy, strcmp_eq hy hz, strcmp_eq hx hz, Option.some.injEq]
    exact nameCmp_trans

/-- A negative character (signed `char`) is below the terminator: the longer name is the smaller one. -/
example : let m : Mem := fun p => if p = 0 then [65, 0] else if p = 1 then [65, -1, 0] else [65, 66, 0]
    descCmp m 1 0 = some .lt ∧ descCmp m 0 2 = some .lt ∧ descCmp m 1 2 = some .lt ∧ descCmp m 2 1 = some .gt := by decide

end AnyAny.Descriptor
