import Verif.Model.Fields
/-
C59: fields of aggregates are counted and accessed correctly.

`Aggregate c m`: what the language says about an aggregate with `m` fields: it can be made from one argument for each field, and not from
more arguments. (With fewer arguments the remaining fields must be default constructible; nothing is assumed about that.)
-/
namespace AnyAny.Fields

structure Aggregate (c : Nat → Bool) (m : Nat) : Prop where
  all : c m = true
  more : ∀ k, m < k → c k = false

theorem fieldCount_eq {c : Nat → Bool} {m : Nat} (h : Aggregate c m) (k : Nat) (hk : m ≤ k) : fieldCount c k = some m := by
  induction k with
  | zero =>
    have : m = 0 := by omega
    subst this; simp [fieldCount, h.all]
  | succ k ih =>
    unfold fieldCount
    by_cases hm : m = k + 1
    · subst hm; rw [if_pos h.all]
    · rw [h.more (k + 1) (by omega)]; simp only [Bool.false_eq_true, if_false]
      exact ih (by omega)

/-- Aggregates with at most 30 fields: the number of fields is found. -/
theorem C59_count {c : Nat → Bool} {m : Nat} (h : Aggregate c m) (hm : m ≤ 30) : fieldsCount c = some m := fieldCount_eq h 30 hm

/-- With more fields it is not: 30 is found if the other fields are default constructible, or a smaller number. -/
theorem C59_count_more {c : Nat → Bool} {m : Nat} (hm : 30 < m) : fieldsCount c ≠ some m := by
  have : ∀ k r, fieldCount c k = some r → r ≤ k := by
    intro k
    induction k with
    | zero => intro r h; unfold fieldCount at h; split at h <;> simp_all
    | succ k ih =>
      intro r h
      unfold fieldCount at h
      split at h
      · simp at h; omega
      · have := ih r h; omega
  intro h
  have := this 30 m h
  omega

theorem branches_ok : ∀ br ∈ branches, br.2.1 = List.range br.1 ∧ br.2.2 = List.range br.1 := by decide

theorem branches_find (m : Nat) (h1 : 1 ≤ m) (h2 : m ≤ 29) : branches.find? (fun br => br.1 == m) = some (m, List.range m, List.range m) := by
  have : ∀ m : Fin 30, 1 ≤ m.val → branches.find? (fun br => br.1 == m.val) = some (m.val, List.range m.val, List.range m.val) := by decide
  exact this ⟨m, by omega⟩ h1

theorem mapM_range {α} (l : List α) : (List.range l.length).mapM (fun x => l[(List.range l.length).idxOf x]?) = some l := by
  have hidx : ∀ x, x < l.length → (List.range l.length).idxOf x = x := by
    intro x hx
    have := List.Nodup.idxOf_getElem (List.nodup_range (n := l.length)) x (by simpa using hx)
    simpa using this
  have h : ∀ k, k ≤ l.length → (List.range k).mapM (fun x => l[(List.range l.length).idxOf x]?) = some (l.take k) := by
    intro k hk
    induction k with
    | zero => simp
    | succ k ih =>
      rw [List.range_succ, List.mapM_append, ih (by omega)]
      have hk1 : ([k].mapM fun x => l[(List.range l.length).idxOf x]?) = some [l[k]'(by omega)] := by
        simp [List.mapM_cons, hidx k (by omega), List.getElem?_eq_getElem (show k < l.length by omega)]
      rw [hk1]
      show some (l.take k ++ [l[k]'(by omega)]) = some (l.take (k + 1))
      rw [List.take_append_getElem]
  have := h l.length (Nat.le_refl _)
  simpa using this

/-- The tuple made by the decomposition has all fields, in order: `get<I>` is the `I`-th field. For every aggregate with 1 to 29
fields. -/
theorem C59_get {α} {c : Nat → Bool} {fields : List α} (h : Aggregate c fields.length) (h1 : 1 ≤ fields.length) (h2 : fields.length ≤ 29) (i : Nat) :
    magicGet c fields i = fields[i]? := by
  have e1 := C59_count h (by omega)
  have e2 : magicTie fields.length fields = some fields := by
    unfold magicTie
    rw [branches_find _ h1 h2]
    simp only [bind_, List.length_range, if_true, bind, Option.bind]
    exact mapM_range fields
  simp [magicGet, e1, e2]

/-- Thirty fields are counted but cannot be accessed: there is no branch for them, nor for aggregates without fields. -/
theorem C59_get_none {α} {c : Nat → Bool} {fields : List α} (h : Aggregate c fields.length) (h1 : fields.length = 30 ∨ fields.length = 0) (i : Nat) :
    magicGet c fields i = none := by
  have e1 := C59_count h (by omega)
  have e2 : magicTie fields.length fields = none := by
    unfold magicTie
    rcases h1 with h1 | h1 <;> rw [h1] <;> rfl
  simp [magicGet, e1, e2]

/-- Whatever a type is constructible from (C arrays in an aggregate, which can be made from more arguments than it has fields, are
documented not to work): if `get<I>` compiles, the number of fields was found and the result is the `I`-th field. -/
theorem C59_get_right {α} {c : Nat → Bool} {fields : List α} {i : Nat} {x : α} (h : magicGet c fields i = some x) :
    fieldsCount c = some fields.length ∧ fields[i]? = some x := by
  unfold magicGet at h
  cases hn : fieldsCount c with
  | none => simp [hn] at h
  | some n =>
    simp only [hn, Option.bind_eq_bind, Option.bind_some] at h
    have hl : n = fields.length := by
      unfold magicTie at h
      cases hf : branches.find? fun br => br.1 == n with
      | none => simp [hf] at h
      | some br =>
        have hm := branches_ok br (List.mem_of_find?_eq_some hf)
        have he : br.1 = n := by simpa using List.find?_some hf
        simp only [hf, bind_, hm.1, List.length_range, he] at h
        by_cases hl : n = fields.length
        · exact hl
        · simp [if_neg hl] at h
    subst hl
    refine ⟨rfl, ?_⟩
    by_cases h1 : 1 ≤ fields.length ∧ fields.length ≤ 29
    · have e2 : magicTie fields.length fields = some fields := by
        unfold magicTie
        rw [branches_find _ h1.1 h1.2]
        simp only [bind_, List.length_range, if_true, bind, Option.bind]
        exact mapM_range fields
      simpa [e2] using h
    · have hf : branches.find? (fun br => br.1 == fields.length) = none := by
        rw [List.find?_eq_none]
        intro br hb
        have : ∀ br ∈ branches, 1 ≤ br.1 ∧ br.1 ≤ 29 := by decide
        have := this br hb
        simp
        omega
      simp [magicTie, hf] at h

/-- An aggregate with an array of two elements and another field can be made from three arguments: three fields are counted, and `get` does not
compile. -/
example : fieldsCount (fun k => decide (k ≤ 3)) = some 3 ∧ magicGet (fun k => decide (k ≤ 3)) ["a[2]", "b"] 1 = none := by decide

/-- Fields of an lvalue are never moved from, fields that are not references are moved from if the record is an rvalue, and
references to lvalues are never moved from. -/
theorem C59_category (k : FieldKind) : (k ≠ .rref → forwardSave .lvalue k = .lvalue) ∧ (k ≠ .lref → forwardSave .rvalue k = .rvalue) ∧
    forwardSave .rvalue .lref = .lvalue := by cases k <;> simp [forwardSave]

/-- An aggregate of three fields, the last of which is not default constructible. -/
example : Aggregate (fun k => k == 3) 3 ∧ magicGet (fun k => k == 3) ["a", "b", "c"] 1 = some "b" :=
  ⟨⟨rfl, fun k hk => by simp; omega⟩, by decide⟩

end AnyAny.Fields
