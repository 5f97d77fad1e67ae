import Verif.Lemmas.TypeList
/-
Property theorems C23-C30 (compile-time type lists).
-/
set_option linter.unusedSectionVars false
namespace AnyAny.TypeList
open Spec
variable {α : Type} [DecidableEq α]

/-! ### C23 contiguous sublist search -/

/-- C23: the index found is the first contiguous occurrence. -/
theorem C23_findSubsequence_first (needle hay : List α) (i : Nat) :
    findSubsequence needle hay = some i ↔
      OccursAt needle hay i ∧ ∀ j, j < i → ¬ OccursAt needle hay j :=
  findSubsequence_some needle hay i

/-- C23: a conversion is rejected exactly when there is no contiguous occurrence. -/
theorem C23_findSubsequence_none (needle hay : List α) :
    findSubsequence needle hay = none ↔ ¬ needle <:+: hay := by
  rw [← occurs_infix, ← hasSubsequence_iff]
  simp [hasSubsequence]

/-- C23: `has_subsequence` decides "occurs contiguously". -/
theorem C23_hasSubsequence_iff_infix (needle hay : List α) :
    hasSubsequence needle hay = true ↔ needle <:+: hay := by
  rw [hasSubsequence_iff, occurs_infix]

-- A repeated needle, found at its first place, and a non-contiguous one, rejected.
example : findSubsequence [2, 3] [1, 2, 2, 3, 2, 3] = some 2 := by decide
example : findSubsequence [1, 3] [1, 2, 3] = none := by decide
example : findSubsequence ([] : List Nat) [] = some 0 := by decide

/-! ### C24 first-occurrence lookup -/

/-- C24: lookup returns the first position. -/
theorem C24_numberOfFirst_some (t : α) (ts : List α) (i : Nat) :
    numberOfFirst t ts = some i ↔ FirstAt t ts i := by
  simp [numberOfFirst, numberOfImpl_some]

/-- C24: lookup fails exactly when the method is absent. -/
theorem C24_numberOfFirst_none (t : α) (ts : List α) :
    numberOfFirst t ts = none ↔ t ∉ ts := numberOfImpl_none t ts 0

/-- C24: `contains_v` and `has_subset` are membership and inclusion. -/
theorem C24_contains_subset :
    (∀ (t : α) ts, containsV t ts = true ↔ t ∈ ts) ∧
    (∀ (as bs : List α), hasSubset as bs = true ↔ ∀ a ∈ as, a ∈ bs) := by
  refine ⟨containsV_iff, ?_⟩
  intro as bs
  simp [hasSubset, containsV_iff]

example : numberOfFirst 7 [3, 7, 7] = some 1 := by decide

/-! ### C25 flattening -/

/-- C25: flattening yields the leaves, in left-to-right order, with no nested list left. -/
theorem C25_flatten_leaves (ts : List (Item α)) :
    flattenTypes ts = (leaves ts).map Item.leaf := flatten_eq ts

/-- C25: the interface named by a nested list of methods is the list of its leaves. -/
theorem C25_interfaceAlias (ts : List (Item α)) : interfaceAlias ts = some (leaves ts) :=
  flatten_simple ts

/-- C25: idempotence. -/
theorem C25_flatten_idempotent (ts : List (Item α)) :
    flattenTypes (flattenTypes ts) = flattenTypes ts := by
  rw [flatten_eq (flattenTypes ts), flatten_eq ts, leaves_map_leaf]

/-- C25: nesting is invisible: a nested list may be replaced by its elements. -/
theorem C25_flatten_nesting (xs ys zs : List (Item α)) :
    flattenTypes (xs ++ [.list ys] ++ zs) = flattenTypes (xs ++ ys ++ zs) := by
  simp [flatten_eq, leaves_append, leaves, leaves1]

example : interfaceAlias [.leaf 1, .list [.leaf 2, .list [.leaf 3, .list []]], .leaf 4]
    = some [1, 2, 3, 4] := by
  rw [C25_interfaceAlias]; rfl

/-! ### C26 interface_of round trip -/

/-- C26: `interface_of<any_with<Ms...>>` is `interface_alias<Ms...>`, whatever the methods are. -/
theorem C26_interface_of_any_with (destroy : α) (ts : List (Item α)) :
    (anyWith destroy ts).map (getInterfaceOfAny destroy) = interfaceAlias ts := by
  unfold anyWith interfaceAlias
  rw [flatten_simple]
  simp only [Option.map_some, Option.some.injEq]
  generalize leaves ts = l
  cases l with
  | nil => simp [insertIntoBasicAny, getInterfaceOfAny]
  | cons m ms =>
    simp only [insertIntoBasicAny]
    split
    · rename_i h; simp [getInterfaceOfAny, h]
    · rename_i h
      split
      · simp [getInterfaceOfAny, h]
      · simp [getInterfaceOfAny]

/-- C26: every `any_with` exists and has the `destroy` method, and all methods the user named. -/
theorem C26_any_with_has_destroy (destroy : α) (ts : List (Item α)) :
    ∃ ms, anyWith destroy ts = some ms ∧ destroy ∈ ms ∧ leaves ts <:+: ms := by
  unfold anyWith
  rw [flatten_simple]
  refine ⟨_, rfl, ?_⟩
  generalize leaves ts = l
  cases l with
  | nil => simp [insertIntoBasicAny]
  | cons m ms =>
    simp only [insertIntoBasicAny]
    split
    · rename_i h; subst h; exact ⟨by simp, [m], [], by simp⟩
    · split
      · rename_i hc; exact ⟨(containsV_iff _ _).mp hc, [], [], by simp⟩
      · exact ⟨by simp, [destroy], [], by simp⟩

-- destroy absent, first, and in the middle
example : anyWith 0 [.leaf 1, .leaf 2] = some [0, 1, 2] := by
  simp [anyWith, flatten_simple, leaves, leaves1, insertIntoBasicAny, containsV, numberOfFirst,
    numberOfImpl]
example : anyWith 0 [.leaf 0, .leaf 2] = some [0, 0, 2] := by
  simp [anyWith, flatten_simple, leaves, leaves1, insertIntoBasicAny]
example : anyWith 0 [.leaf 1, .leaf 0] = some [1, 0] := by
  simp [anyWith, flatten_simple, leaves, leaves1, insertIntoBasicAny, containsV, numberOfFirst,
    numberOfImpl]

/-! ### C27 duplicates and filtering -/

/-- C27: `without_duplicates` lists each method once, in order of first occurrence. -/
theorem C27_without_duplicates (self : List α) :
    FirstOccurrences self (rcWithoutDuplicates self) := removeDuplicates_spec self

/-- C27: `filtered_by` keeps exactly the satisfying methods in order and with multiplicity. -/
theorem C27_filtered_by (self : List α) (p : α → Bool) :
    rcFilteredBy self p = self.filter p := by
  unfold rcFilteredBy filterTypes
  rw [filterTypes_aux, List.nil_append]

/-- C27: `without_duplicates` is idempotent. -/
theorem C27_without_duplicates_idem (self : List α) :
    rcWithoutDuplicates (rcWithoutDuplicates self) = rcWithoutDuplicates self := by
  unfold rcWithoutDuplicates
  have hn := (removeDuplicates_spec self).1
  generalize removeDuplicates self [] = l at hn
  have h0 : ∀ l : List α, removeDuplicates l [] = firstOcc l := by
    intro l; rw [removeDuplicates_eq]; simp
  rw [h0]
  induction l with
  | nil => simp [firstOcc]
  | cons x xs ih =>
    rw [List.nodup_cons] at hn
    simp only [firstOcc, ih hn.2]
    congr 1
    rw [List.filter_eq_self]
    intro a ha
    simp only [decide_eq_true_eq]
    exact fun e => hn.1 (e ▸ ha)

example : rcWithoutDuplicates [3, 1, 3, 2, 1] = [3, 1, 2] := by decide
example : rcFilteredBy [3, 1, 3, 2, 1] (· != 1) = [3, 3, 2] := by decide

/-! ### C28 subsumes / equivalent_to / append -/

/-- C28: `equivalent_to` is equality of the flattened lists. -/
theorem C28_equivalent_to (self : List α) (ms : List (Item α)) :
    rcEquivalentTo self ms = true ↔ self = leaves ms := by
  simp [rcEquivalentTo, flatten_simple]

/-- C28: `subsumes` holds exactly for contiguous sublists. -/
theorem C28_subsumes (self : List α) (ms : List (Item α)) :
    rcSubsumes self ms = true ↔ leaves ms <:+: self := by
  simp [rcSubsumes, flatten_simple, C23_hasSubsequence_iff_infix]

/-- Subsumption between two concepts given by their (flat) method lists. -/
abbrev subs (a b : List α) : Prop := rcSubsumes a (b.map Item.leaf) = true

/-- C28: subsumption is a partial order with the empty concept at the bottom. -/
theorem C28_subsumes_partial_order :
    (∀ a : List α, subs a a) ∧
    (∀ a b c : List α, subs a b → subs b c → subs a c) ∧
    (∀ a b : List α, subs a b → subs b a → a = b) ∧
    (∀ a : List α, subs a []) := by
  simp only [subs, C28_subsumes, leaves_map_leaf]
  refine ⟨fun a => List.infix_refl a, fun a b c h1 h2 => h2.trans h1, ?_, fun a => List.nil_infix⟩
  intro a b h1 h2
  exact h2.eq_of_length_le h1.length_le

/-- C28: `append` concatenates and the result subsumes both parts. -/
theorem C28_append (self : List α) (ms : List (Item α)) :
    ∃ r, rcAppend self ms = some r ∧ r = self ++ leaves ms ∧
      rcSubsumes r (self.map Item.leaf) = true ∧ rcSubsumes r ms = true := by
  refine ⟨self ++ leaves ms, ?_, rfl, ?_, ?_⟩
  · simp [rcAppend, flatten_simple, leaves_append, leaves_map_leaf]
  · rw [C28_subsumes, leaves_map_leaf]; exact ⟨[], leaves ms, by simp⟩
  · rw [C28_subsumes]; exact ⟨self, [], by simp⟩

example : subs [1, 2, 3] [2, 3] ∧ ¬ subs [1, 2, 3] [1, 3] := by
  simp only [subs, C28_subsumes, leaves_map_leaf]; decide

/-! ### C29 plugins -/

/-- C29: no inherited plugin is repeated, or a base of another inherited plugin. -/
theorem C29_no_duplicates (isVoid : α → Bool) (base : α → α → Bool) (H : IsHierarchy base)
    (ts : List α) :
    (inheritWithoutDuplicates isVoid base ts []).Nodup ∧
    (inheritWithoutDuplicates isVoid base ts []).Pairwise
      (fun a b => base a b = false ∧ base b a = false) := by
  have h := inherit_pairwise (isVoid := isVoid) H ts [] (by simp) (by simp)
  refine ⟨h.imp ?_, h⟩
  rintro a b ⟨h1, _⟩ rfl
  rw [H.refl] at h1; cases h1

/-- C29: a plugin is inherited directly iff it is a listed non-void plugin and no other listed
non-void plugin derives from it. -/
theorem C29_inherited_iff (isVoid : α → Bool) (base : α → α → Bool) (H : IsHierarchy base)
    (hvoid : ∀ a b, isVoid b = true → base a b = true → isVoid a = true)
    (ts : List α) (x : α) :
    x ∈ inheritWithoutDuplicates isVoid base ts [] ↔
      (x ∈ ts ∧ isVoid x = false ∧ ∀ y ∈ ts, isVoid y = false → base x y = true → y = x) := by
  constructor
  · intro hx
    rcases inherit_mem _ _ _ hx with h | ⟨h1, h2⟩
    · simp at h
    · refine ⟨h1, h2, ?_⟩
      intro y hy hvy hb
      obtain ⟨z, hz, hyz⟩ := inherit_cover H hvoid ts [] y hy hvy
      have hxz := H.trans _ _ _ hb hyz
      have hp := (C29_no_duplicates isVoid base H ts).2
      have : x = z := by
        by_cases hne : x = z
        · exact hne
        · have := pairwise_sym_mem hp hx hz hne
          rw [hxz] at this; simp at this
      subst this
      exact (H.antisymm _ _ hb hyz).symm
  · rintro ⟨h1, h2, h3⟩
    obtain ⟨y, hy, hb⟩ := inherit_cover H hvoid ts [] x h1 h2
    rcases inherit_mem _ _ _ hy with h | ⟨h4, h5⟩
    · simp at h
    · have := h3 y h4 h5 hb; subst this; exact hy

/-- C29: every listed non-void plugin is inherited directly or through a derived plugin. -/
theorem C29_all_covered (isVoid : α → Bool) (base : α → α → Bool) (H : IsHierarchy base)
    (hvoid : ∀ a b, isVoid b = true → base a b = true → isVoid a = true)
    (ts : List α) (x : α) (hx : x ∈ ts) (hv : isVoid x = false) :
    ∃ y ∈ inheritWithoutDuplicates isVoid base ts [], base x y = true :=
  inherit_cover H hvoid ts [] x hx hv

/-- A concrete hierarchy: plugin 3 derives from plugin 2 which derives from plugin 1; 0 is void. -/
def demoBase (a b : Nat) : Bool := a == b || (a == 1 && b == 2) || (a == 1 && b == 3) || (a == 2 && b == 3)

theorem demoBase_hierarchy : IsHierarchy demoBase where
  refl := by intro a; simp [demoBase]
  trans := by intro a b c; simp only [demoBase, Bool.or_eq_true, Bool.and_eq_true, beq_iff_eq]; omega
  antisymm := by intro a b; simp only [demoBase, Bool.or_eq_true, Bool.and_eq_true, beq_iff_eq]; omega

example : (∀ a b, (b == 0) = true → demoBase a b = true → (a == 0) = true) := by
  intro a b; simp only [demoBase, Bool.or_eq_true, Bool.and_eq_true, beq_iff_eq]; omega
example : inheritWithoutDuplicates (· == 0) demoBase [0, 2, 5, 1, 3, 5] [] = [3, 5] := by decide

/-! ### C30 normalised buffer size -/

/-- C30: `soo_buffer_size` is idempotent, zero only for zero, and never smaller than requested or
than the maximal alignment. -/
theorem C30_soo_buffer_size (maxAlign : Nat) (hpos : 0 < maxAlign) (s : Nat) :
    sooBufferSize maxAlign (sooBufferSize maxAlign s) = sooBufferSize maxAlign s ∧
    (sooBufferSize maxAlign s = 0 ↔ s = 0) ∧
    s ≤ sooBufferSize maxAlign s ∧
    (s ≠ 0 → maxAlign ≤ sooBufferSize maxAlign s) := by
  unfold sooBufferSize
  by_cases h : s = 0
  · simp [h]
  · have h1 : max maxAlign s ≠ 0 := by omega
    simp only [h, h1, if_false]
    refine ⟨by omega, ?_, by omega, fun _ => by omega⟩
    simp

/-- C30: rebinding keeps an allocator of `std::byte`, `char` or `unsigned char` (0, 1, 2) and makes every other allocator one of `std::byte` of the
same family; so it is idempotent. -/
theorem C30_rebind (a : AllocTy) :
    rebindToByte (rebindToByte a) = rebindToByte a ∧ (rebindToByte a).family = a.family ∧
    (rebindToByte a).valueTy = if a.valueTy ≤ 2 then a.valueTy else 0 := by
  have hb : isByteLike a.valueTy = decide (a.valueTy ≤ 2) := by
    unfold isByteLike
    rw [Bool.eq_iff_iff]
    simp
    omega
  by_cases h : a.valueTy ≤ 2
  · simp [rebindToByte, hb, h]
  · have h0 : isByteLike 0 = true := rfl
    simp [rebindToByte, hb, h, h0]

/-- C30: `basic_any_with<Alloc, SooS, copy_with<Alloc, SooS>, ...>` looks up, in `has_copy`, exactly
the method the user listed, for every allocator and size. -/
theorem C30_copy_with_enables_copy (maxAlign : Nat) (hpos : 0 < maxAlign) (a : AllocTy) (s : Nat) :
    hasCopyKey maxAlign (basicAnyWithParams maxAlign a s) = copyWith maxAlign a s := by
  simp only [hasCopyKey, basicAnyWithParams, copyWith, (C30_rebind a).1,
    (C30_soo_buffer_size maxAlign hpos s).1]

example : 0 < maxAlignDefault ∧ sooBufferSize maxAlignDefault 8 = 16 ∧
    sooBufferSize maxAlignDefault 40 = 40 := by decide

end AnyAny.TypeList
