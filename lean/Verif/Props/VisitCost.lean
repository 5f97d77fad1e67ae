import Verif.Model.VisitCost
import Verif.Props.VisitInvoke
/-
Property C130: what `resolve` of `visit_invoke` does, in which order, and how often.
-/
namespace AnyAny.Visit

variable {D A : Type} [DecidableEq D] {lt : D → D → Bool} {void : D}

theorem lowerBoundT_fst (below : Nat → Bool) (fuel first len : Nat) : (lowerBoundT below fuel first len).1 = lowerBound below fuel first len := by
  induction fuel generalizing first len with
  | zero => rfl
  | succ fuel ih =>
    unfold lowerBoundT lowerBound
    split
    · rfl
    · dsimp only
      split
      · exact ih _ _
      · exact ih _ _

theorem log2_half {len : Nat} (h : 2 ≤ len) : (len / 2).log2 + 1 = len.log2 := by
  conv => rhs; rw [Nat.log2_def]
  rw [if_pos h]

theorem log2_mono {a b : Nat} (ha : a ≠ 0) (h : a ≤ b) : a.log2 ≤ b.log2 := by
  have hb : b ≠ 0 := by omega
  exact (Nat.le_log2 hb).2 (Nat.le_trans (Nat.log2_self_le ha) h)

theorem probes_le (below : Nat → Bool) (fuel first len : Nat) (h : len ≠ 0) : (lowerBoundT below fuel first len).2.length ≤ len.log2 + 1 := by
  induction fuel generalizing first len with
  | zero => simp [lowerBoundT]
  | succ fuel ih =>
    unfold lowerBoundT
    rw [if_neg h]
    dsimp only
    have step : ∀ f l, l ≤ len / 2 → (lowerBoundT below fuel f l).2.length + 1 ≤ len.log2 + 1 := by
      intro f l hl
      by_cases hz : l = 0
      · subst hz
        have : (lowerBoundT below fuel f 0).2 = [] := by cases fuel <;> simp [lowerBoundT]
        rw [this]; simp
      · have h2 : 2 ≤ len := by omega
        have := ih f l hz
        have m := log2_mono hz hl
        have e := log2_half h2
        omega
    split
    · exact step _ _ (by omega)
    · exact step _ _ (by omega)

theorem probes_least (below : Nat → Bool) (fuel first len : Nat) (h : len ≠ 0) (hf : len ≤ fuel) (hb : ∀ i, below i = false) :
    (lowerBoundT below fuel first len).2.length = len.log2 + 1 ∧ (lowerBoundT below fuel first len).1 = first := by
  induction fuel generalizing first len with
  | zero => omega
  | succ fuel ih =>
    unfold lowerBoundT
    rw [if_neg h]
    dsimp only
    rw [if_neg (by simp [hb])]
    by_cases hz : len / 2 = 0
    · have : len = 1 := by omega
      subst this
      have e : lowerBoundT below fuel first (1 / 2) = (first, []) := by cases fuel <;> simp [lowerBoundT]
      rw [e]; exact ⟨by simp [Nat.log2_def], rfl⟩
    · have := ih first (len / 2) hz (by omega)
      have e := log2_half (len := len) (by omega)
      exact ⟨by simp only [List.length_cons]; omega, this.2⟩

/-- The keys of the table that are less than `key`. -/
def belowKey {V : Type} (lt : D → D → Bool) (tbl : List (List D × V)) (key : List D) (i : Nat) : Bool :=
  match tbl[i]? with | some e => keyLt lt e.1 key | none => false

theorem findT_eq {V : Type} (tbl : List (List D × V)) (key : List D) :
    findT lt tbl key = match tbl[(lowerBoundT (belowKey lt tbl key) tbl.length 0 tbl.length).1]? with
      | none => (none, (lowerBoundT (belowKey lt tbl key) tbl.length 0 tbl.length).2)
      | some e => (if keyLt lt key e.1 then none else some e.2,
          (lowerBoundT (belowKey lt tbl key) tbl.length 0 tbl.length).2 ++ [(lowerBoundT (belowKey lt tbl key) tbl.length 0 tbl.length).1]) := rfl

theorem find_eq' {V : Type} (tbl : List (List D × V)) (key : List D) :
    find lt tbl key = match tbl[lowerBound (belowKey lt tbl key) tbl.length 0 tbl.length]? with
      | none => none
      | some e => if keyLt lt key e.1 then none else some e.2 := rfl

theorem findT_fst {V : Type} (tbl : List (List D × V)) (key : List D) : (findT lt tbl key).1 = find lt tbl key := by
  rw [findT_eq, find_eq', lowerBoundT_fst]
  cases tbl[lowerBound (belowKey lt tbl key) tbl.length 0 tbl.length]? <;> rfl

theorem findT_le {V : Type} (tbl : List (List D × V)) (key : List D) (h : tbl ≠ []) : (findT lt tbl key).2.length ≤ tbl.length.log2 + 2 := by
  rw [findT_eq]
  have := probes_le (belowKey lt tbl key) tbl.length 0 tbl.length (by simpa using h)
  split
  · exact Nat.le_trans this (by omega)
  · simp only [List.length_append, List.length_cons, List.length_nil]; omega

/-- A key that no key of the table is less than takes the most steps. -/
theorem findT_least {V : Type} (tbl : List (List D × V)) (key : List D) (h : tbl ≠ []) (hb : ∀ e ∈ tbl, keyLt lt e.1 key = false) :
    (findT lt tbl key).2.length = tbl.length.log2 + 2 := by
  have := probes_least (belowKey lt tbl key) tbl.length 0 tbl.length (by simpa using h) (Nat.le_refl _) (by
    intro i; unfold belowKey
    cases he : tbl[i]? with
    | none => rfl
    | some e => exact hb e (List.mem_of_getElem? he))
  rw [findT_eq, this.2]
  cases tbl with
  | nil => exact absurd rfl h
  | cons e r => simp only [List.getElem?_cons_zero, List.length_append, List.length_cons, List.length_nil] at this ⊢; omega

theorem probes_faithful (below below' : Nat → Bool) (fuel first len : Nat) (h : ∀ i ∈ (lowerBoundT below fuel first len).2, below' i = below i) :
    lowerBoundT below' fuel first len = lowerBoundT below fuel first len := by
  induction fuel generalizing first len with
  | zero => rfl
  | succ fuel ih =>
    unfold lowerBoundT at h ⊢
    by_cases hl : len = 0
    · simp [hl]
    · simp only [hl, if_false] at h ⊢
      have h0 := h (first + len / 2) (by simp)
      have h1 := fun i hi => h i (List.mem_cons_of_mem _ hi)
      cases hb : below (first + len / 2)
      · simp only [hb, Bool.false_eq_true, if_false] at h0 h1 ⊢
        simp only [h0, Bool.false_eq_true, if_false]
        rw [ih _ _ h1]
      · simp only [hb, if_true] at h0 h1 ⊢
        simp only [h0, if_true]
        rw [ih _ _ h1]

theorem probes_lt (below : Nat → Bool) (fuel first len : Nat) : ∀ i ∈ (lowerBoundT below fuel first len).2, first ≤ i ∧ i < first + len := by
  induction fuel generalizing first len with
  | zero => simp [lowerBoundT]
  | succ fuel ih =>
    unfold lowerBoundT
    by_cases hl : len = 0
    · simp [hl]
    · simp only [hl, if_false]
      intro i hi
      rcases List.mem_cons.1 hi with rfl | hi
      · omega
      · split at hi
        · have := ih _ _ i hi
          omega
        · have := ih _ _ i hi
          omega

/-- **C130 (what is read).** The search reads only entries of the table, and its result depends only on those it reads: another table of the same length with the
same entries there gives the same result, after the same reads. -/
theorem C130_reads {V : Type} (tbl : List (List D × V)) (key : List D) : (∀ i ∈ (findT lt tbl key).2, i < tbl.length) ∧
    ∀ tbl' : List (List D × V), tbl'.length = tbl.length → (∀ i ∈ (findT lt tbl key).2, tbl'[i]? = tbl[i]?) → findT lt tbl' key = findT lt tbl key := by
  constructor
  · intro i hi
    rw [findT_eq] at hi
    split at hi
    · have := probes_lt _ _ _ _ i hi
      omega
    · rename_i e he
      rcases List.mem_append.1 hi with hi | hi
      · have := probes_lt _ _ _ _ i hi
        omega
      · rw [List.mem_singleton.1 hi]
        exact (List.getElem?_eq_some_iff.1 he).1
  · intro tbl' hl h
    have sub : ∀ i ∈ (lowerBoundT (belowKey lt tbl key) tbl.length 0 tbl.length).2, tbl'[i]? = tbl[i]? := by
      intro i hi
      apply h
      rw [findT_eq]
      split
      · exact hi
      · exact List.mem_append_left _ hi
    have e : lowerBoundT (belowKey lt tbl' key) tbl.length 0 tbl.length = lowerBoundT (belowKey lt tbl key) tbl.length 0 tbl.length :=
      probes_faithful _ _ _ _ _ fun i hi => by unfold belowKey; rw [sub i hi]
    have e2 : tbl'[(lowerBoundT (belowKey lt tbl key) tbl.length 0 tbl.length).1]? = tbl[(lowerBoundT (belowKey lt tbl key) tbl.length 0 tbl.length).1]? := by
      cases hr : tbl[(lowerBoundT (belowKey lt tbl key) tbl.length 0 tbl.length).1]? with
      | none =>
        have := List.getElem?_eq_none_iff.1 hr
        exact List.getElem?_eq_none_iff.2 (by omega)
      | some e =>
        rw [← hr]
        apply h
        rw [findT_eq, hr]
        simp
    rw [findT_eq, findT_eq, hl, e, e2]

theorem findIfT_range {n w : Nat} (h : w < n) : findIfT w (List.range n) = (List.range (w + 1)).map Ev.comparePointers := by
  have aux : ∀ (k m : Nat), findIfT (m + k) (List.range' m (k + 1 + (n - (w + 1)))) = (List.range' m (k + 1)).map Ev.comparePointers := by
    intro k
    induction k with
    | zero => intro m; rw [show 0 + 1 + (n - (w + 1)) = (n - (w + 1)) + 1 by omega, List.range'_succ]; simp [findIfT]
    | succ k ih =>
      intro m
      rw [show k + 1 + 1 + (n - (w + 1)) = (k + 1 + (n - (w + 1))) + 1 by omega, List.range'_succ, List.range'_succ (n := k + 1)]
      simp only [findIfT, List.map_cons]
      rw [if_neg (by omega), show m + (k + 1) = m + 1 + k by omega, ih]
  have := aux w 0
  rw [Nat.zero_add, show w + 1 + (n - (w + 1)) = n by omega] at this
  rw [List.range_eq_range', this, List.range_eq_range']

/-- The steps in a list of some kind. -/
def count (p : Ev → Bool) (t : List Ev) : Nat := (t.filter p).length

def Ev.isCompare : Ev → Bool | .compareKeys _ => true | _ => false

/-- The list of steps belongs to `resolve`: it ends as the function of C44-C46 does, with and without assertions. -/
theorem C130_same (sort : List (List D × Nat) → List (List D × Nat)) (safe asserts : Bool) (fs : List (Overload D)) (args : List (Arg D A)) :
    (resolveT void lt sort safe asserts fs args).1 = resolve void lt sort safe fs args := by
  unfold resolveT resolve
  dsimp only
  rw [findT_fst]
  cases find lt (sort (pairs void (argsCount fs) fs)) (padKey void (argsCount fs) (args.map (·.desc))) with
  | none => rfl
  | some i =>
    cases hf : fs[i]? with
    | none => simp only [hf]
    | some f =>
      simp only [hf]
      split
      · cases matchInvoker _ _ _ _ <;> rfl
      · split
        · rfl
        · split <;> rfl

/-- C130: whatever the arguments are, `resolve` asks each for its type, once and in their order, and then compares at most `⌊log₂ n⌋ + 2` keys for `n` overloads. Only if there is
an overload it looks at the others again, and that only with `Unsafe = false` or assertions: the functions are compared one by one in the order of declaration, up to the one found.
Then each argument is asked for its address, once, and the overload is called, once, which is the last step. -/
theorem C130_steps {sort : List (List D × Nat) → List (List D × Nat)} (S : Sorts lt sort) {fs : List (Overload D)} (hne : fs ≠ [])
    (args : List (Arg D A)) (safe asserts : Bool) :
    ∃ t : List Nat, t.length ≤ fs.length.log2 + 2 ∧
      ((resolveT void lt sort safe asserts fs args).2 = (List.range args.length).map Ev.typeOf ++ t.map Ev.compareKeys ∧
          (∀ j out, resolve void lt sort safe fs args ≠ .call j out) ∨
       ∃ i < fs.length, ∃ checked, checked = (List.range args.length).map Ev.typeOf ++ t.map Ev.compareKeys ++
           (if safe = true ∨ asserts = true then (List.range (i + 1)).map Ev.comparePointers else []) ∧
         ((resolveT void lt sort safe asserts fs args).2 = checked ∧ (∀ j out, resolve void lt sort safe fs args ≠ .call j out) ∨
          (resolveT void lt sort safe asserts fs args).2 = checked ++ (List.range args.length).map Ev.addressOf ∧ resolve void lt sort safe fs args = .ub ∨
          (resolveT void lt sort safe asserts fs args).2 = checked ++ (List.range args.length).map Ev.addressOf ++ [.call i] ∧
            ((∃ out, resolve void lt sort safe fs args = .call i out) ∨ (resolve void lt sort safe fs args = .ub ∧ safe = false ∧ asserts = false)))) := by
  refine ⟨(findT lt (sort (pairs void (argsCount fs) fs)) (padKey void (argsCount fs) (args.map (·.desc)))).2, ?_, ?_⟩
  · have hl : (sort (pairs void (argsCount fs) fs)).length = fs.length := by
      rw [(S.perm _).length_eq]; simp [pairs]
    have := findT_le (lt := lt) (sort (pairs void (argsCount fs) fs)) (padKey void (argsCount fs) (args.map (·.desc)))
      (by intro h; rw [h] at hl; exact hne (List.length_eq_zero_iff.1 hl.symm))
    rwa [hl] at this
  · rw [← C130_same sort safe asserts fs args]
    unfold resolveT
    dsimp only
    split
    · exact Or.inl ⟨rfl, by intro j out h; cases h⟩
    · rename_i i hi
      split
      · exact Or.inl ⟨rfl, by intro j out h; cases h⟩
      · rename_i f hf
        have hlt : i < fs.length := (List.getElem?_eq_some_iff.1 hf).1
        refine Or.inr ⟨i, hlt, _, rfl, ?_⟩
        rw [findIfT_range hlt]
        have hcond : (if (safe || asserts) = true then (List.range (i + 1)).map Ev.comparePointers else []) =
            (if safe = true ∨ asserts = true then (List.range (i + 1)).map Ev.comparePointers else []) := by
          cases safe <;> cases asserts <;> rfl
        rw [hcond]
        split
        · cases hc : f.callee with
          | lambda =>
            have : matchInvoker (argsCount fs) i f (args.map (·.addr)) = .call i (passedArgs (argsCount fs) f (args.map (·.addr))) := by
              simp [matchInvoker, hc]
            rw [this]
            exact Or.inr (Or.inr ⟨rfl, Or.inl ⟨_, rfl⟩⟩)
          | functionPointer =>
            have : matchInvoker (argsCount fs) i f (args.map (·.addr)) = .ub := by simp [matchInvoker, hc]
            rw [this]
            exact Or.inr (Or.inl ⟨rfl, rfl⟩)
        · cases safe with
          | true => exact Or.inl ⟨rfl, by intro j out h; cases h⟩
          | false =>
            cases asserts with
            | true => exact Or.inl ⟨rfl, by intro j out h; cases h⟩
            | false =>
              by_cases hc : f.callee = .lambda
              · rw [if_pos hc]; exact Or.inr (Or.inr ⟨rfl, Or.inr ⟨rfl, rfl, rfl⟩⟩)
              · rw [if_neg hc]; exact Or.inr (Or.inl ⟨rfl, rfl⟩)

/-- C130: the steps of a call that takes place, all of them. -/
theorem C130_called (O : StrictTotal lt) {sort : List (List D × Nat) → List (List D × Nat)} (S : Sorts lt sort)
    {fs : List (Overload D)} (V : Valid void fs) {args : List (Arg D A)} {i : Nat} {f : Overload D} (hf : fs[i]? = some f)
    (hl : f.callee = .lambda) (hm : Matches f args) (hacc : Accepts f args) (safe asserts : Bool) :
    ∃ t : List Nat, t.length ≤ fs.length.log2 + 2 ∧
      (resolveT void lt sort safe asserts fs args).2 = (List.range args.length).map Ev.typeOf ++ t.map Ev.compareKeys ++
        (if safe = true ∨ asserts = true then (List.range (i + 1)).map Ev.comparePointers else []) ++
        (List.range args.length).map Ev.addressOf ++ [.call i] := by
  obtain ⟨out, ho, -⟩ := C44_calls O S V hf hl hm hacc safe
  have hne : fs ≠ [] := by rintro rfl; cases hf
  obtain ⟨t, ht, ⟨-, h⟩ | ⟨j, -, c, rfl, ⟨-, h⟩ | ⟨-, h⟩ | ⟨h, ⟨out', h'⟩ | ⟨h', -⟩⟩⟩⟩ := C130_steps (void := void) S hne args safe asserts
  · exact absurd ho (h _ _)
  · exact absurd ho (h _ _)
  · rw [ho] at h; cases h
  · rw [ho] at h'; cases h'; exact ⟨t, ht, h⟩
  · rw [ho] at h'; cases h'

/-- C130: without a matching overload nothing is done but to look for it. -/
theorem C130_no_overload (O : StrictTotal lt) {sort : List (List D × Nat) → List (List D × Nat)} (S : Sorts lt sort)
    {fs : List (Overload D)} (V : Valid void fs) (hne : fs ≠ []) {args : List (Arg D A)} (hv : ∀ a ∈ args, a.desc ≠ void)
    (hno : ∀ f ∈ fs, ¬ Matches f args) (safe asserts : Bool) :
    ∃ t : List Nat, t.length ≤ fs.length.log2 + 2 ∧
      (resolveT void lt sort safe asserts fs args).2 = (List.range args.length).map Ev.typeOf ++ t.map Ev.compareKeys := by
  refine ⟨(findT lt (sort (pairs void (argsCount fs) fs)) (padKey void (argsCount fs) (args.map (·.desc)))).2, ?_, ?_⟩
  · have hl : (sort (pairs void (argsCount fs) fs)).length = fs.length := by
      rw [(S.perm _).length_eq]; simp [pairs]
    have := findT_le (lt := lt) (sort (pairs void (argsCount fs) fs)) (padKey void (argsCount fs) (args.map (·.desc)))
      (by intro h; rw [h] at hl; exact hne (List.length_eq_zero_iff.1 hl.symm))
    rwa [hl] at this
  · have hfind : (findT lt (sort (pairs void (argsCount fs) fs)) (padKey void (argsCount fs) (args.map (·.desc)))).1 = none := by
      rw [findT_fst]
      cases hfind : find lt (sort (pairs void (argsCount fs) fs)) (padKey void (argsCount fs) (args.map (·.desc))) with
      | none => rfl
      | some i =>
        obtain ⟨f, hf, hk⟩ := (find_pairs O S V _ _ _).1 hfind
        refine absurd (matches_iff.2 (padKey_inj ?_ ?_ hk.symm)) (hno f (List.mem_of_getElem? hf))
        · intro h'
          obtain ⟨p, hp, hpv⟩ := List.mem_map.1 h'
          exact V.noVoid _ (List.mem_of_getElem? hf) p hp hpv
        · intro h'
          obtain ⟨a, ha, hav⟩ := List.mem_map.1 h'
          exact hv a ha hav
    unfold resolveT
    simp only [hfind]

/-- C130: the bound is reached for every number of overloads: by the arguments of the overload whose key is the least, and by all whose key is less still. -/
theorem C130_tight {sort : List (List D × Nat) → List (List D × Nat)} (S : Sorts lt sort) {fs : List (Overload D)} (hne : fs ≠ [])
    (args : List (Arg D A)) (safe asserts : Bool)
    (hleast : ∀ f ∈ fs, keyLt lt (padKey void (argsCount fs) (f.params.map (·.desc))) (padKey void (argsCount fs) (args.map (·.desc))) = false) :
    count Ev.isCompare (resolveT void lt sort safe asserts fs args).2 = fs.length.log2 + 2 := by
  have hl : (sort (pairs void (argsCount fs) fs)).length = fs.length := by
    rw [(S.perm _).length_eq]; simp [pairs]
  have hb := findT_least (lt := lt) (sort (pairs void (argsCount fs) fs)) (padKey void (argsCount fs) (args.map (·.desc)))
    (by intro h; rw [h] at hl; exact hne (List.length_eq_zero_iff.1 hl.symm)) (by
      intro e he
      rw [(S.perm _).mem_iff] at he
      simp only [pairs, List.mem_map] at he
      obtain ⟨p, hp, rfl⟩ := he
      exact hleast p.1 (List.mem_of_getElem? (List.mk_mem_zipIdx_iff_getElem?.1 (show (p.1, p.2) ∈ _ from hp))))
  rw [hl] at hb
  have c1 : ∀ l : List Nat, count Ev.isCompare (l.map Ev.typeOf) = 0 := by intro l; simp [count, Ev.isCompare]
  have c2 : ∀ l : List Nat, count Ev.isCompare (l.map Ev.compareKeys) = l.length := by
    intro l
    have : (l.map Ev.compareKeys).filter Ev.isCompare = l.map Ev.compareKeys := List.filter_eq_self.2 (by
      intro e he; obtain ⟨i, -, rfl⟩ := List.mem_map.1 he; rfl)
    simp [count, this]
  have c3 : ∀ l : List Nat, count Ev.isCompare (l.map Ev.addressOf) = 0 := by intro l; simp [count, Ev.isCompare]
  have c4 : ∀ w (l : List Nat), count Ev.isCompare (findIfT w l) = 0 := by
    intro w l
    induction l with
    | nil => rfl
    | cons x l ih =>
      unfold findIfT count
      rw [List.filter_cons_of_neg (by simp [Ev.isCompare])]
      split
      · rfl
      · exact ih
  have c5 : ∀ j, count Ev.isCompare [.call j] = 0 := fun _ => rfl
  have ca : ∀ a b, count Ev.isCompare (a ++ b) = count Ev.isCompare a + count Ev.isCompare b := by intro a b; simp [count]
  have c0 : count Ev.isCompare [] = 0 := rfl
  rw [← hb]
  unfold resolveT
  dsimp only
  repeat' split
  all_goals simp only [ca, c1, c2, c3, c4, c5, c0, Nat.zero_add, Nat.add_zero]

/-! ### Cases -/

/-- Two arguments, four overloads: the table is `{1, void}, {1, 2}, {2, 2}, {3, void}`. With assertions one function is compared; without none. -/
example : resolveT 0 natLt (insertionSort natLt) false true exFs [(⟨1, true, some 10⟩ : Arg Nat Nat), ⟨2, false, some 20⟩] =
    (.call 0 [(some 10, .constLvalue), (some 20, .lvalue)],
     [.typeOf 0, .typeOf 1, .compareKeys 2, .compareKeys 1, .compareKeys 0, .compareKeys 1, .comparePointers 0, .addressOf 0, .addressOf 1, .call 0]) ∧
    (resolveT 0 natLt (insertionSort natLt) false false exFs [(⟨2, true, some 10⟩ : Arg Nat Nat), ⟨2, false, some 20⟩]).2 =
     [.typeOf 0, .typeOf 1, .compareKeys 2, .compareKeys 1, .compareKeys 2, .addressOf 0, .addressOf 1, .call 3] ∧
    (resolveT 0 natLt (insertionSort natLt) true false exFs [(⟨2, true, some 10⟩ : Arg Nat Nat), ⟨2, false, some 20⟩]).2 =
     [.typeOf 0, .typeOf 1, .compareKeys 2, .compareKeys 1, .compareKeys 2, .comparePointers 0, .comparePointers 1, .comparePointers 2, .comparePointers 3,
      .addressOf 0, .addressOf 1, .call 3] := by decide +kernel

end AnyAny.Visit
