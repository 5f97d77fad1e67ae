import Verif.Lemmas.VisitInvoke
import Verif.Props.Descriptor
/-
Properties C44-C47, C64, C65: runtime overload resolution with `visit_invoke`.

The types of an overload set are given by descriptors `D` with a strict total order `lt` (C43 shows that the
order of type names is one); `sort` is any correct sorting function.
-/
namespace AnyAny.Visit

variable {D A : Type} [DecidableEq D] {lt : D → D → Bool} {void : D}

/-- An overload set that compiles: no parameter of type `void`, and the lists of decayed parameter types
are different (visit_invoke.hpp:128-132). -/
structure Valid (void : D) (fs : List (Overload D)) : Prop where
  noVoid : ∀ f ∈ fs, ∀ p ∈ f.params, p.desc ≠ void
  distinct : fs.Pairwise fun f g => f.params.map (·.desc) ≠ g.params.map (·.desc)

/-- The parameter types of the overload are, position by position, the types of the arguments. -/
def Matches (f : Overload D) (args : List (Arg D A)) : Prop :=
  f.params.length = args.length ∧ ∀ (k : Nat) (p : Param D) (a : Arg D A), f.params[k]? = some p → args[k]? = some a → p.desc = a.desc

/-- The overload takes no const argument by reference to non-const. -/
def Accepts (f : Overload D) (args : List (Arg D A)) : Prop :=
  ∀ (k : Nat) (p : Param D) (a : Arg D A), f.params[k]? = some p → args[k]? = some a → a.isConst = true →
    p.pass ≠ .lref ∧ p.pass ≠ .rref

omit [DecidableEq D] in
theorem matches_iff {f : Overload D} {args : List (Arg D A)} : Matches f args ↔ f.params.map (·.desc) = args.map (·.desc) := by
  constructor
  · rintro ⟨h1, h2⟩
    apply List.ext_getElem (by simpa using h1)
    intro k hk hk'
    simp only [List.length_map] at hk hk'
    simp only [List.getElem_map]
    exact h2 k _ _ (List.getElem?_eq_getElem hk) (List.getElem?_eq_getElem hk')
  · intro h
    refine ⟨by simpa using congrArg List.length h, ?_⟩
    intro k p a hp ha
    have := congrArg (·[k]?) h
    simp only [List.getElem?_map, hp, ha, Option.map_some] at this
    exact Option.some.inj this

omit [DecidableEq D] in
theorem pairs_distinct {n : Nat} {fs : List (Overload D)} (V : Valid void fs) :
    (pairs void n fs).Pairwise fun a b => a.1 ≠ b.1 := by
  rw [List.pairwise_iff_getElem]
  intro i j hi hj hij
  have hi' : i < fs.length := by simpa [pairs] using hi
  have hj' : j < fs.length := by simpa [pairs] using hj
  simp only [pairs, List.getElem_map, List.getElem_zipIdx]
  intro h
  refine List.pairwise_iff_getElem.1 V.distinct i j hi' hj' hij (padKey_inj ?_ ?_ h)
  · intro h'
    obtain ⟨p, hp, hpv⟩ := List.mem_map.1 h'
    exact V.noVoid _ (List.getElem_mem hi') p hp hpv
  · intro h'
    obtain ⟨p, hp, hpv⟩ := List.mem_map.1 h'
    exact V.noVoid _ (List.getElem_mem hj') p hp hpv

/-- The lookup finds the overload whose padded key is the padded key of the arguments. -/
theorem find_pairs (O : StrictTotal lt) {sort : List (List D × Nat) → List (List D × Nat)} (S : Sorts lt sort)
    {fs : List (Overload D)} (V : Valid void fs) (n : Nat) (key : List D) (i : Nat) :
    find lt (sort (pairs void n fs)) key = some i ↔ ∃ f, fs[i]? = some f ∧ key = padKey void n (f.params.map (·.desc)) := by
  rw [find_sorted O (sort_strict O S (pairs_distinct V)), (S.perm _).mem_iff, mem_pairs]

theorem isConstArg_iff (p : Pass) : isConstArg p = true ↔ p ≠ .lref ∧ p ≠ .rref := by
  cases p <;> simp [isConstArg]

omit [DecidableEq D] in
theorem constCheck_iff {n : Nat} {f : Overload D} {args : List (Arg D A)} (h : f.params.length ≤ n) (ha : args.length ≤ n) :
    constCheck n f args = true ↔ Accepts f args := by
  unfold constCheck
  simp only [List.all_eq_true]
  constructor
  · intro hall k p a hp ha' hc
    have hk : k < f.params.length := (List.getElem?_eq_some_iff.1 hp).1
    have : (args.zip (f.params.map (fun p => isConstArg p.pass) ++ List.replicate (n - f.params.length) true))[k]? = some (a, isConstArg p.pass) := by
      rw [List.getElem?_zip_eq_some]
      refine ⟨ha', ?_⟩
      rw [List.getElem?_append_left (by simpa using hk), List.getElem?_map, hp]; rfl
    have := hall _ (List.mem_of_getElem? this)
    simp only [hc, Bool.true_and, Bool.not_not] at this
    exact (isConstArg_iff _).1 this
  · intro hacc x hx
    obtain ⟨k, hk⟩ := List.mem_iff_getElem?.1 hx
    obtain ⟨a, b⟩ := x
    rw [List.getElem?_zip_eq_some] at hk
    obtain ⟨h1, h2⟩ := hk
    simp only at h1 h2
    by_cases hkl : k < f.params.length
    · rw [List.getElem?_append_left (by simpa using hkl), List.getElem?_map, List.getElem?_eq_getElem hkl] at h2
      simp only [Option.map_some, Option.some.injEq] at h2
      by_cases hc : a.isConst = true
      · have := (isConstArg_iff _).2 (hacc k _ a (List.getElem?_eq_getElem hkl) h1 hc)
        simp [← h2, this]
      · simp [hc]
    · rw [List.getElem?_append_right (by simpa using Nat.le_of_not_lt hkl)] at h2
      have : b = true := (List.mem_replicate.1 (List.mem_of_getElem? h2)).2
      simp [this]

/-- The descriptors of the library are ordered as required: types `T` with distinct names. -/
theorem descriptor_order {T : Type} {m : Descriptor.Mem} {addr : T → Nat} {name : T → List Int}
    (hstr : ∀ t, Descriptor.Str m (addr t) (name t)) (hinj : ∀ s t, name s = name t → s = t) :
    StrictTotal fun s t : T => Descriptor.descCmp m (addr s) (addr t) == some .lt := by
  refine ⟨?_, ?_, ?_⟩
  · intro s
    have h := (Descriptor.C43_lexicographic (hstr s) (hstr s)).2.2.2 rfl
    simp [h]
  · intro s t u h1 h2
    simp only [beq_iff_eq] at *
    exact (Descriptor.C43_total_order (hstr s) (hstr t) (hstr u)).2 h1 h2
  · intro s t h1 h2
    apply hinj
    obtain ⟨⟨c, hc, hc', _⟩, _⟩ := Descriptor.C43_total_order (hstr s) (hstr t) (hstr t)
    simp only [hc, hc', beq_eq_false_iff_ne, ne_eq, Option.some.injEq] at h1 h2
    cases c
    · exact absurd rfl h1
    · exact (Descriptor.C43_lexicographic (hstr s) (hstr t)).2.2.1 hc
    · exact absurd rfl h2

/-! ### C44: visit_invoke resolves exactly -/

omit [DecidableEq D] in
theorem passedArgs_matching {n : Nat} {f : Overload D} {args : List (Arg D A)} (hl : f.params.length = args.length) :
    (passedArgs n f (args.map (·.addr))).map (·.1) = args.map (·.addr) := by
  unfold passedArgs
  rw [hl]
  rw [List.take_append_of_le_length (by simp), List.take_of_length_le (by simp)]
  rw [List.map_fst_zip]
  simp [hl]

/-- The matching overload is called, once, with the addresses of the arguments in their order. -/
theorem C44_calls (O : StrictTotal lt) {sort : List (List D × Nat) → List (List D × Nat)} (S : Sorts lt sort)
    {fs : List (Overload D)} (V : Valid void fs) {args : List (Arg D A)} {i : Nat} {f : Overload D} (hf : fs[i]? = some f)
    (hl : f.callee = .lambda) (hm : Matches f args) (hacc : Accepts f args) (safe : Bool) :
    ∃ out, resolve void lt sort safe fs args = .call i out ∧ out.map (·.1) = args.map (·.addr) := by
  have hfind := (find_pairs O S V (argsCount fs) (padKey void (argsCount fs) (args.map (·.desc))) i).2
    ⟨f, hf, by rw [matches_iff.1 hm]⟩
  have hle := le_argsCount (List.mem_of_getElem? hf)
  refine ⟨passedArgs (argsCount fs) f (args.map (·.addr)), ?_, passedArgs_matching hm.1⟩
  unfold resolve
  simp only [hfind, hf]
  rw [if_pos ((constCheck_iff hle (hm.1 ▸ hle)).2 hacc)]
  unfold matchInvoker
  rw [hl]

/-- If no overload matches, nothing is called and the result is `nullopt`. The arguments have values. -/
theorem C44_nullopt (O : StrictTotal lt) {sort : List (List D × Nat) → List (List D × Nat)} (S : Sorts lt sort)
    {fs : List (Overload D)} (V : Valid void fs) {args : List (Arg D A)} (hv : ∀ a ∈ args, a.desc ≠ void)
    (hno : ∀ f ∈ fs, ¬ Matches f args) (safe : Bool) : resolve void lt sort safe fs args = .nullopt := by
  unfold resolve
  simp only []
  cases hfind : find lt (sort (pairs void (argsCount fs) fs)) (padKey void (argsCount fs) (args.map (·.desc))) with
  | none => rfl
  | some i =>
    obtain ⟨f, hf, hk⟩ := (find_pairs O S V _ _ _).1 hfind
    refine absurd (matches_iff.2 (padKey_inj ?_ ?_ hk.symm)) (hno f (List.mem_of_getElem? hf))
    · intro h'
      obtain ⟨p, hp, hpv⟩ := List.mem_map.1 h'
      exact V.noVoid _ (List.mem_of_getElem? hf) p hp hpv
    · intro h'
      obtain ⟨a, ha, hav⟩ := List.mem_map.1 h'
      exact hv a ha hav

/-- At most one overload matches. -/
theorem C44_unique {fs : List (Overload D)} (V : Valid void fs) {args : List (Arg D A)} {i j : Nat} {f g : Overload D}
    (hf : fs[i]? = some f) (hg : fs[j]? = some g) (hmf : Matches f args) (hmg : Matches g args) : i = j := by
  obtain ⟨hi, hfi⟩ := List.getElem?_eq_some_iff.1 hf
  obtain ⟨hj, hgj⟩ := List.getElem?_eq_some_iff.1 hg
  have heq : f.params.map (·.desc) = g.params.map (·.desc) := (matches_iff.1 hmf).trans (matches_iff.1 hmg).symm
  have P := List.pairwise_iff_getElem.1 V.distinct
  rcases Nat.lt_trichotomy i j with h | h | h
  · exact absurd (by rw [hfi, hgj]; exact heq) (P i j hi hj h)
  · exact h
  · exact absurd (by rw [hfi, hgj]; exact heq.symm) (P j i hj hi h)

/-! ### C45: empty arguments -/

/-- An empty argument matches no overload, if a later argument has a value. -/
theorem C45_before_a_value_partial (O : StrictTotal lt) {sort : List (List D × Nat) → List (List D × Nat)} (S : Sorts lt sort)
    {fs : List (Overload D)} (V : Valid void fs) {args : List (Arg D A)} {k l : Nat} {a b : Arg D A} (ha : args[k]? = some a)
    (hb : args[l]? = some b) (hkl : k < l) (he : a.desc = void) (hbv : b.desc ≠ void) (safe : Bool) :
    resolve void lt sort safe fs args = .nullopt := by
  unfold resolve
  simp only []
  cases hfind : find lt (sort (pairs void (argsCount fs) fs)) (padKey void (argsCount fs) (args.map (·.desc))) with
  | none => rfl
  | some i =>
    exfalso
    obtain ⟨f, hf, hk⟩ := (find_pairs O S V _ _ _).1 hfind
    have hmem := List.mem_of_getElem? hf
    have hka : k < args.length := (List.getElem?_eq_some_iff.1 ha).1
    have hlb : l < args.length := (List.getElem?_eq_some_iff.1 hb).1
    have h1 := congrArg (·[k]?) hk
    have h2 := congrArg (·[l]?) hk
    simp only [padKey] at h1 h2
    rw [List.getElem?_append_left (by simpa using hka), List.getElem?_map, ha] at h1
    rw [List.getElem?_append_left (by simpa using hlb), List.getElem?_map, hb] at h2
    simp only [Option.map_some] at h1 h2
    by_cases hkf : k < f.params.length
    · rw [List.getElem?_append_left (by simpa using hkf), List.getElem?_map, List.getElem?_eq_getElem hkf] at h1
      exact V.noVoid f hmem _ (List.getElem_mem hkf) ((Option.some.inj h1).symm.trans he)
    · rw [List.getElem?_append_right (by simp; omega)] at h2
      exact hbv (List.mem_replicate.1 (List.mem_of_getElem? h2.symm)).2

/-- An empty argument matches no overload with as many parameters as there are arguments; so nothing is called if all
overloads have that many parameters. -/
theorem C45_same_count_partial (O : StrictTotal lt) {sort : List (List D × Nat) → List (List D × Nat)} (S : Sorts lt sort)
    {fs : List (Overload D)} (V : Valid void fs) {args : List (Arg D A)} {a : Arg D A} (ha : a ∈ args) (he : a.desc = void)
    (hlen : ∀ f ∈ fs, f.params.length = args.length) (safe : Bool) : resolve void lt sort safe fs args = .nullopt := by
  unfold resolve
  simp only []
  cases hfind : find lt (sort (pairs void (argsCount fs) fs)) (padKey void (argsCount fs) (args.map (·.desc))) with
  | none => rfl
  | some i =>
    exfalso
    obtain ⟨f, hf, hk⟩ := (find_pairs O S V _ _ _).1 hfind
    have hmem := List.mem_of_getElem? hf
    have hl := hlen f hmem
    have h1 : args.map (·.desc) = f.params.map (·.desc) := by
      have := congrArg (List.take args.length) hk
      simp only [padKey] at this
      rw [List.take_append_of_le_length (by simp), List.take_of_length_le (by simp),
        List.take_append_of_le_length (by simp [hl]), List.take_of_length_le (by simp [hl])] at this
      exact this
    have : void ∈ f.params.map (·.desc) := by rw [← h1]; exact List.mem_map.2 ⟨a, ha, he⟩
    obtain ⟨p, hp, hpv⟩ := List.mem_map.1 this
    exact V.noVoid f hmem p hp hpv

omit [DecidableEq D] in
theorem padKey_append {n : Nat} {xs es : List D} (he : ∀ e ∈ es, e = void) (hl : xs.length + es.length ≤ n) :
    padKey void n (xs ++ es) = padKey void n xs := by
  have : es = List.replicate es.length void := List.eq_replicate_iff.2 ⟨rfl, he⟩
  unfold padKey
  rw [List.append_assoc, this, List.replicate_append_replicate]
  simp only [List.length_append, List.length_replicate]
  congr 2
  omega

/-- C45, in general: empty arguments at the end are treated as if they had not been passed, whatever the overloads are. (With `C44_calls`: an overload for the
arguments before them is called. With `C45_before_a_value_partial`: empty arguments elsewhere match nothing.) -/
theorem C45_trailing_fails (O : StrictTotal lt) {sort : List (List D × Nat) → List (List D × Nat)} (S : Sorts lt sort)
    {fs : List (Overload D)} (V : Valid void fs) {xs es : List (Arg D A)} (he : ∀ e ∈ es, e.desc = void)
    (hlen : (xs ++ es).length ≤ argsCount fs) (safe : Bool) :
    resolve void lt sort safe fs (xs ++ es) = resolve void lt sort safe fs xs := by
  rw [List.length_append] at hlen
  have hkey : padKey void (argsCount fs) ((xs ++ es).map (·.desc)) = padKey void (argsCount fs) (xs.map (·.desc)) := by
    rw [List.map_append]
    refine padKey_append (fun e h => ?_) (by simpa using hlen)
    obtain ⟨a, ha, rfl⟩ := List.mem_map.1 h
    exact he a ha
  unfold resolve
  simp only [hkey]
  cases hfind : find lt (sort (pairs void (argsCount fs) fs)) (padKey void (argsCount fs) (xs.map (·.desc))) with
  | none => rfl
  | some i =>
    obtain ⟨f, hf, hk⟩ := (find_pairs O S V _ _ _).1 hfind
    have hmem := List.mem_of_getElem? hf
    have hle := le_argsCount hmem
    have hfx : f.params.length ≤ xs.length := by
      refine Nat.le_of_not_lt fun hlt => ?_
      have h1 := congrArg (·[xs.length]?) hk
      simp only [padKey] at h1
      rw [List.getElem?_append_right (by simp), List.getElem?_append_left (by simpa using hlt), List.getElem?_map,
        List.getElem?_eq_getElem hlt] at h1
      exact V.noVoid f hmem _ (List.getElem_mem hlt) (List.mem_replicate.1 (List.mem_of_getElem? h1)).2
    have hc : constCheck (argsCount fs) f (xs ++ es) = constCheck (argsCount fs) f xs := by
      rw [Bool.eq_iff_iff, constCheck_iff hle (by simpa using hlen), constCheck_iff hle (by omega)]
      constructor
      · intro h k p a hp ha
        exact h k p a hp (by rw [List.getElem?_append_left (List.getElem?_eq_some_iff.1 ha).1]; exact ha)
      · intro h k p a hp ha
        have : k < f.params.length := (List.getElem?_eq_some_iff.1 hp).1
        exact h k p a hp (by rwa [List.getElem?_append_left (by omega)] at ha)
    have hp : passedArgs (argsCount fs) f ((xs ++ es).map (·.addr)) = passedArgs (argsCount fs) f (xs.map (·.addr)) := by
      unfold passedArgs
      congr 1
      rw [List.map_append, List.append_assoc, List.take_append_of_le_length (by simpa using hfx), List.take_append_of_le_length (by simpa using hfx)]
    simp only [hf, hc, matchInvoker, hp]

/-! ### C46: const correctness -/

/-- The overload that is called takes no const argument by reference to non-const. -/
theorem C46_never_passes_const (O : StrictTotal lt) {sort : List (List D × Nat) → List (List D × Nat)} (S : Sorts lt sort)
    {fs : List (Overload D)} (V : Valid void fs) {args : List (Arg D A)} (hn : args.length ≤ argsCount fs) {safe : Bool} {i : Nat}
    {out : List (Option A × Mode)} (h : resolve void lt sort safe fs args = .call i out) :
    ∃ f, fs[i]? = some f ∧ Accepts f args := by
  unfold resolve at h
  simp only [] at h
  cases hfind : find lt (sort (pairs void (argsCount fs) fs)) (padKey void (argsCount fs) (args.map (·.desc))) with
  | none => rw [hfind] at h; cases h
  | some j =>
    rw [hfind] at h
    obtain ⟨f, hf, hk⟩ := (find_pairs O S V _ _ _).1 hfind
    simp only [hf] at h
    split at h
    · rename_i hc
      have hij : j = i := by
        unfold matchInvoker at h
        split at h
        · injection h
        · cases h
      subst hij
      exact ⟨f, hf, (constCheck_iff (le_argsCount (List.mem_of_getElem? hf)) hn).1 hc⟩
    · split at h <;> cases h

/-- `resolve<false>` returns `nullopt` if the matching overload would take a const argument by reference to
non-const. -/
theorem C46_rejects (O : StrictTotal lt) {sort : List (List D × Nat) → List (List D × Nat)} (S : Sorts lt sort)
    {fs : List (Overload D)} (V : Valid void fs) {args : List (Arg D A)} {i : Nat} {f : Overload D} (hf : fs[i]? = some f)
    (hm : Matches f args) (hacc : ¬ Accepts f args) : resolve void lt sort true fs args = .nullopt := by
  have hfind := (find_pairs O S V (argsCount fs) (padKey void (argsCount fs) (args.map (·.desc))) i).2
    ⟨f, hf, by rw [matches_iff.1 hm]⟩
  have hle := le_argsCount (List.mem_of_getElem? hf)
  unfold resolve
  simp only [hfind, hf]
  rw [if_neg (mt (constCheck_iff hle (hm.1 ▸ hle)).1 hacc)]
  rfl

/-- Without const arguments nothing is rejected: neither by `resolve<false>` nor at compile time. -/
theorem C46_no_const (O : StrictTotal lt) {sort : List (List D × Nat) → List (List D × Nat)} (S : Sorts lt sort)
    {fs : List (Overload D)} (V : Valid void fs) {args : List (Arg D A)} {i : Nat} {f : Overload D} (hf : fs[i]? = some f)
    (hl : f.callee = .lambda) (hm : Matches f args) (hc : ∀ a ∈ args, a.isConst = false) (safe : Bool) :
    (∃ out, resolve void lt sort safe fs args = .call i out) ∧ verifyConst fs (args.map (·.isConst)) = true := by
  constructor
  · obtain ⟨out, h, _⟩ := C44_calls O S V hf hl hm (fun k p a _ ha hca => by
      rw [hc a (List.mem_of_getElem? ha)] at hca; cases hca) safe
    exact ⟨out, h⟩
  · unfold verifyConst
    simp only [List.any_eq_true]
    refine ⟨f, List.mem_of_getElem? hf, ?_⟩
    rw [List.all_eq_true]
    rintro ⟨x, b⟩ hx
    have hb : b = false := by
      rcases List.mem_append.1 (List.of_mem_zip hx).2 with h | h
      · obtain ⟨a, ha, rfl⟩ := List.mem_map.1 h; exact hc a ha
      · exact (List.mem_replicate.1 h).2
    simp [hb]

/-- The compile-time check accepts a call iff some overload, whatever its number of parameters, takes none of the const arguments by reference to non-const. -/
theorem C46_static_check {fs : List (Overload D)} {args : List (Arg D A)} (hn : args.length ≤ argsCount fs) :
    verifyConst fs (args.map (·.isConst)) = true ↔ ∃ f ∈ fs, Accepts f args := by
  unfold verifyConst
  simp only [List.any_eq_true]
  refine exists_congr fun f => and_congr_right fun hf => ?_
  have hle := le_argsCount hf
  rw [List.all_eq_true]
  constructor
  · intro hall k p a hp ha hc
    have hk : k < f.params.length := (List.getElem?_eq_some_iff.1 hp).1
    have hka : k < args.length := (List.getElem?_eq_some_iff.1 ha).1
    have h := hall (isConstArg p.pass, a.isConst) (List.mem_of_getElem? (i := k) (by
      rw [List.getElem?_zip_eq_some]
      refine ⟨?_, ?_⟩
      · rw [List.getElem?_append_left (by simpa using hk), List.getElem?_map, hp]; rfl
      · rw [List.getElem?_append_left (by simpa using hka), List.getElem?_map, ha]; rfl))
    rw [hc] at h
    exact (isConstArg_iff _).1 (by simpa using h)
  · rintro hacc ⟨x, b⟩ hx
    obtain ⟨k, hk⟩ := List.mem_iff_getElem?.1 hx
    rw [List.getElem?_zip_eq_some] at hk
    obtain ⟨h1, h2⟩ := hk
    simp only at h1 h2
    by_cases hkl : k < f.params.length
    · rw [List.getElem?_append_left (by simpa using hkl), List.getElem?_map, List.getElem?_eq_getElem hkl] at h1
      simp only [Option.map_some, Option.some.injEq] at h1
      by_cases hka : k < args.length
      · rw [List.getElem?_append_left (by simpa using hka), List.getElem?_map, List.getElem?_eq_getElem hka] at h2
        simp only [Option.map_some, Option.some.injEq] at h2
        by_cases hb : b = true
        · have := (isConstArg_iff _).2 (hacc k _ _ (List.getElem?_eq_getElem hkl) (List.getElem?_eq_getElem hka) (h2.trans hb))
          simp [← h1, this]
        · simp [hb]
      · rw [List.getElem?_append_right (by simpa using Nat.le_of_not_lt hka)] at h2
        simp [(List.mem_replicate.1 (List.mem_of_getElem? h2)).2]
    · rw [List.getElem?_append_right (by simpa using Nat.le_of_not_lt hkl)] at h1
      have : x = true := (List.mem_replicate.1 (List.mem_of_getElem? h1)).2
      simp [this]

/-! ### C47: the overload table -/

/-- A key is found iff it was inserted, with the value inserted with it. -/
theorem C47_lookup {V : Type} (O : StrictTotal lt) {sort : List (List D × V) → List (List D × V)} (S : Sorts lt sort)
    {es : List (List D × V)} (hd : es.Pairwise fun a b => a.1 ≠ b.1) (key : List D) (v : V) :
    find lt (sort es) key = some v ↔ (key, v) ∈ es := by
  rw [find_sorted O (sort_strict O S hd), (S.perm _).mem_iff]

/-- The order of declaration and the sorting algorithm do not matter. -/
theorem C47_declaration_order {V : Type} (O : StrictTotal lt) {sort sort' : List (List D × V) → List (List D × V)} (S : Sorts lt sort)
    (S' : Sorts lt sort') {es es' : List (List D × V)} (hd : es.Pairwise fun a b => a.1 ≠ b.1) (hp : es'.Perm es) (key : List D) :
    find lt (sort' es') key = find lt (sort es) key := by
  have hd' : es'.Pairwise fun a b => a.1 ≠ b.1 := hp.symm.pairwise hd (fun h => fun h' => h h'.symm)
  cases h : find lt (sort es) key with
  | some v =>
    rw [C47_lookup O S hd] at h
    rw [C47_lookup O S' hd', hp.mem_iff]; exact h
  | none =>
    cases h' : find lt (sort' es') key with
    | none => rfl
    | some v =>
      rw [C47_lookup O S' hd', hp.mem_iff, ← C47_lookup O S hd, h] at h'
      cases h'

/-- The constructor's test for unique keys (a compile error if it fails) is exact. -/
theorem C47_unique_keys {V : Type} (O : StrictTotal lt) {sort : List (List D × V) → List (List D × V)} (S : Sorts lt sort)
    (es : List (List D × V)) : keysUnique lt (sort es) = true ↔ es.Pairwise fun a b => a.1 ≠ b.1 := by
  have K := keyLt_strict O
  have key : ∀ l : List (List D × V), (l.Pairwise fun a b => keyLt lt b.1 a.1 = false) →
      (keysUnique lt l = true ↔ l.Pairwise fun a b => a.1 ≠ b.1) := by
    intro l
    induction l with
    | nil => intro _; simp [keysUnique]
    | cons a l ih =>
      intro hs
      rw [List.pairwise_cons] at hs
      cases l with
      | nil => simp [keysUnique]
      | cons b l =>
        have ih' := ih hs.2
        rw [List.pairwise_cons, ← ih']
        have hu : keysUnique lt (a :: b :: l) = (!(!keyLt lt a.1 b.1 && !keyLt lt b.1 a.1) && keysUnique lt (b :: l)) := rfl
        rw [hu, Bool.and_eq_true]
        have hba := hs.1 b (by simp)
        constructor
        · rintro ⟨h1, h2⟩
          refine ⟨?_, h2⟩
          have hab : keyLt lt a.1 b.1 = true := by
            simpa [hba] using h1
          intro c hc
          rintro hac
          rcases List.mem_cons.1 hc with rfl | hc
          · rw [hac, K.irrefl] at hab; cases hab
          · have := (List.pairwise_cons.1 hs.2).1 c hc
            rw [← hac, hab] at this; cases this
        · rintro ⟨h1, h2⟩
          refine ⟨?_, h2⟩
          have : keyLt lt a.1 b.1 = true := by
            cases h : keyLt lt a.1 b.1 with
            | true => rfl
            | false => exact absurd (K.total _ _ h hba) (h1 b (by simp))
          simp [this]
  rw [key _ (S.sorted es)]
  have hsym : ∀ {a b : List D × V}, a.1 ≠ b.1 → b.1 ≠ a.1 := fun h h' => h h'.symm
  exact ⟨fun h => (S.perm es).pairwise h hsym, fun h => (S.perm es).symm.pairwise h hsym⟩

/-! ### A concrete overload set

Types are numbers (0 for `void`): `f0(const 1&, 2&)`, `f1(1)`, `f2(3&&)`, `f3(2, 2)`. -/

def insertKey {V : Type} (lt : D → D → Bool) (x : List D × V) : List (List D × V) → List (List D × V)
  | [] => [x]
  | y :: l => if keyLt lt y.1 x.1 then y :: insertKey lt x l else x :: y :: l

def insertionSort {V : Type} (lt : D → D → Bool) : List (List D × V) → List (List D × V)
  | [] => []
  | x :: l => insertKey lt x (insertionSort lt l)

omit [DecidableEq D] in
theorem insertKey_perm {V : Type} (x : List D × V) (l : List (List D × V)) : (insertKey lt x l).Perm (x :: l) := by
  induction l with
  | nil => exact List.Perm.refl _
  | cons y l ih =>
    unfold insertKey
    split
    · exact (ih.cons y).trans (List.Perm.swap x y l)
    · exact List.Perm.refl _

omit [DecidableEq D] in
theorem insertKey_sorted [DecidableEq D] (O : StrictTotal lt) {V : Type} (x : List D × V) {l : List (List D × V)}
    (h : l.Pairwise fun a b => keyLt lt b.1 a.1 = false) : (insertKey lt x l).Pairwise fun a b => keyLt lt b.1 a.1 = false := by
  have K := keyLt_strict O
  induction l with
  | nil => simp [insertKey]
  | cons y l ih =>
    rw [List.pairwise_cons] at h
    unfold insertKey
    split
    · rename_i hlt
      rw [List.pairwise_cons]
      refine ⟨?_, ih h.2⟩
      intro b hb
      rcases List.mem_cons.1 ((insertKey_perm x l).mem_iff.1 hb) with rfl | hb
      · exact K.asymm hlt
      · exact h.1 b hb
    · rename_i hlt
      rw [List.pairwise_cons]
      refine ⟨?_, List.pairwise_cons.2 h⟩
      intro b hb
      rcases List.mem_cons.1 hb with rfl | hb
      · simpa using hlt
      · cases hbx : keyLt lt b.1 x.1 with
        | false => rfl
        | true =>
          have hyb := h.1 b hb
          exfalso
          by_cases hxy : keyLt lt x.1 y.1 = true
          · have := K.trans _ _ _ hbx hxy; rw [hyb] at this; cases this
          · have := K.total x.1 y.1 (by simpa using hxy) (by simpa using hlt)
            rw [this, hyb] at hbx; cases hbx

/-- Insertion sort is a sorting function, so the hypothesis `Sorts` can be met. -/
theorem insertionSort_sorts (O : StrictTotal lt) {V : Type} : Sorts lt (insertionSort lt (V := V)) where
  perm l := by
    induction l with
    | nil => exact List.Perm.refl _
    | cons x l ih => exact (insertKey_perm x _).trans (ih.cons x)
  sorted l := by
    induction l with
    | nil => exact List.Pairwise.nil
    | cons x l ih => exact insertKey_sorted O x ih

def natLt : Nat → Nat → Bool := fun a b => decide (a < b)

theorem natLt_strict : StrictTotal natLt where
  irrefl a := by simp [natLt]
  trans a b c h1 h2 := by simp only [natLt, decide_eq_true_eq] at *; omega
  total a b h1 h2 := by simp only [natLt, decide_eq_false_iff_not] at *; omega

def exFs : List (Overload Nat) :=
  [⟨[⟨1, .constLref⟩, ⟨2, .lref⟩], .lambda⟩, ⟨[⟨1, .value⟩], .lambda⟩, ⟨[⟨3, .rref⟩], .functionPointer⟩,
   ⟨[⟨2, .value⟩, ⟨2, .value⟩], .lambda⟩]

theorem exFs_valid : Valid 0 exFs where
  noVoid := by decide +kernel
  distinct := by decide +kernel

def exResolve (safe : Bool) (args : List (Arg Nat Nat)) : Outcome Nat :=
  resolve 0 natLt (insertionSort natLt) safe exFs args

/-- C44, C46: `f0` is called for `(const 1, 2)`; with `(1, const 2)` it would take a const argument by non-const
reference. -/
example : exResolve true [⟨1, true, some 10⟩, ⟨2, false, some 20⟩] = .call 0 [(some 10, .constLvalue), (some 20, .lvalue)] ∧
    exResolve true [⟨1, false, some 10⟩, ⟨2, true, some 20⟩] = .nullopt ∧
    exResolve false [⟨1, false, some 10⟩, ⟨2, true, some 20⟩] = .ub ∧
    exResolve true [⟨2, false, some 10⟩, ⟨1, false, some 20⟩] = .nullopt ∧
    exResolve true [⟨4, false, some 10⟩] = .nullopt := by decide +kernel

/-- C44: the hypotheses hold for `f0`. -/
example : ∃ out, exResolve true [⟨1, true, some 10⟩, ⟨2, false, some 20⟩] = .call 0 out ∧ out.map (·.1) = [some 10, some 20] :=
  C44_calls natLt_strict (insertionSort_sorts natLt_strict) exFs_valid (f := exFs[0]) rfl rfl
    (matches_iff.2 (by decide +kernel)) ((constCheck_iff (n := 2) (by decide) (by decide)).1 (by decide +kernel)) true

/-- C45: an empty first argument matches nothing. -/
example : exResolve false [⟨0, false, none⟩, ⟨2, false, some 20⟩] = .nullopt :=
  C45_before_a_value_partial natLt_strict (insertionSort_sorts natLt_strict) exFs_valid (k := 0) (l := 1) rfl rfl (by decide) rfl
    (by decide) false

theorem split_empty (args : List (Arg D A)) : ∃ xs es, args = xs ++ es ∧ (∀ e ∈ es, e.desc = void) ∧
    ∀ a, xs.getLast? = some a → a.desc ≠ void := by
  refine ⟨(args.reverse.dropWhile fun a => a.desc = void).reverse, (args.reverse.takeWhile fun a => a.desc = void).reverse, ?_, ?_, ?_⟩
  · rw [← List.reverse_append, List.takeWhile_append_dropWhile, List.reverse_reverse]
  · intro e he
    have hall := List.all_takeWhile (p := fun a : Arg D A => decide (a.desc = void)) (l := args.reverse)
    simpa using List.all_eq_true.1 hall e (List.mem_reverse.1 he)
  · intro a ha hv
    rw [List.getLast?_reverse] at ha
    have := List.head?_dropWhile_not (fun a : Arg D A => decide (a.desc = void)) args.reverse
    rw [ha] at this
    simp [hv] at this

/-- C45, exactly: what a call with empty arguments does. Those at the end are treated as if they had not been passed; if there is another empty
argument, nothing is called. -/
theorem C45_exact (O : StrictTotal lt) {sort : List (List D × Nat) → List (List D × Nat)} (S : Sorts lt sort)
    {fs : List (Overload D)} (V : Valid void fs) {args : List (Arg D A)} (hlen : args.length ≤ argsCount fs) (safe : Bool) :
    ∃ xs es, args = xs ++ es ∧ (∀ e ∈ es, e.desc = void) ∧ (∀ a, xs.getLast? = some a → a.desc ≠ void) ∧
      resolve void lt sort safe fs args = resolve void lt sort safe fs xs ∧
      ((∃ a ∈ xs, a.desc = void) → resolve void lt sort safe fs args = .nullopt) := by
  obtain ⟨xs, es, rfl, h2, h3⟩ := split_empty (void := void) args
  have h := C45_trailing_fails O S V h2 hlen safe
  refine ⟨xs, es, rfl, h2, h3, h, fun ⟨a, ha, hv⟩ => ?_⟩
  rw [h]
  obtain ⟨k, hk, hka⟩ := List.mem_iff_getElem.1 ha
  have hne : xs ≠ [] := fun e => by rw [e] at ha; cases ha
  have hb : xs[xs.length - 1]? = some (xs.getLast hne) := by
    rw [List.getLast_eq_getElem, List.getElem?_eq_getElem]
  have hbv := h3 _ (List.getLast?_eq_some_getLast hne)
  have hkl : k < xs.length - 1 := by
    rcases Nat.lt_or_ge k (xs.length - 1) with h | h
    · exact h
    · have : k = xs.length - 1 := by omega
      subst this
      rw [List.getLast_eq_getElem] at hbv
      exact absurd (by rw [hka]; exact hv) hbv
  exact C45_before_a_value_partial O S V (List.getElem?_eq_some_iff.2 ⟨hk, hka⟩) hb hkl hv hbv safe

/-- C45: an empty second argument is treated as absent: `resolve(x, empty)` calls the overload with one parameter. -/
theorem C45_fails : ∃ (fs : List (Overload Nat)) (args : List (Arg Nat Nat)) (i : Nat) (out : List (Option Nat × Mode)),
    Valid 0 fs ∧ (∃ a ∈ args, a.desc = 0) ∧ (∃ f ∈ fs, f.params.length = args.length) ∧
    verifyConst fs (args.map (·.isConst)) = true ∧
    ∀ sort, Sorts natLt sort → resolve 0 natLt sort true fs args = .call i out := by
  refine ⟨exFs, [⟨1, false, some 10⟩, ⟨0, false, none⟩], 1, [(some 10, .xvalue)], exFs_valid, ?_, ?_, by decide +kernel, ?_⟩
  · exact ⟨⟨0, false, none⟩, by simp, rfl⟩
  · exact ⟨exFs[0], by simp [exFs], rfl⟩
  · intro sort S
    unfold resolve
    simp only []
    rw [C47_declaration_order natLt_strict (insertionSort_sorts natLt_strict) S (pairs_distinct exFs_valid) (List.Perm.refl _)]
    decide +kernel

example : exResolve true [⟨1, false, some 10⟩, ⟨0, true, none⟩] = exResolve true [⟨1, false, some 10⟩] :=
  C45_trailing_fails natLt_strict (insertionSort_sorts natLt_strict) exFs_valid (xs := [⟨1, false, some 10⟩]) (es := [⟨0, true, none⟩]) (by simp) (by decide) true

/-- C47: the same table whatever the declaration order. -/
example : ([[0, 1], [1, 0], [2, 2], [5]].map (find natLt (insertionSort natLt [([2, 2], 7), ([0, 1], 8), ([1, 0], 9)])) =
      [some 8, some 9, some 7, none]) ∧
    ([[0, 1], [1, 0], [2, 2], [5]].map (find natLt (insertionSort natLt [([1, 0], 9), ([0, 1], 8), ([2, 2], 7)])) =
      [some 8, some 9, some 7, none]) ∧
    keysUnique natLt (insertionSort natLt [([1, 0], 9), ([0, 1], 8), ([1, 0], 7)]) = false := by decide +kernel

/-- C64: `f1` takes its parameter by value; its argument is const, and is moved from. -/
example : exResolve true [⟨1, true, some 10⟩] = .call 1 [(some 10, .xvalue)] ∧
    verifyConst exFs [true] = true := by decide +kernel

/-- C46: a const second argument is refused by the compiler if `f0` is the only overload. -/
example : verifyConst (exFs.take 1) [false, true] = false ∧ verifyConst (exFs.take 1) [true, false] = true := by decide +kernel

/-- C65: `f2` is a function pointer. -/
example : exResolve true [⟨3, false, some 10⟩] = .ub := by decide +kernel

/-! ### C64: parameters taken by value; C65: function pointers -/

/-- For every call: the argument of a parameter taken by value is passed as an xvalue, so that the parameter is
initialised by the move constructor from the argument (an argument that may be an lvalue or const). -/
theorem C64_by_value_fails (O : StrictTotal lt) {sort : List (List D × Nat) → List (List D × Nat)} (S : Sorts lt sort)
    {fs : List (Overload D)} (V : Valid void fs) {args : List (Arg D A)} {i : Nat} {f : Overload D} (hf : fs[i]? = some f)
    (hl : f.callee = .lambda) (hm : Matches f args) (hacc : Accepts f args) (safe : Bool) {k : Nat} {p : Param D} {a : Arg D A}
    (hp : f.params[k]? = some p) (ha : args[k]? = some a) (hv : p.pass = .value) :
    ∃ out, resolve void lt sort safe fs args = .call i out ∧ out[k]? = some (a.addr, .xvalue) := by
  have hfind := (find_pairs O S V (argsCount fs) (padKey void (argsCount fs) (args.map (·.desc))) i).2
    ⟨f, hf, by rw [matches_iff.1 hm]⟩
  have hle := le_argsCount (List.mem_of_getElem? hf)
  refine ⟨passedArgs (argsCount fs) f (args.map (·.addr)), ?_, ?_⟩
  · unfold resolve
    simp only [hfind, hf]
    rw [if_pos ((constCheck_iff hle (hm.1 ▸ hle)).2 hacc)]
    unfold matchInvoker
    rw [hl]
  · unfold passedArgs
    rw [List.getElem?_zip_eq_some]
    have hk : k < args.length := (List.getElem?_eq_some_iff.1 ha).1
    have hml := hm.1
    constructor
    · rw [List.getElem?_take_of_lt (by omega), List.getElem?_append_left (by simpa using hk), List.getElem?_map, ha]; rfl
    · rw [List.getElem?_map, hp]; simp [hv, castMode]

/-- Parameters taken by reference receive the argument with exactly the declared category and constness; so an
overload with reference parameters only can modify a non-const lvalue it asked for, and moves only from what it took by
rvalue reference. -/
theorem C64_references_partial (O : StrictTotal lt) {sort : List (List D × Nat) → List (List D × Nat)} (S : Sorts lt sort)
    {fs : List (Overload D)} (V : Valid void fs) {args : List (Arg D A)} {i : Nat} {f : Overload D} (hf : fs[i]? = some f)
    (hl : f.callee = .lambda) (hm : Matches f args) (hacc : Accepts f args) (safe : Bool) {k : Nat} {p : Param D} {a : Arg D A}
    (hp : f.params[k]? = some p) (ha : args[k]? = some a) :
    ∃ out mode, resolve void lt sort safe fs args = .call i out ∧ out[k]? = some (a.addr, mode) ∧
      (p.pass = .lref → mode = .lvalue) ∧ (p.pass = .constLref → mode = .constLvalue) ∧
      (p.pass = .rref → mode = .xvalue) ∧ (p.pass = .constRref → mode = .constXvalue) ∧
      (a.isConst = true → p.pass ≠ .value → mode = .constLvalue ∨ mode = .constXvalue) := by
  have hfind := (find_pairs O S V (argsCount fs) (padKey void (argsCount fs) (args.map (·.desc))) i).2
    ⟨f, hf, by rw [matches_iff.1 hm]⟩
  have hle := le_argsCount (List.mem_of_getElem? hf)
  refine ⟨passedArgs (argsCount fs) f (args.map (·.addr)), castMode p.pass, ?_, ?_, ?_⟩
  · unfold resolve
    simp only [hfind, hf]
    rw [if_pos ((constCheck_iff hle (hm.1 ▸ hle)).2 hacc)]
    unfold matchInvoker
    rw [hl]
  · unfold passedArgs
    rw [List.getElem?_zip_eq_some]
    have hk : k < args.length := (List.getElem?_eq_some_iff.1 ha).1
    have hml := hm.1
    constructor
    · rw [List.getElem?_take_of_lt (by omega), List.getElem?_append_left (by simpa using hk), List.getElem?_map, ha]; rfl
    · rw [List.getElem?_map, hp]; rfl
  · have h5 := hacc k p a hp ha
    cases hpp : p.pass <;> simp [castMode]
    · rw [hpp] at h5; exact Bool.eq_false_iff.2 fun h => (h5 h).1 rfl
    · rw [hpp] at h5; exact Bool.eq_false_iff.2 fun h => (h5 h).2 rfl

/-- An overload that is a function pointer is found, but the function is not called: the call goes through a null
pointer. -/
theorem C65_function_pointer_fails (O : StrictTotal lt) {sort : List (List D × Nat) → List (List D × Nat)} (S : Sorts lt sort)
    {fs : List (Overload D)} (V : Valid void fs) {args : List (Arg D A)} {i : Nat} {f : Overload D} (hf : fs[i]? = some f)
    (hl : f.callee = .functionPointer) (hm : Matches f args) (hacc : Accepts f args) (safe : Bool) :
    resolve void lt sort safe fs args = .ub := by
  have hfind := (find_pairs O S V (argsCount fs) (padKey void (argsCount fs) (args.map (·.desc))) i).2
    ⟨f, hf, by rw [matches_iff.1 hm]⟩
  have hle := le_argsCount (List.mem_of_getElem? hf)
  unfold resolve
  simp only [hfind, hf]
  rw [if_pos ((constCheck_iff hle (hm.1 ▸ hle)).2 hacc)]
  unfold matchInvoker
  rw [hl]

end AnyAny.Visit
