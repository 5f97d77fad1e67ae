import Verif.Model.ConstLookup
import Verif.Props.VisitInvoke
/-
Property C132: the check for const arguments of `visit_invoke` looks at the overload that is called. True if different functions have different
addresses; false if the linker merges functions with the same code.
-/
namespace AnyAny.Visit

variable {D A P : Type} [DecidableEq D] [DecidableEq P] {lt : D → D → Bool} {void : D}

/-- The overload number `j` is the first one whose function has the same address as that of number `i`. -/
def FirstAt (fn : Nat → P) (i j : Nat) : Prop := j ≤ i ∧ fn j = fn i ∧ ∀ k, k < j → fn k ≠ fn i

omit [DecidableEq D] [DecidableEq P] in
theorem constRows_getElem? (n : Nat) (fn : Nat → P) (fs : List (Overload D)) (k : Nat) :
    (constRows n fn fs)[k]? = fs[k]?.map fun f =>
      (fn k, f.params.map (fun p : Param D => isConstArg p.pass) ++ List.replicate (n - f.params.length) true) := by
  unfold constRows
  rw [List.getElem?_map, List.getElem?_zipIdx]
  cases fs[k]? <;> simp

omit [DecidableEq D] in
theorem constLookup_first {n : Nat} {fn : Nat → P} {fs : List (Overload D)} {i j : Nat} {g : Overload D} (hg : fs[j]? = some g)
    (h : FirstAt fn i j) (args : List (Arg D A)) : constLookup n fn fs (fn i) args = some (constCheck n g args) := by
  obtain ⟨_, h2, h3⟩ := h
  have hj : j < fs.length := (List.getElem?_eq_some_iff.1 hg).1
  have hl : (constRows n fn fs).length = fs.length := by simp [constRows]
  have hrow := constRows_getElem? n fn fs j
  rw [hg] at hrow
  have : (constRows n fn fs).find? (fun r => r.1 == fn i) = some
      (fn j, g.params.map (fun p : Param D => isConstArg p.pass) ++ List.replicate (n - g.params.length) true) := by
    rw [List.find?_eq_some_iff_getElem]
    refine ⟨by simp [h2], j, by omega, ?_, ?_⟩
    · have := List.getElem?_eq_getElem (l := constRows n fn fs) (i := j) (by omega)
      rw [hrow] at this
      exact (Option.some.inj this).symm
    · intro k hk
      have e := List.getElem?_eq_getElem (l := constRows n fn fs) (i := k) (by omega)
      rw [constRows_getElem?, List.getElem?_eq_getElem (by omega)] at e
      have e' := Option.some.inj e
      rw [← e']
      simpa using h3 k hk
  unfold constLookup
  rw [this]
  rfl

omit [DecidableEq P] in
theorem exists_first [DecidableEq P] (fn : Nat → P) (i : Nat) : ∃ j, FirstAt fn i j := by
  suffices h : ∀ m, m ≤ i → (∀ k, k < m → fn k ≠ fn i) → ∃ j, FirstAt fn i j from h 0 (Nat.zero_le _) (by omega)
  intro m hm hk
  induction h : i - m generalizing m with
  | zero =>
    have : m = i := by omega
    subst this
    exact ⟨m, Nat.le_refl _, rfl, hk⟩
  | succ d ih =>
    by_cases he : fn m = fn i
    · exact ⟨m, hm, he, hk⟩
    · refine ih (m + 1) (by omega) ?_ (by omega)
      intro k hk'
      rcases Nat.lt_succ_iff_lt_or_eq.1 hk' with h' | rfl
      · exact hk k h'
      · exact he

/-- **C132, exactly.** If overload `i` matches the arguments, and `g` is the first overload in the list whose function has the same address as the
function of overload `i`, then the call happens if `g` accepts the const arguments; otherwise `resolve<false>` gives `nullopt` and `resolve<true>`
fails the assertion. -/
theorem C132_exact (O : StrictTotal lt) {sort : List (List D × Nat) → List (List D × Nat)} (S : Sorts lt sort)
    {fs : List (Overload D)} (V : Valid void fs) {args : List (Arg D A)} {fn : Nat → P} {i j : Nat} {f g : Overload D}
    (hf : fs[i]? = some f) (hl : f.callee = .lambda) (hm : Matches f args) (hg : fs[j]? = some g) (hj : FirstAt fn i j) (safe : Bool) :
    (Accepts g args → ∃ out, resolveAt void lt sort fn safe fs args = .call i out ∧ out.map (·.1) = args.map (·.addr)) ∧
    (¬Accepts g args → resolveAt void lt sort fn safe fs args = if safe then .nullopt else .ub) := by
  have hfind := (find_pairs O S V (argsCount fs) (padKey void (argsCount fs) (args.map (·.desc))) i).2
    ⟨f, hf, by rw [matches_iff.1 hm]⟩
  have hle := le_argsCount (List.mem_of_getElem? hf)
  have hc := constCheck_iff (A := A) (args := args) (le_argsCount (List.mem_of_getElem? hg)) (hm.1 ▸ hle)
  have hlook := constLookup_first (n := argsCount fs) hg hj args
  constructor
  · intro ha
    refine ⟨passedArgs (argsCount fs) f (args.map (·.addr)), ?_, passedArgs_matching hm.1⟩
    unfold resolveAt
    simp only [hfind, hf, hlook, hc.2 ha]
    unfold matchInvoker
    rw [hl]
  · intro ha
    have : constCheck (argsCount fs) g args = false := by
      cases h : constCheck (argsCount fs) g args with
      | false => rfl
      | true => exact absurd (hc.1 h) ha
    unfold resolveAt
    simp only [hfind, hf, hlook, this]

/-- **C132, partial.** If overloads whose functions have the same address accept the same const arguments, in particular if different functions have
different addresses as C++ demands, then the check is that of the overload that is called: `resolve` does what it does without the search
(C44, C45, C46 hold), for all arguments. Missing: linkers that merge functions of overloads that accept different const arguments. -/
theorem C132_partial (O : StrictTotal lt) {sort : List (List D × Nat) → List (List D × Nat)} (S : Sorts lt sort)
    {fs : List (Overload D)} (V : Valid void fs) {args : List (Arg D A)} (hn : args.length ≤ argsCount fs) {fn : Nat → P}
    (h : ∀ i j f g, fs[i]? = some f → fs[j]? = some g → fn i = fn j → (Accepts f args ↔ Accepts g args)) (safe : Bool) :
    resolveAt void lt sort fn safe fs args = resolve void lt sort safe fs args := by
  unfold resolveAt resolve
  simp only []
  cases hfind : find lt (sort (pairs void (argsCount fs) fs)) (padKey void (argsCount fs) (args.map (·.desc))) with
  | none => rfl
  | some i =>
    obtain ⟨f, hf, _⟩ := (find_pairs O S V _ _ _).1 hfind
    obtain ⟨j, hj⟩ := exists_first fn i
    have hi : i < fs.length := (List.getElem?_eq_some_iff.1 hf).1
    have hg : fs[j]? = some (fs[j]'(Nat.lt_of_le_of_lt hj.1 hi)) := List.getElem?_eq_getElem _
    have hlook := constLookup_first (n := argsCount fs) hg hj args
    have hfg := h i j _ _ hf hg hj.2.1.symm
    have e : constCheck (argsCount fs) (fs[j]'(Nat.lt_of_le_of_lt hj.1 hi)) args = constCheck (argsCount fs) f args := by
      rw [Bool.eq_iff_iff, constCheck_iff (le_argsCount (List.getElem_mem _)) hn, constCheck_iff (le_argsCount (List.mem_of_getElem? hf)) hn]
      exact hfg.symm
    simp only [hf, hlook, e]
    cases constCheck (argsCount fs) f args <;> simp

/-- **C132, different addresses.** If different functions have different addresses, as C++ demands, `resolve` does what it does without the search. -/
theorem C132_different_addresses (O : StrictTotal lt) {sort : List (List D × Nat) → List (List D × Nat)} (S : Sorts lt sort)
    {fs : List (Overload D)} (V : Valid void fs) {args : List (Arg D A)} (hn : args.length ≤ argsCount fs) {fn : Nat → P}
    (h : ∀ i j, i < fs.length → j < fs.length → fn i = fn j → i = j) (safe : Bool) :
    resolveAt void lt sort fn safe fs args = resolve void lt sort safe fs args := by
  refine C132_partial O S V hn (fun i j f g hf hg he => ?_) safe
  have := h i j (List.getElem?_eq_some_iff.1 hf).1 (List.getElem?_eq_some_iff.1 hg).1 he
  subst this
  rw [hf] at hg
  cases hg
  exact Iff.rfl

/-- **C132 fails (const arguments passed).** If the functions of two overloads are merged, the first accepting const arguments, the second, which takes
one of them by reference to non-const, is called with it all the same, even by `resolve<false>`. -/
theorem C132_passes_const_fails (O : StrictTotal lt) {sort : List (List D × Nat) → List (List D × Nat)} (S : Sorts lt sort)
    {fs : List (Overload D)} (V : Valid void fs) {args : List (Arg D A)} {fn : Nat → P} {i j : Nat} {f g : Overload D}
    (hf : fs[i]? = some f) (hl : f.callee = .lambda) (hm : Matches f args) (hg : fs[j]? = some g) (hj : FirstAt fn i j)
    (hc : ¬Accepts f args) (ha : Accepts g args) (safe : Bool) :
    resolve void lt sort true fs args = .nullopt ∧
      ∃ out, resolveAt void lt sort fn safe fs args = .call i out ∧ out.map (·.1) = args.map (·.addr) := by
  refine ⟨?_, (C132_exact O S V hf hl hm hg hj safe).1 ha⟩
  have h1 : FirstAt (P := Nat) id i i := ⟨Nat.le_refl _, rfl, fun k hk => Nat.ne_of_lt hk⟩
  have hle := le_argsCount (List.mem_of_getElem? hf)
  rw [← C132_different_addresses (P := Nat) (fn := id) O S V (hm.1 ▸ hle) (fun _ _ _ _ h => h) true]
  simpa using (C132_exact O S V hf hl hm hf h1 true).2 hc

/-- **C132 fails (calls refused).** Conversely an overload that accepts the const arguments is not called if its function was merged with that of an
overload before it that does not: `resolve<false>` gives `nullopt`, `resolve<true>` fails its assertion. -/
theorem C132_refuses_fails (O : StrictTotal lt) {sort : List (List D × Nat) → List (List D × Nat)} (S : Sorts lt sort)
    {fs : List (Overload D)} (V : Valid void fs) {args : List (Arg D A)} {fn : Nat → P} {i j : Nat} {f g : Overload D}
    (hf : fs[i]? = some f) (hl : f.callee = .lambda) (hm : Matches f args) (hg : fs[j]? = some g) (hj : FirstAt fn i j)
    (hc : Accepts f args) (ha : ¬Accepts g args) :
    (∃ out, resolve void lt sort true fs args = .call i out) ∧
      resolveAt void lt sort fn true fs args = .nullopt ∧ resolveAt void lt sort fn false fs args = .ub := by
  refine ⟨?_, by simpa using (C132_exact O S V hf hl hm hg hj true).2 ha, by simpa using (C132_exact O S V hf hl hm hg hj false).2 ha⟩
  obtain ⟨out, h, _⟩ := C44_calls O S V hf hl hm hc true
  exact ⟨out, h⟩

/-- The overloads `[](A&) { return 0; }` and `[](const B&) { return 0; }`, whose functions have the same code. -/
def exMerged : List (Overload Nat) := [⟨[⟨1, .lref⟩], .lambda⟩, ⟨[⟨2, .constLref⟩], .lambda⟩]

/-- A const argument of type `B`, at address 7. -/
def exConstB : List (Arg Nat Nat) := [⟨2, true, some 7⟩]

-- different addresses: the call; merged: no call
example : resolveAt 0 natLt (insertionSort natLt) (fun i => i) true exMerged exConstB = .call 1 [(some 7, .constLvalue)] := by decide
example : resolveAt 0 natLt (insertionSort natLt) (fun _ => 5) true exMerged exConstB = .nullopt := by decide
-- declared in the other order: a const `A` is passed as `A&`
example : resolveAt 0 natLt (insertionSort natLt) (fun _ => 5) true exMerged.reverse [⟨1, true, some 7⟩] =
    (.call 1 [(some 7, .lvalue)] : Outcome Nat) := by decide
-- the hypotheses hold
example : FirstAt (fun _ => 5) 1 0 ∧ FirstAt (fun i => i) 1 1 := by
  refine ⟨⟨by decide, rfl, by omega⟩, ⟨by decide, rfl, by intro k hk; dsimp only; omega⟩⟩

theorem exMerged_valid : Valid 0 exMerged := ⟨by decide, by decide⟩

example : (∃ out, resolve 0 natLt (insertionSort natLt) true exMerged exConstB = .call 1 out) ∧
    resolveAt 0 natLt (insertionSort natLt) (fun _ => 5) true exMerged exConstB = .nullopt ∧
    resolveAt 0 natLt (insertionSort natLt) (fun _ => 5) false exMerged exConstB = .ub := by
  refine C132_refuses_fails natLt_strict (insertionSort_sorts natLt_strict) exMerged_valid (j := 0) rfl rfl ?_ rfl ⟨by decide, rfl, by omega⟩ ?_ ?_
  · exact matches_iff.2 (by decide)
  · exact (constCheck_iff (n := 1) (by decide) (by decide)).1 (by decide)
  · intro h
    exact absurd ((constCheck_iff (n := 1) (by decide) (by decide)).2 h) (by decide)

end AnyAny.Visit
