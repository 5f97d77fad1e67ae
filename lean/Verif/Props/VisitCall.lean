import Verif.Spec.VisitCall
import Verif.Props.VisitInvoke
/-
C91: results of `resolve`. C92: exceptions of `resolve`.
-/
namespace AnyAny.Visit

variable {D A V W E C : Type} [DecidableEq D] {void : D} {lt : D → D → Bool}

theorem runSteps_append (throws : Step → Option E) (sem : Step → C → C) (l l' : List Step) (c : C) :
    (runSteps throws sem (l ++ l') c).2 =
      match (runSteps throws sem l c).2 with | .error p => .error p | .ok c' => (runSteps throws sem l' c').2 := by
  induction l generalizing c with
  | nil => rfl
  | cons s l ih =>
    simp only [List.cons_append, runSteps]
    cases throws s with
    | some e => rfl
    | none => exact ih _

theorem runSteps_error {throws : Step → Option E} {sem : Step → C → C} {l : List Step} {c : C} {s : Step} {e : E}
    (h : (runSteps throws sem l c).2 = .error (s, e)) : s ∈ l ∧ throws s = some e := by
  induction l generalizing c with
  | nil => cases h
  | cons x l ih =>
    simp only [runSteps] at h
    cases hx : throws x with
    | some e' => rw [hx] at h; cases h; exact ⟨List.mem_cons_self .., hx⟩
    | none => rw [hx] at h; exact ⟨List.mem_cons_of_mem _ (ih h).1, (ih h).2⟩

theorem runSteps_ok {throws : Step → Option E} {sem : Step → C → C} {l : List Step} {c c' : C}
    (h : (runSteps throws sem l c).2 = .ok c') : c' = l.foldl (fun c s => sem s c) c := by
  induction l generalizing c with
  | nil => cases h; rfl
  | cons x l ih =>
    simp only [runSteps] at h
    cases hx : throws x with
    | some e' => rw [hx] at h; cases h
    | none => rw [hx] at h; exact ih h

theorem runSteps_quiet {throws : Step → Option E} {sem : Step → C → C} {l : List Step} (c : C) (h : ∀ s ∈ l, throws s = none) :
    (runSteps throws sem l c).2 = .ok (l.foldl (fun c s => sem s c) c) := by
  cases hr : (runSteps throws sem l c).2 with
  | ok c' => rw [runSteps_ok hr]
  | error p => obtain ⟨s, e⟩ := p; have := (runSteps_error hr).2; rw [h s (runSteps_error hr).1] at this; cases this

theorem foldl_params (mem : A → V) (g : V → W) (c : Conv) (r : Ret A V) (ord : List Nat) (x : Cur A V W) :
    (ord.map Step.param).foldl (fun c' s => stepResult mem g c r s c') x = x := by
  induction ord generalizing x with
  | nil => rfl
  | cons k l ih => simpa [stepResult] using ih x

/-- The call of the matching overload. -/
theorem resolveCall_matching (O : StrictTotal lt) {sort : List (List D × Nat) → List (List D × Nat)} (S : Sorts lt sort)
    {fs : List (Fn D)} (H : Valid void (fs.map (·.toOverload))) {args : List (Arg D A)} {i : Nat} {f : Fn D} (hf : fs[i]? = some f)
    (hl : f.callee = .lambda) (hm : Matches f.toOverload args) (hacc : Accepts f.toOverload args) (safe : Bool) (ord : List Nat)
    (throws : Step → Option E) (mem : A → V) (g : V → W) (ret : Ret A V) :
    resolveCall void lt sort safe fs args ord throws mem g ret =
      some (some (i, (runSteps throws (stepResult mem g f.conv ret) (callSteps f ord) .start).1,
        finish fs f (runSteps throws (stepResult mem g f.conv ret) (callSteps f ord) .start).2)) := by
  obtain ⟨out, h, _⟩ := C44_calls O S H (by rw [List.getElem?_map, hf]; rfl) hl hm hacc safe
  simp only [resolveCall, h, hf]

/-! ### C91: results -/

/-- **C91**: when nothing throws, `resolve` calls the matching overload and returns what initialising a `Result` from the call gives. Missing: results that
refer to the object they are made from, when the overload returns a reference. -/
theorem C91_result_partial (O : StrictTotal lt) {sort : List (List D × Nat) → List (List D × Nat)} (S : Sorts lt sort)
    {fs : List (Fn D)} (H : Valid void (fs.map (·.toOverload))) {args : List (Arg D A)} {i : Nat} {f : Fn D} (hf : fs[i]? = some f)
    (hl : f.callee = .lambda) (hm : Matches f.toOverload args) (hacc : Accepts f.toOverload args) (safe : Bool) (ord : List Nat)
    {throws : Step → Option E} (hq : ∀ s, throws s = none) (mem : A → V) (g : V → W) {ret : Ret A V} (hfit : ret.fits f)
    (hv : f.conv = .view → f.retRef = false) :
    ∃ steps c, resolveCall void lt sort safe fs args ord throws mem g ret = some (some (i, steps, .returns c)) ∧
      directCall f throws mem g ret ord = .returns c := by
  have h1 := runSteps_quiet (sem := stepResult mem g f.conv ret) (l := callSteps f ord) .start fun s _ => hq s
  have h2 := runSteps_quiet (sem := stepResult mem g f.conv ret) (l := directSteps f ord) .start fun s _ => hq s
  refine ⟨(runSteps throws (stepResult mem g f.conv ret) (callSteps f ord) .start).1,
    (callSteps f ord).foldl (fun c s => stepResult mem g f.conv ret s c) .start, ?_, ?_⟩
  · rw [resolveCall_matching O S H hf hl hm hacc safe ord throws mem g ret, h1]; rfl
  · simp only [directCall, h2]
    congr 1
    simp only [callSteps, matchSteps, directSteps, List.foldl_append, foldl_params]
    cases hc : f.conv <;> cases hr : f.retRef <;> cases ret <;> simp_all [stepResult, Ret.fits]

/-- For these it is false, always: the result refers to an object that no longer exists, where it should refer to the one the
overload returned a reference to. -/
theorem C91_result_fails (O : StrictTotal lt) {sort : List (List D × Nat) → List (List D × Nat)} (S : Sorts lt sort)
    {fs : List (Fn D)} (H : Valid void (fs.map (·.toOverload))) {args : List (Arg D A)} {i : Nat} {f : Fn D} (hf : fs[i]? = some f)
    (hl : f.callee = .lambda) (hm : Matches f.toOverload args) (hacc : Accepts f.toOverload args) (safe : Bool) (ord : List Nat)
    {throws : Step → Option E} (hq : ∀ s, throws s = none) (mem : A → V) (g : V → W) (a : A) (hr : f.retRef = true) (hc : f.conv = .view) :
    (∃ steps, resolveCall void lt sort safe fs args ord throws mem g (.ref a) = some (some (i, steps, .returns (.made (g (mem a)) .destroyed)))) ∧
      directCall f throws mem g (.ref a) ord = .returns (.made (g (mem a)) (.object a)) := by
  have h1 := runSteps_quiet (sem := stepResult mem g f.conv (.ref a)) (l := callSteps f ord) .start fun s _ => hq s
  have h2 := runSteps_quiet (sem := stepResult mem g f.conv (.ref a)) (l := directSteps f ord) .start fun s _ => hq s
  refine ⟨⟨(runSteps throws (stepResult mem g f.conv (.ref a)) (callSteps f ord) .start).1, ?_⟩, ?_⟩
  · rw [resolveCall_matching O S H hf hl hm hacc safe ord throws mem g (.ref a), h1]
    simp [finish, callSteps, matchSteps, List.foldl_append, foldl_params, hc, hr, stepResult]
  · simp only [directCall, h2]
    simp [directSteps, List.foldl_append, foldl_params, hc, stepResult]

/-- **C91**, exactly: when nothing throws, `resolve` returns what initialising a `Result` from the call gives if and only if the overload
returns no reference or the result does not refer to what it is made from. -/
theorem C91_exact (O : StrictTotal lt) {sort : List (List D × Nat) → List (List D × Nat)} (S : Sorts lt sort)
    {fs : List (Fn D)} (H : Valid void (fs.map (·.toOverload))) {args : List (Arg D A)} {i : Nat} {f : Fn D} (hf : fs[i]? = some f)
    (hl : f.callee = .lambda) (hm : Matches f.toOverload args) (hacc : Accepts f.toOverload args) (safe : Bool) (ord : List Nat)
    {throws : Step → Option E} (hq : ∀ s, throws s = none) (mem : A → V) (g : V → W) {ret : Ret A V} (hfit : ret.fits f) :
    (∃ steps c, resolveCall void lt sort safe fs args ord throws mem g ret = some (some (i, steps, .returns c)) ∧
      directCall f throws mem g ret ord = .returns c) ↔ ¬(f.conv = .view ∧ f.retRef = true) := by
  constructor
  · rintro ⟨steps, c, h1, h2⟩ ⟨hc, hr⟩
    match ret, hfit with
    | .value v, hfit => rw [show f.retRef = false from hfit] at hr; cases hr
    | .ref a, _ =>
      obtain ⟨⟨st, h1'⟩, h2'⟩ := C91_result_fails O S H hf hl hm hacc safe ord hq mem g a hr hc
      rw [h1] at h1'
      rw [h2] at h2'
      cases h2'
      cases h1'
  · intro hn
    exact C91_result_partial O S H hf hl hm hacc safe ord hq mem g hfit fun hc => by
      cases hr : f.retRef with
      | false => rfl
      | true => exact absurd ⟨hc, hr⟩ hn

/-! ### C92: exceptions -/

/-- The steps that `resolve` adds to the call. -/
def added (f : Fn D) (s : Step) : Prop := s = .toOptional ∨ s = .copyResult ∧ f.conv ≠ .same

/-- The exceptions of a run. -/
def exnOf : Except (Step × E) C → Option (Step × E)
  | .ok _ => none
  | .error p => some p

/-- Which exception comes first does not depend on the results. -/
theorem exn_append {C' : Type} {throws : Step → Option E} {sem : Step → C → C} {sem' : Step → C' → C'} (l : List Step) (c : C) (c' : C') :
    exnOf (runSteps throws sem l c).2 = exnOf (runSteps throws sem' l c').2 := by
  induction l generalizing c c' with
  | nil => rfl
  | cons s l ih =>
    simp only [runSteps]
    cases throws s with
    | some e => rfl
    | none => exact ih _ _

/-- The first exception of a list of steps. -/
def firstExn (throws : Step → Option E) : List Step → Option (Step × E)
  | [] => none
  | s :: l => match throws s with | some e => some (s, e) | none => firstExn throws l

theorem exnOf_run (throws : Step → Option E) (sem : Step → C → C) (l : List Step) (c : C) :
    exnOf (runSteps throws sem l c).2 = firstExn throws l := by
  induction l generalizing c with
  | nil => rfl
  | cons s l ih =>
    simp only [runSteps, firstExn]
    cases throws s with
    | some e => rfl
    | none => exact ih _

theorem firstExn_append (throws : Step → Option E) (l l' : List Step) :
    firstExn throws (l ++ l') = (firstExn throws l).or (firstExn throws l') := by
  induction l with
  | nil => rfl
  | cons s l ih =>
    simp only [List.cons_append, firstExn]
    cases throws s with
    | some e => rfl
    | none => exact ih

theorem firstExn_some {throws : Step → Option E} {l : List Step} {s : Step} {e : E} (h : firstExn throws l = some (s, e)) : throws s = some e := by
  induction l with
  | nil => cases h
  | cons x l ih =>
    simp only [firstExn] at h
    cases hx : throws x with
    | some e' => rw [hx] at h; cases h; exact hx
    | none => rw [hx] at h; exact ih h

/-- Without exceptions in the added steps, the first exception is that of the call. -/
theorem first_exception {f : Fn D} {throws : Step → Option E} (ord : List Nat) (h : ∀ s, added f s → throws s = none) :
    firstExn throws (callSteps f ord) = firstExn throws (directSteps f ord) := by
  have h1 : throws .toOptional = none := h _ (.inl rfl)
  simp only [callSteps, matchSteps, directSteps, List.append_assoc, firstExn_append]
  congr 2
  by_cases hc : f.conv = .same
  · cases hr : f.retRef <;> simp [hc, firstExn, h1]
  · have h2 : throws .copyResult = none := h _ (.inr ⟨rfl, hc⟩)
    cases hr : f.retRef <;> simp [hc, firstExn, h1, h2]

/-- Ends, apart from what is returned. -/
def End.forget : End E C → End E Unit
  | .returns _ => .returns ()
  | .throws e => .throws e
  | .terminates => .terminates

theorem finish_forget (fs : List (Fn D)) (f : Fn D) (x : Except (Step × E) C) :
    (finish fs f x).forget =
      match exnOf x with
      | none => .returns ()
      | some (s, e) => if s = .body ∧ f.noexc = true then .terminates else if fs.all (·.noexc) then .terminates else .throws e := by
  cases x with
  | ok c => rfl
  | error p =>
    obtain ⟨s, e⟩ := p
    simp only [finish, exnOf]
    split
    · rfl
    · split <;> rfl

theorem direct_forget (f : Fn D) (throws : Step → Option E) (mem : A → V) (g : V → W) (ret : Ret A V) (ord : List Nat) :
    (directCall f throws mem g ret ord).forget =
      match firstExn throws (directSteps f ord) with
      | none => .returns ()
      | some (s, e) => if s = .body ∧ f.noexc = true then .terminates else .throws e := by
  rw [← exnOf_run throws (stepResult mem g f.conv ret) _ .start]
  unfold directCall
  cases (runSteps throws (stepResult mem g f.conv ret) (directSteps f ord) .start).2 with
  | ok c => rfl
  | error p =>
    obtain ⟨s, e⟩ := p
    simp only [exnOf]
    split <;> rfl

/-- **C92**: `resolve` throws what the call of the matching overload throws, and returns when that returns. Missing: exceptions of steps that
`resolve` adds, and exceptions from outside the function (initialisation of parameters and of the result) when all overloads are `noexcept`. -/
theorem C92_exceptions_partial (O : StrictTotal lt) {sort : List (List D × Nat) → List (List D × Nat)} (S : Sorts lt sort)
    {fs : List (Fn D)} (H : Valid void (fs.map (·.toOverload))) {args : List (Arg D A)} {i : Nat} {f : Fn D} (hf : fs[i]? = some f)
    (hl : f.callee = .lambda) (hm : Matches f.toOverload args) (hacc : Accepts f.toOverload args) (safe : Bool) (ord : List Nat)
    (throws : Step → Option E) (mem : A → V) (g : V → W) (ret : Ret A V) (hadd : ∀ s, added f s → throws s = none)
    (hne : (∃ g ∈ fs, g.noexc = false) ∨ ∀ s, s ≠ .body → throws s = none) :
    ∃ steps x, resolveCall void lt sort safe fs args ord throws mem g ret = some (some (i, steps, x)) ∧
      x.forget = (directCall f throws mem g ret ord).forget := by
  refine ⟨_, _, resolveCall_matching O S H hf hl hm hacc safe ord throws mem g ret, ?_⟩
  rw [finish_forget, exnOf_run, direct_forget, first_exception ord hadd]
  cases hr : firstExn throws (directSteps f ord) with
  | none => rfl
  | some p =>
    obtain ⟨s, e⟩ := p
    simp only []
    by_cases hb : s = .body ∧ f.noexc = true
    · simp only [hb, and_self, if_true]
    · rw [if_neg hb, if_neg hb, if_neg]
      intro hall
      rw [List.all_eq_true] at hall
      rcases hne with ⟨g, hg, hn⟩ | hne
      · rw [hall g hg] at hn; cases hn
      · have hs := firstExn_some hr
        by_cases hsb : s = .body
        · exact hb ⟨hsb, hall f (List.mem_of_getElem? hf)⟩
        · rw [hne s hsb] at hs; cases hs

/-- **C92**, exactly: the program is terminated iff the body of a `noexcept` overload throws (as it would be without `resolve`), or all overloads
are `noexcept` and a parameter or the result throws. -/
theorem C92_terminates_exact (O : StrictTotal lt) {sort : List (List D × Nat) → List (List D × Nat)} (S : Sorts lt sort)
    {fs : List (Fn D)} (H : Valid void (fs.map (·.toOverload))) {args : List (Arg D A)} {i : Nat} {f : Fn D} (hf : fs[i]? = some f)
    (hl : f.callee = .lambda) (hm : Matches f.toOverload args) (hacc : Accepts f.toOverload args) (safe : Bool) (ord : List Nat)
    (throws : Step → Option E) (mem : A → V) (g : V → W) (ret : Ret A V) :
    (∃ steps, resolveCall void lt sort safe fs args ord throws mem g ret = some (some (i, steps, .terminates))) ↔
      ∃ s e, firstExn throws (callSteps f ord) = some (s, e) ∧ (s = .body ∧ f.noexc = true ∨ ∀ g ∈ fs, g.noexc = true) := by
  rw [resolveCall_matching O S H hf hl hm hacc safe ord throws mem g ret, ← exnOf_run throws (stepResult mem g f.conv ret) _ .start]
  generalize runSteps throws (stepResult mem g f.conv ret) (callSteps f ord) .start = r
  obtain ⟨st, x⟩ := r
  have hx := finish_forget fs f x
  constructor
  · rintro ⟨steps, h⟩
    simp only [Option.some.injEq, Prod.mk.injEq, true_and] at h
    rw [h.2] at hx
    cases x with
    | ok c => cases h.2
    | error p =>
      obtain ⟨s, e⟩ := p
      refine ⟨s, e, rfl, ?_⟩
      simp only [End.forget, exnOf] at hx
      by_cases hb : s = .body ∧ f.noexc = true
      · exact .inl hb
      · rw [if_neg hb] at hx
        by_cases ha : fs.all (·.noexc) = true
        · exact .inr fun g hg => List.all_eq_true.1 ha g hg
        · rw [if_neg ha] at hx; cases hx
  · rintro ⟨s, e, h, hc⟩
    refine ⟨st, ?_⟩
    cases x with
    | ok c => cases h
    | error p =>
      cases h
      simp only [finish]
      rcases hc with hc | hc
      · rw [if_pos hc]
      · by_cases hb : s = .body ∧ f.noexc = true
        · rw [if_pos hb]
        · rw [if_neg hb, if_pos (List.all_eq_true.2 fun g hg => hc g hg)]

/-- The full C92 fails: when all overloads are `noexcept` and the constructor of a parameter taken by value throws, a call would throw its exception
to the caller, `resolve` terminates the program. -/
theorem C92_fails (O : StrictTotal lt) {sort : List (List D × Nat) → List (List D × Nat)} (S : Sorts lt sort)
    {fs : List (Fn D)} (H : Valid void (fs.map (·.toOverload))) {args : List (Arg D A)} {i : Nat} {f : Fn D} (hf : fs[i]? = some f)
    (hl : f.callee = .lambda) (hm : Matches f.toOverload args) (hacc : Accepts f.toOverload args) (safe : Bool) {ord : List Nat}
    (hord : ∀ j, j ∈ ord ↔ TakesByValue f j) (hall : ∀ g ∈ fs, g.noexc = true) {throws : Step → Option E} {k : Nat} {e : E} (hk : TakesByValue f k)
    (hth : ∀ j, throws (.param j) = if j = k then some e else none) (mem : A → V) (g : V → W) (ret : Ret A V) :
    (directCall f throws mem g ret ord).forget = .throws e ∧
      ∃ steps, resolveCall void lt sort safe fs args ord throws mem g ret = some (some (i, steps, .terminates)) := by
  have hko : k ∈ ord := (hord k).2 hk
  have hp : firstExn throws (ord.map .param) = some (.param k, e) := by
    clear hord
    induction ord with
    | nil => cases hko
    | cons j l ih =>
      simp only [List.map_cons, firstExn, hth j]
      by_cases hj : j = k
      · simp [hj]
      · simp only [hj, if_false]
        exact ih ((List.mem_cons.1 hko).resolve_left (fun h => hj h.symm))
  constructor
  · rw [direct_forget]
    simp only [directSteps, List.append_assoc, firstExn_append, hp]
    simp
  · refine (C92_terminates_exact O S H hf hl hm hacc safe ord throws mem g ret).2 ⟨.param k, e, ?_, .inr hall⟩
    simp only [callSteps, matchSteps, List.append_assoc, firstExn_append, hp, Option.some_or]

/-- **C92**: nothing is called and nothing throws when there is no matching overload. -/
theorem C92_nullopt (O : StrictTotal lt) {sort : List (List D × Nat) → List (List D × Nat)} (S : Sorts lt sort)
    {fs : List (Fn D)} (H : Valid void (fs.map (·.toOverload))) {args : List (Arg D A)} (hv : ∀ a ∈ args, a.desc ≠ void)
    (hno : ∀ f ∈ fs, ¬ Matches f.toOverload args) (safe : Bool) (ord : List Nat) (throws : Step → Option E) (mem : A → V) (g : V → W) (ret : Ret A V) :
    resolveCall void lt sort safe fs args ord throws mem g ret = none := by
  simp only [resolveCall, C44_nullopt O S H hv (fun f hf => by obtain ⟨g, hg, rfl⟩ := List.mem_map.1 hf; exact hno g hg) safe]

/-! Examples: `int(A) noexcept` with the parameter taken by value, `const std::string&(B&)` with `Result` a view. -/

def exFn0 : Fn Nat := { params := [⟨1, .value⟩], noexc := true, retRef := false, conv := .value }
def exFn1 : Fn Nat := { params := [⟨2, .lref⟩], noexc := true, retRef := true, conv := .view }
def exFns : List (Fn Nat) := [exFn0, exFn1]

theorem exFns_valid : Valid 0 (exFns.map (·.toOverload)) :=
  ⟨by decide +kernel, by decide +kernel⟩

example : ∃ steps, resolveCall 0 natLt (insertionSort natLt) true exFns [(⟨2, false, some 20⟩ : Arg Nat Nat)] [] (fun _ => (none : Option String))
    (fun a => a + 1) (fun v => v + 100) (.ref 7) = some (some (1, steps, .returns (.made 108 .destroyed))) :=
  (C91_result_fails natLt_strict (insertionSort_sorts natLt_strict) exFns_valid (i := 1) (f := exFn1) rfl rfl (matches_iff.2 (by decide +kernel))
    ((constCheck_iff (n := 1) (by decide) (by decide)).1 (by decide +kernel)) true [] (fun _ => rfl) (fun a => a + 1) (fun v => v + 100) 7 rfl rfl).1

example : ∃ steps c, resolveCall 0 natLt (insertionSort natLt) true exFns [(⟨1, false, some 20⟩ : Arg Nat Nat)] [0] (fun _ => (none : Option String))
    (fun a => a + 1) (fun v => v + 100) (.value 7) = some (some (0, steps, .returns c)) ∧ c = .made 107 .nothing := by
  obtain ⟨steps, c, h, h'⟩ := C91_result_partial natLt_strict (insertionSort_sorts natLt_strict) exFns_valid (i := 0) (f := exFn0) rfl rfl (matches_iff.2 (by decide +kernel))
    ((constCheck_iff (n := 1) (by decide) (by decide)).1 (by decide +kernel)) (args := [(⟨1, false, some 20⟩ : Arg Nat Nat)]) true [0] (throws := fun _ => (none : Option String)) (fun _ => rfl)
    (fun a => a + 1) (fun v => v + 100) (ret := .value 7) rfl (by decide)
  exact ⟨steps, c, h, (End.returns.inj h').symm⟩

example : (directCall exFn0 (fun s => if s = .param 0 then some "bad_alloc" else none) (fun a : Nat => a + 1) (fun v => v + 100) (.value 7) [0]).forget = .throws "bad_alloc" ∧
    ∃ steps, resolveCall 0 natLt (insertionSort natLt) true exFns [(⟨1, false, some 20⟩ : Arg Nat Nat)] [0] (fun s => if s = .param 0 then some "bad_alloc" else none)
      (fun a => a + 1) (fun v => v + 100) (.value 7) = some (some (0, steps, .terminates)) :=
  C92_fails natLt_strict (insertionSort_sorts natLt_strict) exFns_valid (i := 0) (f := exFn0) rfl rfl (matches_iff.2 (by decide +kernel))
    ((constCheck_iff (n := 1) (by decide) (by decide)).1 (by decide +kernel)) true
    (fun j => by
      match j with
      | 0 => exact ⟨fun _ => ⟨_, rfl, rfl⟩, fun _ => by simp⟩
      | j + 1 => exact ⟨fun h => by simp at h, fun ⟨_, h, _⟩ => by simp [exFn0] at h⟩)
    (by decide +kernel) (k := 0) ⟨_, rfl, rfl⟩ (fun j => by simp) _ _ _

/-- With an overload that is not `noexcept`, the exception reaches the caller. -/
example : ∃ steps x, resolveCall 0 natLt (insertionSort natLt) true [{ exFn0 with noexc := false }, exFn1] [(⟨1, false, some 20⟩ : Arg Nat Nat)] [0]
      (fun s => if s = .param 0 then some "bad_alloc" else none) (fun a => a + 1) (fun v => v + 100) (.value 7) = some (some (0, steps, x)) ∧ x.forget = .throws "bad_alloc" :=
  C92_exceptions_partial natLt_strict (insertionSort_sorts natLt_strict) ⟨by decide +kernel, by decide +kernel⟩ (i := 0) (f := { exFn0 with noexc := false }) rfl rfl
    (matches_iff.2 (by decide +kernel)) ((constCheck_iff (n := 1) (by decide) (by decide)).1 (by decide +kernel)) true [0] _ _ _ _
    (fun s h => by rcases h with rfl | ⟨rfl, _⟩ <;> rfl) (.inl ⟨_, List.mem_cons_self .., rfl⟩)

end AnyAny.Visit
