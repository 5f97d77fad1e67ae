import Verif.Model.VisitDecay
import Verif.Props.VisitInvoke
/-
C109: an overload called by `visit_invoke` accesses its arguments with their types.
-/
namespace AnyAny.Visit

variable {A : Type} {lt : Option OTy → Option OTy → Bool} {sort : List (List (Option OTy) × Nat) → List (List (Option OTy) × Nat)}

/-- An overload set that compiles: the lists of decayed parameter types are different, and parameters taken by value are no arrays (they would be pointers). -/
structure Compiles (fs : List (List TParam)) : Prop where
  distinct : fs.Pairwise fun f g => f.map (·.ty.decay) ≠ g.map (·.ty.decay)
  byValue : ∀ f ∈ fs, ∀ p ∈ f, p.pass = .value → ∀ t n, p.ty ≠ .arr t n

/-- The decayed types of the parameters are those of the arguments. -/
def Selected (ps : List TParam) (args : List (TArg A)) : Prop := ps.map (·.ty.decay) = args.map (·.ty.decay)

/-- No const argument for a reference to non-const. -/
def ConstOk (ps : List TParam) (args : List (TArg A)) : Prop :=
  ∀ (k : Nat) (p : TParam) (a : TArg A), ps[k]? = some p → args[k]? = some a → a.isConst = true → p.pass ≠ .lref ∧ p.pass ≠ .rref

theorem map_some_inj {α : Type} : ∀ {l m : List α}, l.map some = m.map some → l = m
  | [], [], _ => rfl
  | x :: l, y :: m, h => by
    simp only [List.map_cons, List.cons.injEq, Option.some.injEq] at h
    rw [h.1, map_some_inj h.2]

theorem Compiles.valid {fs : List (List TParam)} (V : Compiles fs) : Valid none (fs.map keyOverload) := by
  constructor
  · intro f hf p hp
    obtain ⟨ps, _, rfl⟩ := List.mem_map.1 hf
    obtain ⟨q, _, rfl⟩ := List.mem_map.1 hp
    intro h; cases h
  · rw [List.pairwise_map]
    refine V.distinct.imp ?_
    intro f g h e
    refine h ?_
    have : (f.map (·.ty.decay)).map some = (g.map (·.ty.decay)).map some := by
      simpa [keyOverload, List.map_map, Function.comp_def] using e
    exact map_some_inj this

theorem typesAgree_iff : ∀ (ps : List TParam) (as : List (TArg A)), ps.length = as.length →
    (typesAgree ps as = true ↔ ps.map (·.ty) = as.map (·.ty))
  | [], [], _ => by simp [typesAgree]
  | p :: ps, a :: as, h => by
    simp [typesAgree, typesAgree_iff ps as (by simpa using h)]

theorem selected_matches {ps : List TParam} {args : List (TArg A)} (h : Selected ps args) :
    Matches (keyOverload ps) (args.map TArg.key) := by
  rw [matches_iff]
  have := congrArg (List.map some) h
  simpa [keyOverload, TArg.key, List.map_map, Function.comp_def] using this

theorem constOk_accepts {ps : List TParam} {args : List (TArg A)} (h : ConstOk ps args) : Accepts (keyOverload ps) (args.map TArg.key) := by
  intro k p a hp ha hc
  simp only [keyOverload, List.getElem?_map, Option.map_eq_some_iff] at hp ha
  obtain ⟨p', hp', rfl⟩ := hp
  obtain ⟨a', ha', rfl⟩ := ha
  exact h k p' a' hp' ha' hc

/-- C109, exactly: if the decayed types of the arguments select an overload, it is called with the arguments just if the types before decay are the same too;
otherwise the behaviour is undefined. -/
theorem C109_exact (O : StrictTotal lt) (S : Sorts lt sort) {fs : List (List TParam)} (V : Compiles fs) {args : List (TArg A)} {i : Nat} {ps : List TParam}
    (hf : fs[i]? = some ps) (hm : Selected ps args) (hc : ConstOk ps args) (safe : Bool) :
    (ps.map (·.ty) = args.map (·.ty) →
      ∃ out, resolveTyped lt sort safe fs args = .call i out ∧ out.map (·.1) = args.map fun a => some a.addr) ∧
    (ps.map (·.ty) ≠ args.map (·.ty) → resolveTyped lt sort safe fs args = .ub) := by
  obtain ⟨out, ho, hout⟩ := C44_calls O S V.valid (i := i) (f := keyOverload ps) (by simp [hf]) rfl (selected_matches hm) (constOk_accepts hc) safe
  have hl : ps.length = args.length := by simpa using congrArg List.length hm
  unfold resolveTyped
  rw [ho]
  simp only [hf]
  constructor
  · intro h
    rw [if_pos ((typesAgree_iff _ _ hl).2 h)]
    exact ⟨out, rfl, by simpa [TArg.key, List.map_map, Function.comp_def] using hout⟩
  · intro h
    rw [if_neg fun h' => h ((typesAgree_iff _ _ hl).1 h')]

/-- C109: nothing selected, nothing called. -/
theorem C109_nullopt (O : StrictTotal lt) (S : Sorts lt sort) {fs : List (List TParam)} (V : Compiles fs) {args : List (TArg A)}
    (hno : ∀ ps ∈ fs, ¬Selected ps args) (safe : Bool) : resolveTyped lt sort safe fs args = .nullopt := by
  unfold resolveTyped
  rw [C44_nullopt O S V.valid (by intro a ha; obtain ⟨b, _, rfl⟩ := List.mem_map.1 ha; intro h; cases h) ?_ safe]
  intro f hf hm
  obtain ⟨ps, hps, rfl⟩ := List.mem_map.1 hf
  refine hno ps hps ?_
  have := matches_iff.1 hm
  have : (ps.map (·.ty.decay)).map some = (args.map (·.ty.decay)).map some := by
    simpa [keyOverload, TArg.key, List.map_map, Function.comp_def] using this
  exact map_some_inj this

theorem decay_eq {t : OTy} (h : ∀ s n, t ≠ .arr s n) : t.decay = t := by
  cases t with
  | arr s n => exact absurd rfl (h s n)
  | other k => rfl
  | ptr s => rfl

/-- C109, without arrays: if the types of the arguments are those of the parameters of an overload, it is called with the arguments; if there is no such
overload, nothing is called. -/
theorem C109_objects_partial (O : StrictTotal lt) (S : Sorts lt sort) {fs : List (List TParam)} (V : Compiles fs) {args : List (TArg A)}
    (hp : ∀ ps ∈ fs, ∀ p ∈ ps, ∀ t n, p.ty ≠ .arr t n) (ha : ∀ a ∈ args, ∀ t n, a.ty ≠ .arr t n) (safe : Bool) :
    (∀ i ps, fs[i]? = some ps → ps.map (·.ty) = args.map (·.ty) → ConstOk ps args →
      ∃ out, resolveTyped lt sort safe fs args = .call i out ∧ out.map (·.1) = args.map fun a => some a.addr) ∧
    ((∀ ps ∈ fs, ps.map (·.ty) ≠ args.map (·.ty)) → resolveTyped lt sort safe fs args = .nullopt) := by
  have key : ∀ ps ∈ fs, Selected ps args ↔ ps.map (·.ty) = args.map (·.ty) := by
    intro ps hps
    unfold Selected
    rw [List.map_congr_left fun p h => decay_eq (hp ps hps p h), List.map_congr_left fun a h => decay_eq (ha a h)]
  constructor
  · intro i ps hf h hc
    exact (C109_exact O S V hf ((key ps (List.mem_of_getElem? hf)).2 h) hc safe).1 h
  · intro h
    exact C109_nullopt O S V (fun ps hps hs => h ps hps ((key ps hps).1 hs)) safe

/-- C109 fails: an array passed where an overload takes a pointer by value (a string literal and `const char*`): the call is accepted, and the bytes of the array are
accessed as a pointer. -/
theorem C109_array_argument_fails (O : StrictTotal lt) (S : Sorts lt sort) {fs : List (List TParam)} (V : Compiles fs) {i : Nat} {t : OTy}
    (hf : fs[i]? = some [⟨.ptr t, .value⟩]) (n : Nat) (c : Bool) (x : A) (safe : Bool) :
    verifyConst (fs.map keyOverload) [c] = true ∧ resolveTyped lt sort safe fs [⟨.arr t n, c, x⟩] = .ub := by
  have hc : ConstOk (A := A) [⟨.ptr t, .value⟩] [⟨.arr t n, c, x⟩] := by
    intro k p a hp _ _
    obtain rfl := List.mem_singleton.1 (List.mem_of_getElem? hp)
    exact ⟨by simp, by simp⟩
  have hle : 1 ≤ argsCount (fs.map keyOverload) :=
    le_argsCount (f := keyOverload [⟨.ptr t, .value⟩]) (List.mem_map.2 ⟨_, List.mem_of_getElem? hf, rfl⟩)
  refine ⟨?_, (C109_exact O S V hf (by rfl) hc safe).2 (by intro h; cases h)⟩
  have := (C46_static_check (fs := fs.map keyOverload) (args := [TArg.key ⟨.arr t n, c, x⟩]) (by simpa using hle)).2
    ⟨keyOverload [⟨.ptr t, .value⟩], List.mem_map.2 ⟨_, List.mem_of_getElem? hf, rfl⟩, constOk_accepts hc⟩
  simpa [TArg.key] using this

/-- C109 fails: an overload that takes an array by reference is called for pointers and for arrays of other lengths, and accesses them as its array. -/
theorem C109_array_parameter_fails (O : StrictTotal lt) (S : Sorts lt sort) {fs : List (List TParam)} (V : Compiles fs) {i : Nat} {t : OTy} {n : Nat}
    (hf : fs[i]? = some [⟨.arr t n, .constLref⟩]) (c : Bool) (x : A) (safe : Bool) :
    resolveTyped lt sort safe fs [⟨.ptr t, c, x⟩] = .ub ∧ ∀ m, m ≠ n → resolveTyped lt sort safe fs [⟨.arr t m, c, x⟩] = .ub := by
  have hc : ∀ ty, ConstOk (A := A) [⟨.arr t n, .constLref⟩] [⟨ty, c, x⟩] := by
    intro ty k p a hp _ _
    obtain rfl := List.mem_singleton.1 (List.mem_of_getElem? hp)
    exact ⟨by simp, by simp⟩
  refine ⟨(C109_exact O S V hf (by rfl) (hc _) safe).2 (by intro h; cases h), fun m hm => ?_⟩
  refine (C109_exact O S V hf (by rfl) (hc _) safe).2 fun h => hm ?_
  simpa using h.symm

/-! ### Examples -/

/-- A name for every type. -/
def OTy.code : OTy → List Nat
  | .other k => [0, k]
  | .ptr t => 1 :: t.code
  | .arr t n => 2 :: n :: t.code

theorem OTy.code_inj : ∀ s t : OTy, s.code = t.code → s = t
  | .other k, .other l, h => by simpa [OTy.code] using h
  | .ptr s, .ptr t, h => by rw [OTy.code_inj s t (by simpa [OTy.code] using h)]
  | .arr s n, .arr t m, h => by
    simp only [OTy.code, List.cons.injEq, true_and] at h
    rw [h.1, OTy.code_inj s t h.2]
  | .other _, .ptr _, h | .other _, .arr _ _, h | .ptr _, .other _, h | .ptr _, .arr _ _, h | .arr _ _, .other _, h | .arr _ _, .ptr _, h => by
    simp [OTy.code] at h

def codeO : Option OTy → List Nat
  | none => []
  | some t => t.code

theorem codeO_inj : ∀ s t, codeO s = codeO t → s = t
  | none, none, _ => rfl
  | some s, some t, h => by rw [OTy.code_inj s t h]
  | none, some t, h => by cases t <;> simp [codeO, OTy.code] at h
  | some t, none, h => by cases t <;> simp [codeO, OTy.code] at h

def exLt : Option OTy → Option OTy → Bool := fun s t => keyLt natLt (codeO s) (codeO t)

theorem exLt_strict : StrictTotal exLt where
  irrefl _ := (keyLt_strict natLt_strict).irrefl _
  trans _ _ _ := (keyLt_strict natLt_strict).trans _ _ _
  total _ _ h1 h2 := codeO_inj _ _ ((keyLt_strict natLt_strict).total _ _ h1 h2)

/-- `[](const char*)`, `[](int&)`, `[](const long (&)[3])`; `char`, `int`, `long` are 0, 1, 2. -/
def exTs : List (List TParam) := [[⟨.ptr (.other 0), .value⟩], [⟨.other 1, .lref⟩], [⟨.arr (.other 2) 3, .constLref⟩]]

theorem exTs_compiles : Compiles exTs where
  distinct := by simp [exTs, OTy.decay]
  byValue := by
    intro f hf p hp hv t n h
    simp only [exTs, List.mem_cons, List.not_mem_nil, or_false] at hf
    rcases hf with rfl | rfl | rfl <;> simp only [List.mem_singleton] at hp <;> subst hp <;> simp_all

/-- `resolve(p)` for a pointer and `resolve(i)` for an `int` work, `resolve("abc")` and `resolve` of a `long*` or of a `long[4]` do not. -/
example : resolveTyped exLt (insertionSort exLt) true exTs [⟨.ptr (.other 0), true, 10⟩] = .call 0 [(some 10, .xvalue)] ∧
    resolveTyped exLt (insertionSort exLt) true exTs [⟨.other 1, false, 10⟩] = .call 1 [(some 10, .lvalue)] ∧
    resolveTyped exLt (insertionSort exLt) true exTs [⟨.arr (.other 2) 3, false, 10⟩] = .call 2 [(some 10, .constLvalue)] ∧
    resolveTyped exLt (insertionSort exLt) true exTs [⟨.arr (.other 0) 4, true, 10⟩] = .ub ∧
    resolveTyped exLt (insertionSort exLt) true exTs [⟨.ptr (.other 2), false, 10⟩] = .ub ∧
    resolveTyped exLt (insertionSort exLt) true exTs [⟨.arr (.other 2) 4, false, 10⟩] = .ub ∧
    resolveTyped exLt (insertionSort exLt) true exTs [⟨.other 5, false, 10⟩] = .nullopt := by decide +kernel

example : resolveTyped exLt (insertionSort exLt) true exTs [⟨.arr (.other 0) 4, true, 10⟩] = .ub :=
  (C109_array_argument_fails exLt_strict (insertionSort_sorts exLt_strict) exTs_compiles (i := 0) rfl 4 true 10 true).2

end AnyAny.Visit
