import Verif.Lemmas.AnyMemMono
/-
C01, C02, C03, C04, C09, C15: properties of every history of operations on any objects.
A history is a finite sequence of legal operations (`Legal`, Spec/AnyHist.lean), each of which returned
or threw; `Reachable` worlds are those at the end of a history. All theorems hold for every
configuration: buffer size, allocator traits, contained types, user methods, schedule of exceptions.
-/
namespace AnyAny.Mem
variable {cfg : Cfg}

/-- A history used in the examples: values in the buffer and in memory, copies, moves, assignments
between different allocators, emplace, reset, mutation, calls. -/
def exHist : List Op :=
  [.valueCtor 0 exMs 1 2 (.lit 7) false, .valueCtor 1 exMs 2 1 (.lit 5) false, .allocCtor 2 exMs 3,
   .copyCtor 3 exMs 0, .copyAssign 2 1 9, .moveAssign 1 0, .emplace 0 2 (.valueOf 3) false,
   .mutate 3 2 8, .invoke 3 1 4, .swap 0 3 9, .moveCtor 4 3, .reset 2, .replaceWithBytes 2 100,
   .emplace 2 2 (.lit 1) false]

/-- A history where the copy assignment throws when call 5 fails. -/
def exHist2 : List Op :=
  [.valueCtor 0 exMs 1 2 (.lit 7) false, .valueCtor 1 exMs 2 2 (.lit 5) false, .copyAssign 1 0 9,
   .emplace 0 2 (.lit 8) false, .dtor 1, .moveCtor 3 0]

/-! ### C01 -/

/-- C01: no legal operation on a reachable state has undefined behaviour. -/
theorem C01_no_undefined_behaviour (C : CfgOk cfg) {w : World} (h : Reachable cfg w) {op : Op}
    (L : Legal cfg w op) : exec cfg op w ≠ .ub := by
  intro hu
  rcases step_spec C (h.rep C) op L with ⟨w1, σ', h', S⟩ | ⟨w1, σ', h', S⟩ | ⟨_, h'⟩ <;>
    rw [hu] at h' <;> cases h'

/-- C01: no history has undefined behaviour. -/
theorem C01_history (C : CfgOk cfg) (ops : List Op) : run cfg ops .init ≠ .ub := by
  have gen : ∀ w, Reachable cfg w → run cfg ops w ≠ .ub := by
    induction ops with
    | nil => intro w _ h; cases h
    | cons op ops ih =>
      intro w h hr
      unfold run at hr
      split at hr
      · rename_i L
        split at hr
        · rename_i he; exact ih _ (.ok h L he) hr
        · rename_i he; exact ih _ (.exn h L he) hr
        · rename_i he; exact C01_no_undefined_behaviour C h L he
        · cases hr
      · cases hr
  exact gen _ .init

/-- C01: the observers never have undefined behaviour (and never throw or change anything). -/
theorem C01_observers (C : CfgOk cfg) {w : World} (h : Reachable cfg w) {a : Nat} (ha : alive w a) :
    (∃ b, hasValue a w = .ok b w) ∧ (∃ b, isStablePointers a w = .ok b w) ∧ (∃ n, capacity cfg a w = .ok n w) ∧
    (∃ n, sizeofNow cfg a w = .ok n w) ∧ (∃ n, getAllocator a w = .ok n w) := by
  obtain ⟨s, hs, _⟩ := snap_some ha
  have R := h.rep C
  exact ⟨⟨_, hasValue_spec R hs⟩, ⟨_, isStable_spec R hs⟩, ⟨_, capacity_spec R hs⟩, ⟨_, sizeofNow_spec R hs⟩,
    ⟨_, getAllocator_spec R hs⟩⟩

/-- A long history that stays legal to its end, and one where a copy throws in the middle. -/
example : (run exCfg exHist .init).world?.isSome = true := by decide +kernel
example : (run (exCfgF 5) exHist .init).world?.isSome = true := by decide +kernel

/-- With an allocator whose instances are all equal the conditions on allocators hold by themselves. -/
theorem legalStd_iff (he : cfg.alwaysEq = true) (w : World) (op : Op) : LegalStd cfg w op ↔ Legal cfg w op := by
  have h1 : ∀ x y, ¬ AllocsDiffer cfg x y := fun x y h => by have := h.1; rw [he] at this; cases this
  have h2 : ∀ x y, allocEq cfg x y = true := fun x y => by simp [allocEq, he]
  cases op <;> simp [LegalStd, Legal, h1, h2]

/-- C01 for `std::allocator`: no condition on allocators is needed. -/
theorem C01_always_equal_allocators (C : CfgOk cfg) (he : cfg.alwaysEq = true) {w : World} (h : Reachable cfg w) {op : Op}
    (L : LegalStd cfg w op) : exec cfg op w ≠ .ub :=
  C01_no_undefined_behaviour C h ((legalStd_iff he w op).1 L)

/-- An assignment with SooS = 0 from an any with another allocator instance. -/
example : ∃ w, Reachable { exCfg with soos := 0, alwaysEq := true } w ∧
    (Legal { exCfg with soos := 0, alwaysEq := true } w (.moveAssign 1 0) ∧
      allocOf w 0 = some 1 ∧ allocOf w 1 = some 2) :=
  run_witness (ops := [.valueCtor 0 exMs 1 2 (.lit 7) false, .valueCtor 1 exMs 2 1 (.lit 5) false]) (by decide +kernel)

/-! ### C02 -/

/-- C02: every object an any ever constructed is destroyed at most once; while an any contains it, it
was not destroyed and no other any contains it; once no any contains it, it was destroyed exactly once
(objects with trivial destructors need no destructor call). -/
theorem C02_destroyed_exactly_once (C : CfgOk cfg) {w : World} (h : Reachable cfg w) {i : Nat}
    (hi : i < w.nextObj) :
    w.dtors i ≤ 1 ∧
    (∀ a o, content w a = some o → o.id = i →
      w.dtors i = 0 ∧ w.born i = o.ty ∧ ∀ c p, content w c = some p → p.id = i → c = a) ∧
    ((∀ a o, content w a = some o → o.id ≠ i) → (cfg.ty (w.born i)).trivDestr = false → w.dtors i = 1) := by
  have W := h.wf C
  refine ⟨W.once i hi, ?_, ?_⟩
  · rintro a o ho rfl
    obtain ⟨s, v, h1, h2, h3, h4, h5, h6, h7, h8, h9⟩ := content_full W ho
    exact ⟨h8, h7, fun c p hp hid => W.objInj c a p o hp ho hid⟩
  · intro hno hnt
    rcases W.destroyed i hi hnt with h | ⟨_, a, o, ho, hid⟩
    · exact h
    · exact absurd hid (hno a o ho)

/-- C02: when all any objects are gone, every object was destroyed. -/
theorem C02_none_left (C : CfgOk cfg) {w : World} (h : Reachable cfg w) (hall : ∀ a, ¬ alive w a) {i : Nat}
    (hi : i < w.nextObj) (hnt : (cfg.ty (w.born i)).trivDestr = false) : w.dtors i = 1 :=
  (C02_destroyed_exactly_once C h hi).2.2 (fun a o ho => by rw [(snap_none (hall a)).2.1] at ho; cases ho) hnt

/-- Objects are never reused: identities grow, and a destructor call is never undone. -/
theorem C02_identities (C : CfgOk cfg) {w w' : World} {op : Op} (_h : Reachable cfg w) (_L : Legal cfg w op)
    (he : exec cfg op w = .ok () w' ∨ exec cfg op w = .exn w') :
    w.nextObj ≤ w'.nextObj ∧ (∀ i, i < w.nextObj → w'.born i = w.born i) ∧ ∀ i, w.dtors i ≤ w'.dtors i := by
  have _ := C
  rcases he with he | he
  · have := (mono_exec op w).1 _ _ he; exact ⟨this.obj, this.born, this.dtors⟩
  · have := (mono_exec op w).2 _ he; exact ⟨this.obj, this.born, this.dtors⟩

/-- The example history ends with living objects of types with destructors and with dead ones. -/
example : ∃ w, Reachable exCfg w ∧ (w.nextObj > 5 ∧ (content w 4).isSome ∧ w.dtors 1 = 1 ∧ w.dtors 0 ≤ 1) :=
  run_witness (ops := exHist) (by decide +kernel)
example : ∃ w, Reachable exCfg w ∧ (w.nextObj = 1 ∧ w.dtors 0 = 1 ∧ ¬ alive w 0) :=
  run_witness (ops := [.valueCtor 0 exMs 1 2 (.lit 7) false, .dtor 0]) (by decide +kernel)

/-! ### C03 -/

/-- C03: every block ever allocated either was freed exactly once and belongs to no any, or was never
freed and belongs to exactly one any, which remembers its size and whose allocator equals the
allocator that provided it. -/
theorem C03_freed_exactly_once (C : CfgOk cfg) {w : World} (h : Reachable cfg w) {b : Nat} (hb : b < w.nextBlk) :
    (w.frees b = 1 ∧ ∀ a n, memOf w a ≠ some (b, n)) ∨
    (w.frees b = 0 ∧ ∃ a k, w.blks b = some k ∧ memOf w a = some (b, k.size) ∧
      (∃ x, allocOf w a = some x ∧ allocEq cfg k.al x = true) ∧
      ∀ c m, memOf w c = some (b, m) → c = a) := by
  have W := h.wf C
  have hf := W.freed b hb
  cases hk : w.blks b with
  | none =>
    left
    rw [hk] at hf
    refine ⟨by simpa using hf, fun a n hm => ?_⟩
    have := (blk_owned W b).2 ⟨a, n, hm⟩
    rw [hk] at this; cases this
  | some k =>
    right
    rw [hk] at hf
    refine ⟨by simpa using hf, ?_⟩
    obtain ⟨a, n, hm⟩ := (blk_owned W b).1 (by rw [hk]; rfl)
    obtain ⟨s, k', h1, h2, h3, h4, h5, h6⟩ := memOf_some W hm
    rw [hk] at h3; cases h3
    refine ⟨a, k, rfl, by rw [hm, h4], ⟨s.al, by simp [allocOf, h1], h6⟩, fun c m hc => ?_⟩
    obtain ⟨s', k', g1, g2, _⟩ := memOf_some W hc
    exact W.blkInj c s' a s b g1 h1 g2 h2

/-- C03: when all any objects are gone, all memory was returned. -/
theorem C03_no_leak (C : CfgOk cfg) {w : World} (h : Reachable cfg w) (hall : ∀ a, ¬ alive w a) {b : Nat}
    (hb : b < w.nextBlk) : w.frees b = 1 ∧ w.blks b = none := by
  rcases C03_freed_exactly_once C h hb with ⟨h1, h2⟩ | ⟨_, a, k, _, h2, _⟩
  · refine ⟨h1, ?_⟩
    have := (h.wf C).freed b hb
    rw [h1] at this
    cases hk : w.blks b with
    | none => rfl
    | some k => rw [hk] at this; simp at this
  · rw [(snap_none (hall a)).2.2] at h2; cases h2

/-- C03: memory is freed with the size and by an allocator equal to those it was allocated with: any
other deallocation is undefined behaviour in the model, excluded by `C01`. -/
theorem C03_deallocate_checks {w w' : World} {al n : Nat} {p : Ptr}
    (h : deallocate cfg al p n w = .ok () w') :
    ∃ b k, p = .blk b ∧ w.blks b = some k ∧ k.size = n ∧ allocEq cfg k.al al = true ∧ cellFree cfg k.cell = true := by
  unfold deallocate at h
  split at h
  · cases h
  · split at h
    · rename_i b _ k hk
      split at h
      · rename_i hc
        simp only [Bool.and_eq_true, decide_eq_true_eq] at hc
        exact ⟨b, k, rfl, hk, hc.1.1, hc.1.2, hc.2⟩
      · cases h
    · cases h

example : ∃ w, Reachable (exCfgF 5) w ∧ (w.nextBlk = 3 ∧ w.frees 1 = 1 ∧ w.frees 2 = 1 ∧ (memOf w 3).isSome) :=
  run_witness (ops := exHist2) (by decide +kernel)

/-! ### C04 -/

/-- C04: a successful operation changes the family of values as `specStep` says: a family of
independent optional typed values. -/
theorem C04_values_step (C : CfgOk cfg) {w w' : World} {op : Op} (h : Reachable cfg w) (L : Legal cfg w op)
    (he : exec cfg op w = .ok () w') : vals w' = specStep cfg (vals w) op := by
  obtain ⟨σ', S⟩ := step_ok C h L he
  rw [S.rep.vals', S.vals, absOf_vals]

/-- C04: an operation changes nothing of an any it does not name: neither value, nor the identity of
the contained object, nor its memory, class or allocator. -/
theorem C04_others_unchanged (C : CfgOk cfg) {w w' : World} {op : Op} (h : Reachable cfg w) (L : Legal cfg w op)
    (he : exec cfg op w = .ok () w') {c : Nat} (hc : ¬ touches op c) : snap w' c = snap w c := by
  obtain ⟨σ', S⟩ := step_ok C h L he
  have := S.frame c hc
  rw [S.rep.snaps]; exact this

/-- C04: an operation that throws leaves every any unchanged except those that `mayLose` lists (see
C09, C10), and neither creates nor removes any objects. -/
theorem C04_exception_step (C : CfgOk cfg) {w w' : World} {op : Op} (h : Reachable cfg w) (L : Legal cfg w op)
    (he : exec cfg op w = .exn w') :
    (∀ c, ¬ mayLose cfg w op c → snap w' c = snap w c) ∧ ∀ c, alive w' c ↔ alive w c := by
  obtain ⟨σ', S⟩ := step_exn C h L he
  refine ⟨fun c hc => by rw [S.rep.snaps]; exact S.keep c hc, fun c => ?_⟩
  have := S.alive c
  rw [← S.rep.snaps] at this
  simpa [snap, absOf, alive] using (by simpa [snap, absOf] using this : (w'.anys c).isSome = (w.anys c).isSome)

/-- Histories without exceptions. -/
inductive Runs (cfg : Cfg) : List Op → World → World → Prop
  | nil {w} : Runs cfg [] w w
  | cons {op ops w w1 w2} : Legal cfg w op → exec cfg op w = .ok () w1 → Runs cfg ops w1 w2 →
      Runs cfg (op :: ops) w w2

theorem Runs.reachable {ops : List Op} {w w' : World} (hr : Runs cfg ops w w') (h : Reachable cfg w) :
    Reachable cfg w' := by
  induction hr with
  | nil => exact h
  | cons L he _ ih => exact ih (.ok h L he)

/-- C04: a whole history without exceptions has exactly the effect of the same history on a family of
optional values. -/
theorem C04_values_history (C : CfgOk cfg) {ops : List Op} {w : World} (hr : Runs cfg ops .init w) :
    vals w = ops.foldl (specStep cfg) (fun _ => none) := by
  have gen : ∀ {ops w w'}, Runs cfg ops w w' → Reachable cfg w → vals w' = ops.foldl (specStep cfg) (vals w) := by
    intro ops w w' hr
    induction hr with
    | nil => intro _; rfl
    | cons L he _ ih =>
      intro h
      rw [ih (.ok h L he), C04_values_step C h L he]; rfl
  exact gen hr .init

/-- C04: what the observers return is determined by the value. -/
theorem C04_observers (C : CfgOk cfg) {w : World} (h : Reachable cfg w) {a : Nat} {v : Option (Nat × Nat)}
    (ha : vals w a = some v) :
    hasValue a w = .ok v.isSome w ∧
    (HasDesc ((methodsOf w a).getD []) →
      typeDescriptor a w = .ok (v.map (·.1)) w ∧
      ∀ t, anyCastPtr a t w = .ok (if v.map (·.1) = some t then addrOf w a else none) w ∧
        ∀ x, v = some (t, x) → ∃ p o, addrOf w a = some p ∧ readObj p t w = .ok o w ∧ o.val = x) := by
  have hal : alive w a := by
    unfold vals at ha; unfold alive
    cases hh : w.anys a with
    | none => rw [hh] at ha; cases ha
    | some s => rfl
  obtain ⟨s, hs, h1, h2, h3, h4, h5⟩ := snap_some hal
  have hv : v = s.val := by
    have : vals w a = some (view w a) := by
      unfold alive at hal
      obtain ⟨st, hst⟩ := Option.isSome_iff_exists.1 hal
      simp [vals, hst]
    rw [this] at ha
    rw [← h5]; exact (Option.some.inj ha).symm
  have R := h.rep C
  subst hv
  have hloc : addrOf w a = some (s.loc a) := by
    obtain ⟨st, D⟩ := R.det hs
    simp [addrOf, D.get, D.loc]
  refine ⟨?_, fun hti => ?_⟩
  · rw [hasValue_spec R hs]; simp [Snap.val]
  · rw [h3] at hti
    refine ⟨?_, fun t => ⟨?_, ?_⟩⟩
    · rw [typeDescriptor_spec R hs (fun _ => hti)]; simp [Snap.val, Function.comp_def]
    · rw [anyCastPtr_spec R hs (fun _ => hti), hloc]; simp [Snap.val, Function.comp_def]
    · intro x hx
      cases ho : s.obj with
      | none => simp [Snap.val, ho] at hx
      | some ob =>
        simp only [Snap.val, ho, Option.map_some, Option.some.injEq, Prod.mk.injEq] at hx
        obtain ⟨rfl, rfl⟩ := hx
        exact ⟨_, ob, hloc, readObj_spec R hs ho, rfl⟩

/-- After the example history: any 3 was moved from, any 4 holds a `2` with a value that was copied
from any 0 before. -/
example : ∃ w, Reachable exCfg w ∧ (vals w 0 = some (some (2, 84)) ∧ vals w 3 = some none ∧
    vals w 4 = some (some (2, 7)) ∧ vals w 9 = none) :=
  run_witness (ops := exHist) (by decide +kernel)

/-! ### C09 -/

/-- Constructors and copy/move assignments. -/
def Op.isCtorOrAssign : Op → Bool
  | .allocCtor .. | .valueCtor .. | .forceCtor .. | .copyCtor .. | .moveCtor .. | .transMoveCtor ..
  | .copyAssign .. | .moveAssign .. | .materialize .. => true
  | _ => false

/-- C09, in all cases but assignments between anys with really different allocators (`AllocsDiffer`: not always equal, not propagated on move assignment, and
unequal; for copy assignment the allocators that count are that of the target, after propagation, and that of the copy): the operation that threw changed no any at
all. The full statement (without `hm` and `hc`) is false, see `C09_fails`. -/
theorem C09_strong_guarantee_partial (C : CfgOk cfg) {w w' : World} {op : Op} (h : Reachable cfg w)
    (L : Legal cfg w op) (hop : op.isCtorOrAssign = true)
    (hm : ∀ a o s t, op = .moveAssign a o → snap w a = some s → snap w o = some t → ¬ AllocsDiffer cfg s.al t.al)
    (hc : ∀ a o tmp s t, op = .copyAssign a o tmp → snap w a = some s → snap w o = some t →
      ¬ AllocsDiffer cfg (propagatedAl cfg s.al t.al) (cfg.soccc t.al))
    (he : exec cfg op w = .exn w') : ∀ c, snap w' c = snap w c := by
  intro c
  refine (C04_exception_step C h L he).1 c ?_
  intro hl
  cases op <;> simp only [Op.isCtorOrAssign, Bool.false_eq_true] at hop <;> simp only [mayLose] at hl
  · obtain ⟨_, s, t, h1, h2, h3⟩ := hl; exact hc _ _ _ s t rfl h1 h2 h3
  · obtain ⟨_, s, t, h1, h2, h3⟩ := hl; exact hm _ _ s t rfl h1 h2 h3

/-- C09: constructors always give the strong guarantee. -/
theorem C09_constructors (C : CfgOk cfg) {w w' : World} {op : Op} (h : Reachable cfg w)
    (L : Legal cfg w op) (hop : op.isCtorOrAssign = true) (hna : ∀ a o, op ≠ .moveAssign a o)
    (hnc : ∀ a o tmp, op ≠ .copyAssign a o tmp)
    (he : exec cfg op w = .exn w') : ∀ c, snap w' c = snap w c := by
  intro c
  refine (C04_exception_step C h L he).1 c ?_
  intro hm
  cases op <;> simp only [Op.isCtorOrAssign, Bool.false_eq_true] at hop <;> simp only [mayLose] at hm
  · exact hnc _ _ _ rfl
  · exact hna _ _ rfl

/-- C09 holds in full when all instances of the allocator are equal (`std::allocator`). -/
theorem C09_always_equal_allocators (C : CfgOk cfg) (ha : cfg.alwaysEq = true) {w w' : World} {op : Op} (h : Reachable cfg w)
    (L : LegalStd cfg w op) (hop : op.isCtorOrAssign = true) (he : exec cfg op w = .exn w') :
    ∀ c, snap w' c = snap w c :=
  C09_strong_guarantee_partial C h ((legalStd_iff ha w op).1 L) hop
    (fun _ _ _ _ _ _ _ hd => by have := hd.1; rw [ha] at this; cases this)
    (fun _ _ _ _ _ _ _ _ hd => by have := hd.1; rw [ha] at this; cases this) he

/-- C09: an assignment that throws never changes its source or a third any. -/
theorem C09_assignment_other (C : CfgOk cfg) {w w' : World} {a o c tmp : Nat} (h : Reachable cfg w) (hca : c ≠ a) :
    (Legal cfg w (.moveAssign a o) → exec cfg (.moveAssign a o) w = .exn w' → snap w' c = snap w c) ∧
    (Legal cfg w (.copyAssign a o tmp) → exec cfg (.copyAssign a o tmp) w = .exn w' → snap w' c = snap w c) :=
  ⟨fun L he => (C04_exception_step C h L he).1 c fun hm => hca hm.1,
   fun L he => (C04_exception_step C h L he).1 c fun hm => hca hm.1⟩

/-- With always equal allocators: a copy assignment that throws (call 2), the target keeps its value. -/
example : ∃ w, Reachable ({ exCfgF 3 with alwaysEq := true }) w ∧
    (vals w 0 = some (some (2, 7)) ∧ vals w 1 = some (some (2, 8)) ∧
     Legal { exCfgF 3 with alwaysEq := true } w (.copyAssign 1 0 9) ∧
     (exec { exCfgF 3 with alwaysEq := true } (.copyAssign 1 0 9) w).isExn = true) :=
  run_witness (ops := [.valueCtor 0 exMs 1 2 (.lit 7) false, .valueCtor 1 exMs 2 2 (.lit 8) true]) (by decide +kernel)

/-! ### C15 -/

/-- C15, except for the operations listed in `mayTerminate`: an exception never reaches a `noexcept`
boundary. The full statement is false, see `C15_force_stable_fails` and `C15_throwing_move_fails`. -/
theorem C15_never_terminates_partial (C : CfgOk cfg) {w : World} (h : Reachable cfg w) {op : Op}
    (L : Legal cfg w op) (hn : ¬ mayTerminate cfg w op) : exec cfg op w ≠ .term := by
  intro ht
  rcases step_spec C (h.rep C) op L with ⟨w1, σ', h', S⟩ | ⟨w1, σ', h', S⟩ | ⟨hm, h'⟩
  · rw [ht] at h'; cases h'
  · rw [ht] at h'; cases h'
  · exact hn hm

/-- C15: with contained types that can be relocated without exceptions, only construction with
`force_stable_pointers` can terminate. -/
theorem C15_nothrow_types (C : CfgOk cfg) (hr : ∀ t, (cfg.ty t).nothrowReloc = true) {w : World}
    (h : Reachable cfg w) {op : Op} (L : Legal cfg w op) (hf : ∀ a ms t x n, op ≠ .forceCtor a ms t x n) :
    exec cfg op w ≠ .term := by
  refine C15_never_terminates_partial C h L fun hm => ?_
  cases op <;> simp only [mayTerminate] at hm
  · exact hf _ _ _ _ _ rfl
  · obtain ⟨_, _, _, _, _, ob, _, ht⟩ := hm; rw [hr ob.ty] at ht; cases ht
  · obtain ⟨_, _, _, _, _, _, ob, _, ht⟩ := hm; rw [hr ob.ty] at ht; cases ht
  · obtain ⟨_, _, _, _, _, ob, _, ht⟩ := hm; rw [hr ob.ty] at ht; cases ht

/-- C15: operations that cannot throw at all: move construction, destruction, `reset`,
`destroy_value`; construction and emplace of a small type from arguments that do not throw. -/
theorem C15_nothrow_operations (C : CfgOk cfg) {w : World} (h : Reachable cfg w) {op : Op} (L : Legal cfg w op)
    (hop : match op with
      | .moveCtor .. | .transMoveCtor .. | .dtor .. | .reset .. | .destroyValue .. | .allocCtor .. => True
      | .valueCtor _ _ _ t _ n | .emplace _ t _ n => (n && fits cfg t) = true
      | _ => False) :
    ∃ w', exec cfg op w = .ok () w' := by
  have R := h.rep C
  cases op <;> simp only [] at hop
  case allocCtor a ms al =>
    obtain ⟨w', h', _⟩ := allocCtor_spec (al := al) R L.1 L.2; exact ⟨w', h'⟩
  case valueCtor a ms al t arg n =>
    obtain ⟨ar, har, harg⟩ := argOf_spec R L.2.2
    rcases valueCtor_spec (al := al) n R L.1 L.2.1 (C.align t) harg with ⟨w', h', _⟩ | ⟨hf, _⟩
    · exact ⟨w', by simp [exec, har, h']⟩
    · rw [hop] at hf; cases hf
  case moveCtor a o =>
    obtain ⟨h1, t, h3, h4⟩ := L
    obtain ⟨w', h', _⟩ := moveCtor_spec R h1 h3 h4; exact ⟨w', h'⟩
  case transMoveCtor a ms o =>
    obtain ⟨h1, h2, t, h3, h4, h5, h6⟩ := L
    obtain ⟨w', h', _⟩ := transMoveCtor_spec R h1 h3 h2 (fun _ h => h6 h) (fun _ _ => h4) h5; exact ⟨w', h'⟩
  case dtor a =>
    have L' : (snap w a).isSome := L
    obtain ⟨s, hs⟩ := Option.isSome_iff_exists.1 L'
    obtain ⟨w', h', _⟩ := destructor_spec R hs; exact ⟨w', h'⟩
  case emplace a t arg n =>
    obtain ⟨s, hs⟩ := Option.isSome_iff_exists.1 L.1
    obtain ⟨ar, har, harg⟩ := argOf_spec R L.2
    rcases emplace_spec n R hs (C.align t) harg with ⟨w', h', _⟩ | ⟨hf, _⟩
    · exact ⟨w', by simp [exec, har, h']⟩
    · rw [hop] at hf; cases hf
  case reset a =>
    have L' : (snap w a).isSome := L
    obtain ⟨s, hs⟩ := Option.isSome_iff_exists.1 L'
    obtain ⟨w', h', _⟩ := reset_spec R hs; exact ⟨w', h'⟩
  case destroyValue a =>
    have L' : (snap w a).isSome := L
    obtain ⟨s, hs⟩ := Option.isSome_iff_exists.1 L'
    obtain ⟨w', h', _⟩ := destroyValue_spec R hs; exact ⟨w', h'⟩

/-- C15: with an allocator that is always equal or propagated on move assignment, move construction and move
assignment are declared noexcept, and move assignment never throws and never terminates. -/
theorem C15_move_assign (C : CfgOk cfg) (ha : cfg.alwaysEq = true ∨ cfg.pocma = true) {w : World} (h : Reachable cfg w)
    {a o : Nat} (L : Legal cfg w (.moveAssign a o)) :
    movableAlloc cfg = true ∧ ∃ w', exec cfg (.moveAssign a o) w = .ok () w' := by
  have hm : movableAlloc cfg = true := by simp [movableAlloc, ha]
  refine ⟨hm, ?_⟩
  have hd : ∀ x y, ¬ AllocsDiffer cfg x y := by
    intro x y ⟨h1, h2, _⟩
    simp [movableAlloc, h1, h2] at hm
  obtain ⟨s, h2, t, h3, h4, h5, h6⟩ := L
  have R := h.rep C
  by_cases hne : a = o
  · subst hne; exact ⟨w, moveAssign_self a⟩
  · rcases moveAssign_spec C R hne h2 h3 h4 h5.movable (fun h _ => h6 h) with ⟨w', h', _⟩ | ⟨hu, _⟩ | ⟨hu, _⟩
    · exact ⟨w', h'⟩
    · exact absurd hu (hd _ _)
    · exact absurd hu (hd _ _)

example : ∃ w, Reachable exCfg w ∧ (Legal exCfg w (.moveCtor 8 0) ∧ Legal exCfg w (.dtor 0) ∧
    ¬ mayTerminate exCfg w (.moveCtor 8 0) ∧ Legal exCfg w (.emplace 0 0 (.valueOf 4) true)) :=
  run_witness (ops := exHist) (P := fun w => Legal exCfg w (.moveCtor 8 0) ∧ Legal exCfg w (.dtor 0) ∧
    ¬ False ∧ Legal exCfg w (.emplace 0 0 (.valueOf 4) true)) (by decide +kernel)

end AnyAny.Mem
