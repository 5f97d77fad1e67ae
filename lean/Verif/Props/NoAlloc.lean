import Verif.Lemmas.NoAlloc
import Verif.Spec.NoAlloc
import Verif.Props.AnyOps
/-
C17: programs whose types fit the buffer never allocate. C76: what `unreachable_allocator` promises.
-/
namespace AnyAny.Mem

variable {cfg : Cfg}

theorem na_exec {op : Op} (hs : Small cfg op) : NAU cfg (exec cfg op) := by
  cases op with
  | allocCtor a ms al => exact .construct (.pure _ trivial)
  | valueCtor a ms al t arg n => exact NA.argOf.bind fun _ _ => .noexceptIf (.construct (.emplaceInEmpty hs))
  | forceCtor a ms t arg n => exact hs.elim
  | copyCtor a ms o => exact .copyCtor
  | moveCtor a o => exact .moveCtor
  | transMoveCtor a ms o => exact .noexceptIf (.construct .moveValueFrom)
  | dtor a => exact .destructor
  | copyAssign a o tmp => exact .copyAssign
  | moveAssign a o => exact .moveAssign
  | emplace a t arg n => exact NA.argOf.bind fun _ _ => .emplace hs
  | reset a => exact .reset
  | destroyValue a => exact .destroyValue
  | replaceWithBytes a n => exact .replaceWithBytes hs
  | mutate a t v =>
    refine NA.anyCastPtr.bind fun p _ => ?_
    cases p
    · exact .pure _ trivial
    · exact .writeObj
  | castCopy a t =>
    refine NA.bind (Q := fun _ => True) (NA.anyCastPtr.bind fun p _ => ?_) fun _ _ => .pure _ trivial
    cases p
    · exact .throwExn
    · exact NA.readObj.bind fun _ _ => NA.mayThrow.bind fun _ _ => .pure _ trivial
  | castMove a t =>
    refine NA.bind (Q := fun _ => True) (NA.anyCastPtr.bind fun p _ => ?_) fun _ _ => .pure _ trivial
    cases p
    · exact .throwExn
    · refine NA.readObj.bind fun _ _ => NA.mayThrow.bind fun _ _ => ?_
      first
      | exact NA.writeObj.bind fun _ _ => .pure _ trivial
      | exact NA.setCell.bind fun _ _ => .pure _ trivial
  | invoke a m x => exact NA.invokeUser.bind fun _ _ => .pure _ trivial
  | swap a b tmp => exact .swapAny
  | materialize a ms al o => exact NA.refTo.bind fun r hr => .materialize hr

theorem inl_init : Inl cfg World.init := ⟨rfl, fun _ => rfl, (fun _ _ h => nomatch h), fun _ _ _ h => nomatch h⟩

theorem inl_run {ops : List Op} (hs : ∀ op ∈ ops, Small cfg op) {w w' : World} (h : Inl cfg w) (hr : run cfg ops w = .done w') : Inl cfg w' := by
  induction ops generalizing w with
  | nil => cases hr; exact h
  | cons op ops ih =>
    have h1 := na_exec (hs op (by simp)) w h
    have ih := fun w1 => ih (fun o ho => hs o (by simp [ho])) (w := w1)
    unfold run at hr
    split at hr
    · split at hr
      · rename_i he; rw [he] at h1; exact ih _ h1.1 hr
      · rename_i he; rw [he] at h1; exact ih _ h1 hr
      · cases hr
      · cases hr
    · cases hr

/-- C17: whatever a program does with anys (copies, moves, assignments with any allocators, swaps, materialization from references, exceptions
thrown anywhere), if the types of all values fit the buffer then nothing is ever allocated, every any keeps the buffer's capacity, and no any
has stable pointers. (`cfg` is arbitrary, so also its choice of the allocations that fail: no allocation is even attempted.) -/
theorem C17_small_programs_never_allocate (ops : List Op) (hs : ∀ op ∈ ops, Small cfg op) {w : World}
    (hr : run cfg ops .init = .done w) :
    w.nextBlk = 0 ∧ ∀ a, alive w a → memOf w a = none ∧ capacity cfg a w = .ok cfg.soos w ∧ isStablePointers a w = .ok false w := by
  have I := inl_run hs inl_init hr
  refine ⟨I.next, fun a ha => ?_⟩
  unfold alive at ha
  obtain ⟨st, hst⟩ := Option.isSome_iff_exists.1 ha
  have hv := I.vp a st hst
  refine ⟨by simp [memOf, hst, hv], ?_, ?_⟩
  · simp [capacity, getAny, hst, memAlloc, hv]
  · simp [isStablePointers, getAny, hst, memAlloc, hv]

/-- The example program: copies (one of which throws), moves, a swap and a materialization. -/
def exSmall : List Op := [.valueCtor 0 exMs 1 1 (.lit 7) false, .valueCtor 1 exMs 2 0 (.lit 5) true, .copyAssign 1 0 9,
  .copyCtor 2 exMs 1, .swap 0 1 9, .moveAssign 2 0, .materialize 3 exMs 0 2, .emplace 1 1 (.valueOf 2) false, .replaceWithBytes 3 16, .dtor 0]

example : (∀ op ∈ exSmall, Small (exCfgF 1) op) ∧ (run (exCfgF 1) exSmall .init).world?.any (fun w => w.anys 3 |>.isSome) = true := by
  decide +kernel

/-! ### C76 -/

theorem CompilesUnreachable.small {op : Op} (h : CompilesUnreachable cfg op) : Small cfg op := by
  cases op <;> simp_all [CompilesUnreachable, Small]

/-- C76: a program that compiles with `unreachable_allocator` never calls its allocator, whose calls are undefined behaviour: nothing is ever
allocated or deallocated, there is no undefined behaviour, and no any has memory. -/
theorem C76_compiling_programs_never_allocate (U : UnreachableAllocator cfg) (ha : ∀ t, (cfg.ty t).align ≤ cfg.allocAlign) (ops : List Op)
    (hs : ∀ op ∈ ops, CompilesUnreachable cfg op) :
    run cfg ops .init ≠ .ub ∧
    ∀ w, run cfg ops .init = .done w → w.nextBlk = 0 ∧ (∀ b, w.blks b = none) ∧ ∀ a, memOf w a = none := by
  have C : CfgOk cfg := ⟨ha, fun _ => U.alwaysEq⟩
  refine ⟨C01_history C ops, fun w hr => ?_⟩
  have I := inl_run (fun op ho => (hs op ho).small) inl_init hr
  refine ⟨I.next, I.blks, fun a => ?_⟩
  cases h : w.anys a with
  | none => simp [memOf, h]
  | some s => simp [memOf, h, I.vp a s h]

/-- C76: and every rejected construction would allocate: if a statement that stores a value (or forces stable pointers) is rejected, then
whenever it is executed successfully with a working allocator, the any has allocated memory afterwards. -/
theorem C76_rejected_only_if_allocating (C : CfgOk cfg) {w w' : World} (h : Reachable cfg w) {op : Op} (L : Legal cfg w op)
    (hr : ¬ CompilesUnreachable cfg op) (he : exec cfg op w = .ok () w') :
    (∃ a ms al t arg n, op = .valueCtor a ms al t arg n ∧ (memOf w' a).isSome) ∨ (∃ a t arg n, op = .emplace a t arg n ∧ (memOf w' a).isSome) ∨
    (∃ a ms t arg n, op = .forceCtor a ms t arg n ∧ (memOf w' a).isSome) ∨ ∃ a n, op = .replaceWithBytes a n := by
  have R' : Reachable cfg w' := .ok h L he
  have V := C04_values_step C h L he
  have big : ∀ a t v, fits cfg t = false → view w' a = some (t, v) → (memOf w' a).isSome := by
    intro a t v hf hv
    obtain ⟨o, ho, ho2⟩ := Option.map_eq_some_iff.1 hv
    injection ho2 with h1 h2
    obtain ⟨b, n, hb, _⟩ := C17_big_values_in_memory C R' ho (by rw [h1]; exact hf)
    rw [hb]; rfl
  have vw : ∀ a x, vals w' a = some (some x) → view w' a = some x := by
    intro a x hx
    unfold vals at hx
    cases h : w'.anys a with
    | none => rw [h] at hx; cases hx
    | some s => rw [h] at hx; injection hx
  cases op with
  | valueCtor a ms al t arg n =>
    refine .inl ⟨a, ms, al, t, arg, n, rfl, big a t (arg.value (vals w)) (by simpa [CompilesUnreachable] using hr) (vw _ _ ?_)⟩
    rw [V]; simp [specStep, upd]
  | emplace a t arg n =>
    refine .inr (.inl ⟨a, t, arg, n, rfl, big a t (arg.value (vals w)) (by simpa [CompilesUnreachable] using hr) (vw _ _ ?_)⟩)
    rw [V]; simp [specStep, upd]
  | forceCtor a ms t arg n =>
    refine .inr (.inr (.inl ⟨a, ms, t, arg, n, rfl, ?_⟩))
    have hi := (C13_force_stable C h L he).1
    have al : alive w' a := by
      cases h : w'.anys a with
      | none => simp [isStablePointers, getAny, h] at hi
      | some s => simp [alive, h]
    obtain ⟨s, hs, hs2⟩ := snap_some al
    rw [isStable_spec (R'.rep C) hs] at hi
    have hm : memOf w' a = s.mem := by
      obtain ⟨x, hx⟩ := Option.isSome_iff_exists.1 al
      simp only [snap, hx, Option.map_some, Option.some.injEq] at hs
      rw [← hs]
    injection hi with hi
    rw [hm]; exact hi
  | replaceWithBytes a n => exact .inr (.inr (.inr ⟨a, n, rfl⟩))
  | _ => exact absurd trivial hr

/-- The example class with `unreachable_allocator`, a program that compiles and runs, and statements that are rejected. -/
def exUnreachable : Cfg := { exCfgF 1 with alwaysEq := true, copyNeedsAlloc := false }

example : UnreachableAllocator exUnreachable ∧ (∀ t, (exUnreachable.ty t).align ≤ exUnreachable.allocAlign) ∧
    (∀ op ∈ exSmall.take 8, CompilesUnreachable exUnreachable op) ∧
    (run exUnreachable (exSmall.take 8) .init).world?.any (fun w => (content w 3).isSome) = true :=
  ⟨⟨rfl, rfl⟩, exTy_align, by decide +kernel, by decide +kernel⟩

example : Legal exUnreachable .init (.valueCtor 0 exMs 0 2 (.lit 1) true) ∧ ¬ CompilesUnreachable exUnreachable (.valueCtor 0 exMs 0 2 (.lit 1) true) ∧
    (exec exUnreachable (.valueCtor 0 exMs 0 2 (.lit 1) true) .init).isOk = true := by decide +kernel

end AnyAny.Mem
