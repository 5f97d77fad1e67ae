import Verif.Props.AnyOps
/-
Counterexamples: claims about any objects that the code does not fulfil. Each theorem exhibits a state
reached by a legal history and one more operation. (Machine-checked executions of the model; the
corresponding positive theorems are the `_partial` ones and those whose hypotheses exclude exactly
these cases.)
-/
namespace AnyAny.Mem

/-- Execute several operations in order; stops at the first that does not return. -/
def execAll (cfg : Cfg) : List Op → M Unit
  | [] => pure ()
  | op :: ops => do exec cfg op; execAll cfg ops

/-- `SooS = 0`, otherwise as `exCfg`. -/
def exCfg0 : Cfg := { exCfg with soos := 0 }
theorem exCfg0_ok : CfgOk exCfg0 := ⟨exTy_align, by decide⟩

/-- Defect behind the condition `soos = 0 → ¬ AllocsDiffer` in `Legal`: with `SooS = 0` move assignment
between unequal non-propagating allocators hands the block to the other allocator (anyany.hpp:1470-1472);
destroying the target then deallocates with the wrong allocator. -/
theorem C63_steal_fails :
    ∃ w, Reachable exCfg0 w ∧ alive w 0 ∧ alive w 1 ∧ methodsOf w 0 = methodsOf w 1 ∧
      (exec exCfg0 (.moveAssign 1 0) w).isOk = true ∧ (execAll exCfg0 [.moveAssign 1 0, .dtor 1] w).isUb = true :=
  run_witness (ops := [.valueCtor 0 exMs 1 2 (.lit 7) false, .allocCtor 1 exMs 2]) (by decide +kernel)

/-- Defect behind the allocator condition on transmutating moves in `Legal`: the new any has a
default-constructed allocator but the block of the source (anyany.hpp:1342-1348). -/
theorem C63_transmove_fails :
    ∃ w, Reachable exCfg w ∧ alive w 0 ∧ (exec exCfg (.transMoveCtor 1 exSub 0) w).isOk = true ∧
      (execAll exCfg [.transMoveCtor 1 exSub 0, .dtor 1] w).isUb = true :=
  run_witness (ops := [.valueCtor 0 exMs2 1 2 (.lit 7) false]) (by decide +kernel)

/-- C09 fails: move assignment between unequal non-propagating allocators, where the allocation throws,
loses the value of the target. -/
theorem C09_fails :
    ∃ w, Reachable (exCfgF 3) w ∧ (Legal (exCfgF 3) w (.moveAssign 1 0) ∧ view w 1 = some (1, 5) ∧
      (exec (exCfgF 3) (.moveAssign 1 0) w).isExn = true ∧
      ((exec (exCfgF 3) (.moveAssign 1 0) w).world?.any fun w' => decide (view w' 1 = none)) = true) :=
  run_witness (ops := [.valueCtor 0 exMs 1 2 (.lit 7) false, .valueCtor 1 exMs 2 1 (.lit 5) false]) (by decide +kernel)

/-- C14 fails: `is_stable_pointers()` is true, but a move assignment to an any with an unequal allocator
moves the value to a new object at a new address. -/
theorem C14_fails :
    ∃ w, Reachable exCfg w ∧ (Legal exCfg w (.moveAssign 1 0) ∧ memOf w 0 = some (0, 64) ∧
      (content w 0).map (·.id) = some 0 ∧
      ((exec exCfg (.moveAssign 1 0) w).world?.any fun w' =>
        decide ((content w' 1).map (·.id) = some 1) && decide (addrOf w' 1 = some (.blk 1)) && decide (w'.dtors 0 = 1)) = true) :=
  run_witness (ops := [.valueCtor 0 exMs 1 2 (.lit 7) false, .allocCtor 1 exMs 2]) (by decide +kernel)

/-- C15 fails: constructing a small nothrow type with `force_stable_pointers` is declared `noexcept`, but
allocates; a failing allocation terminates the program (anyany.hpp:1352-1372). -/
theorem C15_force_stable_fails :
    Legal (exCfgF 0) .init (.forceCtor 0 exMs 0 (.lit 1) true) ∧
      (exec (exCfgF 0) (.forceCtor 0 exMs 0 (.lit 1) true) .init).isTerm = true := by decide +kernel

/-- C15 fails: move assignment between unequal non-propagating allocators of a value whose move
constructor throws terminates, although the operation itself is not `noexcept`. -/
theorem C15_throwing_move_fails :
    ∃ w, Reachable (exCfgF 3) w ∧ (Legal (exCfgF 3) w (.moveAssign 1 0) ∧
      (exec (exCfgF 3) (.moveAssign 1 0) w).isTerm = true) :=
  run_witness (ops := [.valueCtor 0 exMs 1 4 (.lit 7) false, .allocCtor 1 exMs 2]) (by decide +kernel)

/-- C19 fails: with `propagate_on_container_copy_assignment = false` and
`propagate_on_container_move_assignment = true`, copy assignment replaces the allocator. -/
theorem C19_copy_assignment_fails :
    ∃ w, Reachable { exCfg with pocma := true } w ∧
      (Legal { exCfg with pocma := true } w (.copyAssign 1 0 9) ∧ allocOf w 1 = some 2 ∧
      ((exec { exCfg with pocma := true } (.copyAssign 1 0 9) w).world?.any fun w' => decide (allocOf w' 1 = some 1)) = true) :=
  run_witness (ops := [.valueCtor 0 exMs 1 2 (.lit 7) false, .allocCtor 1 exMs 2]) (by decide +kernel)

/-- C21 fails: emplacing (or assigning) from a reference to the any's own value reads a destroyed
object. -/
theorem C21_fails :
    ∃ w, Reachable exCfg w ∧ ((content w 0).isSome ∧ (exec exCfg (.emplace 0 1 (.valueOf 0) false) w).isUb = true) :=
  run_witness (ops := [.valueCtor 0 exMs 1 1 (.lit 7) false]) (by decide +kernel)

/-- C22 fails: if the copy of a type with a destructor throws, the destructor of the half-built result
runs on a value that was never constructed. -/
theorem C22_throwing_copy_fails :
    ∃ w, Reachable (exCfgF 1) w ∧ ((content w 0).isSome ∧
      (exec (exCfgF 1) (.materialize 1 exMs 0 0) w).isUb = true) :=
  run_witness (ops := [.valueCtor 0 exMs 0 1 (.lit 7) false]) (by decide +kernel)

/-- C61 fails: a type that needs more alignment than the byte allocator gives is constructed in
misaligned memory. -/
theorem C61_fails :
    let cfg : Cfg := { exCfg with ty := fun _ => ⟨64, 64, true, true, true, true, by decide, by decide⟩ }
    Legal cfg .init (.valueCtor 0 exMs 0 0 (.lit 1) true) ∧
      (exec cfg (.valueCtor 0 exMs 0 0 (.lit 1) true) .init).isUb = true := by decide +kernel

/-! ### What does hold of C14, C21, C61 and C63 -/

/-- C63, for histories without the operations above (`Legal`): whatever memory an any owns comes from an
allocator equal to its own. -/
theorem C63_owner_allocator_partial {cfg : Cfg} (C : CfgOk cfg) {w : World} (h : Reachable cfg w) {a b n : Nat}
    (hm : memOf w a = some (b, n)) :
    ∃ k x, w.blks b = some k ∧ k.size = n ∧ allocOf w a = some x ∧ allocEq cfg k.al x = true := by
  obtain ⟨s, k, h1, h2, h3, h4, h5, h6⟩ := memOf_some (h.wf C) hm
  exact ⟨k, s.al, h3, h4, by simp [allocOf, h1], h6⟩

example : ∃ w, Reachable exCfg w ∧ ((memOf w 0).isSome ∧ allocOf w 0 = some 1) :=
  run_witness (ops := exHist) (by decide +kernel)

/-- C14: a move assignment that returns keeps type and value; the object itself stays in place unless the
allocators really differ. Missing: stability for really different allocators (`C14_fails`). -/
theorem C14_stability_partial {cfg : Cfg} (C : CfgOk cfg) {w w' : World} (h : Reachable cfg w) {b a x y : Nat} (hne : b ≠ a)
    (L : Legal cfg w (.moveAssign b a)) (hx : allocOf w b = some x) (hy : allocOf w a = some y)
    (hst : isStablePointers a w = .ok true w) (hv : (content w a).isSome)
    (he : exec cfg (.moveAssign b a) w = .ok () w') :
    view w' b = view w a ∧ (¬ AllocsDiffer cfg x y → content w' b = content w a ∧ addrOf w' b = addrOf w a) := by
  refine ⟨(C07_move_assignment C h hne L he).2.2.1, fun hd => ?_⟩
  obtain ⟨w1, h1, h2, h3, _⟩ := C13_stable_move_assignment C h hne L hx hy hd hst hv
  rw [he] at h1; cases h1; exact ⟨h2, h3⟩

/-- C21: emplacing or assigning from a value, or from a reference to the value of a different any, gives
that value if it returns. Missing: a reference into the same any (`C21_fails`). -/
theorem C21_assign_from_reference_partial {cfg : Cfg} (C : CfgOk cfg) {w w' : World} (h : Reachable cfg w) {a b t s v : Nat}
    {nothrow : Bool} (ha : alive w a) (hne : b ≠ a) (hv : view w b = some (s, v))
    (he : exec cfg (.emplace a t (.valueOf b) nothrow) w = .ok () w') :
    view w' a = some (t, v) ∧ view w' b = some (s, v) := by
  have hb : alive w b := by
    apply Classical.byContradiction; intro hn
    simp [view, (snap_none hn).2.1] at hv
  obtain ⟨sa, hsa, _⟩ := snap_some ha
  obtain ⟨sb, hsb, hcb, _⟩ := snap_some hb
  have L : Legal cfg w (.emplace a t (.valueOf b) nothrow) := by
    refine ⟨by rw [hsa]; rfl, hne, ?_⟩
    unfold view at hv
    cases hc : content w b with
    | none => rw [hc] at hv; cases hv
    | some o => rfl
  obtain ⟨w1, h1, _, h3, _⟩ := C10_emplace C h L
  rcases h1 with ⟨h1, h2⟩ | ⟨h1, _⟩ <;> rw [he] at h1 <;> cases h1
  constructor
  · rw [h2]
    unfold alive at hb
    obtain ⟨st, hst⟩ := Option.isSome_iff_exists.1 hb
    simp [ArgSrc.value, vals, hst, hv]
  · have := h3 b hne
    rw [(of_snap (this.trans hsb)).2.2.2.2.2, ← (of_snap hsb).2.2.2.2.2, hv]

/-- C61: if the allocator's memory is aligned enough for every type (`CfgOk.align`), every contained object
is in storage of its own alignment, both in the buffer and in memory. Missing: types with a bigger
alignment (`C61_fails`). -/
theorem C61_aligned_partial {cfg : Cfg} (C : CfgOk cfg) {w : World} (h : Reachable cfg w) {a : Nat} {o : Obj}
    (ho : content w a = some o) :
    (addrOf w a = some (.data a) → (cfg.ty o.ty).align ≤ cfg.maxAlign) ∧
    (∀ b, addrOf w a = some (.blk b) → (cfg.ty o.ty).align ≤ cfg.allocAlign) := by
  obtain ⟨s, v, h1, _, _, _, _, _, _, _, h9, _⟩ := content_full (h.wf C) ho
  refine ⟨fun hd => ?_, fun _ _ => C.align _⟩
  simp only [addrOf, h1, Option.map_some, Option.some.injEq] at hd
  have := h9 hd
  simp only [fits, Bool.and_eq_true, decide_eq_true_eq] at this
  exact this.1.1

example : ∃ w, Reachable exCfg w ∧ (alive w 0 ∧ view w 1 = some (1, 5) ∧
    (exec exCfg (.emplace 0 1 (.valueOf 1) false) w).isOk = true ∧ addrOf w 1 = some (.data 1) ∧ addrOf w 0 = some (.blk 0)) :=
  run_witness (ops := exHist.take 2) (by decide +kernel)

end AnyAny.Mem
