import Verif.Lemmas.Cost
/-
C85: how much one operation on any objects can use, whatever the classes, types, allocators, state and exceptions.
-/
namespace AnyAny.Mem
variable {cfg : Cfg}

/-- Specification: an upper bound on the memory blocks an operation gets from the allocator. Observers, moves and destruction get none;
assignment and swap get some in addition only if the allocator neither propagates on move assignment nor is always equal. -/
def Op.maxAllocs (cfg : Cfg) : Op → Nat
  | .valueCtor .. | .forceCtor .. | .emplace .. | .replaceWithBytes .. | .copyCtor .. | .materialize .. => 1
  | .moveAssign .. => if cfg.alwaysEq || cfg.pocma then 0 else 1
  | .copyAssign .. => if cfg.alwaysEq || cfg.pocma then 1 else 2
  | .swap .. => if cfg.alwaysEq || cfg.pocma then 0 else 2
  | .allocCtor .. | .moveCtor .. | .transMoveCtor .. | .dtor .. | .reset .. | .destroyValue .. | .mutate .. | .castCopy .. | .castMove ..
  | .invoke .. => 0

/-- Specification: an upper bound on the objects constructed inside any objects. -/
def Op.maxObjects : Op → Nat
  | .valueCtor .. | .forceCtor .. | .emplace .. | .copyCtor .. | .materialize .. | .moveCtor .. | .transMoveCtor .. | .moveAssign .. => 1
  | .copyAssign .. => 2
  | .swap .. => 3
  | .allocCtor .. | .dtor .. | .reset .. | .destroyValue .. | .replaceWithBytes .. | .mutate .. | .castCopy .. | .castMove .. | .invoke .. => 0

/-- Specification: an upper bound on the copies made of contained values; the remaining objects are made by moving or by the constructor the
client chose. -/
def Op.maxCopies : Op → Nat
  | .copyCtor .. | .copyAssign .. | .materialize .. => 1
  | _ => 0

/-- At most this much was used between `w` and `w'`: blocks, objects, copies. -/
def Within (blks objs copies : Nat) (w w' : World) : Prop :=
  w'.nextBlk ≤ w.nextBlk + blks ∧ w'.nextObj ≤ w.nextObj + objs ∧ w'.copies ≤ w.copies + copies

instance (b o c : Nat) (w w' : World) : Decidable (Within b o c w w') := by unfold Within; infer_instance

theorem cost_exec (op : Op) : Cost ⟨op.maxAllocs cfg, op.maxObjects, op.maxCopies⟩ (exec cfg op) := by
  cases op with
  | allocCtor a ms al => exact cost_construct _ _ _ (.pure _)
  | valueCtor a ms al t x n =>
    exact .first (cost_argOf _) fun _ => .noexceptIf (cost_construct _ _ _ (cost_emplaceInEmpty (b := 0) (o := 0) (c := 0) _ _ _ _ _))
  | forceCtor a ms t x n =>
    exact .first (cost_argOf _) fun _ => .noexceptIf (cost_construct _ _ _ (cost_emplaceInEmpty (b := 0) (o := 0) (c := 0) _ _ _ _ _))
  | copyCtor a ms d => exact cost_copyCtor (b := 0) (o := 0) (c := 0) _ _ _
  | moveCtor a d => exact cost_moveCtor (b := 0) (o := 0) (c := 0) _ _
  | transMoveCtor a ms d => exact cost_transMoveCtor (b := 0) (o := 0) (c := 0) _ _ _
  | dtor a => exact cost_destructor _
  | copyAssign a d tmp =>
    simp only [Op.maxAllocs]
    split
    · exact cost_copyAssign_movable (b := 0) (o := 0) (c := 0) (by unfold movableAlloc; assumption) _ _ _
    · exact cost_copyAssign (b := 0) (o := 0) (c := 0) _ _ _
  | moveAssign a d =>
    simp only [Op.maxAllocs]
    split
    · exact cost_moveAssign_movable (b := 0) (o := 0) (c := 0) (by unfold movableAlloc; assumption) _ _
    · exact cost_moveAssign (b := 0) (o := 0) (c := 0) _ _
  | emplace a t x n => exact .first (cost_argOf _) fun _ => cost_emplace (b := 0) (o := 0) (c := 0) _ _ _ _
  | reset a => exact cost_reset _
  | destroyValue a => exact cost_destroyValue _
  | replaceWithBytes a n => exact cost_replaceWithBytes (b := 0) (o := 0) (c := 0) _ _
  | mutate a t v =>
    refine .first (cost_anyCastPtr _ _) fun r => ?_
    cases r with
    | none => exact .pure _
    | some p => exact cost_writeObj _ _ _
  | castCopy a t => exact .first (cost_anyCastCopy _ _) fun _ => .pure _
  | castMove a t => exact .first (cost_anyCastMove _ _) fun _ => .pure _
  | invoke a m x => exact .first (cost_invokeUser _ _ _) fun _ => .pure _
  | swap a b tmp =>
    simp only [Op.maxAllocs]
    split
    · exact cost_swapAny_movable (b := 0) (o := 0) (c := 0) (by unfold movableAlloc; assumption) _ _ _
    · exact cost_swapAny (b := 0) (o := 0) (c := 0) _ _ _
  | materialize a ms al d => exact .first (cost_refTo _ _) fun _ => cost_materialize (b := 0) (o := 0) (c := 0) _ _ _ _

/-- C85: an operation that returns or throws has used no more than the table says. -/
theorem C85_bounds (op : Op) (w w' : World) (h : (exec cfg op w).world? = some w') :
    Within (op.maxAllocs cfg) op.maxObjects op.maxCopies w w' := by
  cases hr : exec cfg op w with
  | ok u w1 => rw [hr] at h; cases h; exact (cost_exec op).ok w u _ hr
  | exn w1 => rw [hr] at h; cases h; exact (cost_exec op).exn w _ hr
  | ub => rw [hr] at h; cases h
  | term => rw [hr] at h; cases h

/-- C85: the bounds of a history add up; operations that throw count too. -/
theorem C85_history (ops : List Op) (w w' : World) (h : run cfg ops w = .done w') :
    Within (ops.map (Op.maxAllocs cfg)).sum (ops.map Op.maxObjects).sum (ops.map Op.maxCopies).sum w w' := by
  induction ops generalizing w with
  | nil =>
    have h' : Outcome.done w = .done w' := h
    cases h'
    simp [Within]
  | cons op ops ih =>
    simp only [run] at h
    split at h
    · have step : ∀ w1, (exec cfg op w).world? = some w1 → run cfg ops w1 = .done w' →
          Within ((op :: ops).map (Op.maxAllocs cfg)).sum ((op :: ops).map Op.maxObjects).sum ((op :: ops).map Op.maxCopies).sum w w' := by
        intro w1 h1 h2
        have k1 := C85_bounds op w w1 h1
        have k2 := ih w1 h2
        simp only [Within, List.map_cons, List.sum_cons] at *
        omega
      cases hr : exec cfg op w with
      | ok u w1 => rw [hr] at h; exact step w1 (by rw [hr]; rfl) h
      | exn w1 => rw [hr] at h; exact step w1 (by rw [hr]; rfl) h
      | ub => rw [hr] at h; cases h
      | term => rw [hr] at h; cases h
    · cases h

/-- C85: copies are made only by copy construction, copy assignment and `materialize`, whatever happens in between. -/
theorem C85_no_copies (ops : List Op) (w w' : World) (h : run cfg ops w = .done w')
    (hn : ∀ op ∈ ops, (∀ a ms o, op ≠ .copyCtor a ms o) ∧ (∀ a o tmp, op ≠ .copyAssign a o tmp) ∧ (∀ a ms al o, op ≠ .materialize a ms al o)) :
    w'.copies ≤ w.copies := by
  have hs : (ops.map Op.maxCopies).sum = 0 := by
    clear h
    induction ops with
    | nil => rfl
    | cons op ops ih =>
      simp only [List.map_cons, List.sum_cons, ih fun o ho => hn o (List.mem_cons_of_mem _ ho)]
      have := hn op List.mem_cons_self
      cases op <;> first | rfl | exact absurd rfl (this.1 _ _ _) | exact absurd rfl (this.2.1 _ _ _) | exact absurd rfl (this.2.2 _ _ _ _)
  have := (C85_history ops w w' h).2.2
  omega

/-- What an operation used, after a history. -/
def used (cfg : Cfg) (ops : List Op) (op : Op) : Option (Nat × Nat × Nat) :=
  (run cfg ops .init).world?.bind fun w => if Legal cfg w op then (exec cfg op w).world?.map fun w' =>
    (w'.nextBlk - w.nextBlk, w'.nextObj - w.nextObj, w'.copies - w.copies) else none

/-- The bounds are reached, by legal operations in reachable states (the last number is that of copies). -/
example : used exCfg [] (.valueCtor 0 exMs 0 2 (.lit 7) true) = some (1, 1, 0) := by decide +kernel
example : used exCfg [] (.forceCtor 0 exMs 1 (.lit 7) true) = some (1, 1, 0) := by decide +kernel
example : used exCfg [.valueCtor 0 exMs 0 1 (.lit 7) true] (.emplace 0 2 (.lit 8) true) = some (1, 1, 0) := by decide +kernel
example : used exCfg [.valueCtor 0 exMs 0 1 (.lit 7) true] (.replaceWithBytes 0 100) = some (1, 0, 0) := by decide +kernel
example : used exCfg [.valueCtor 0 exMs 0 2 (.lit 7) true] (.copyCtor 1 exMs 0) = some (1, 1, 1) := by decide +kernel
example : used exCfg [.valueCtor 0 exMs 0 2 (.lit 7) true] (.materialize 1 exMs 0 0) = some (1, 1, 1) := by decide +kernel
example : used exCfg [.valueCtor 0 exMs 0 1 (.lit 7) true] (.moveCtor 1 0) = some (0, 1, 0) := by decide +kernel
example : used exCfg [.valueCtor 0 exMs 0 1 (.lit 7) true] (.transMoveCtor 1 exMs 0) = some (0, 1, 0) := by decide +kernel
/-- Move assignment between different allocators. -/
example : used exCfg [.valueCtor 0 exMs 0 2 (.lit 7) true, .allocCtor 1 exMs 1] (.moveAssign 1 0) = some (1, 1, 0) := by decide +kernel
/-- Copy assignment between different allocators. -/
example : used exCfg [.valueCtor 0 exMs 0 2 (.lit 7) true, .allocCtor 1 exMs 1] (.copyAssign 1 0 2) = some (2, 2, 1) := by decide +kernel
/-- Swap between different allocators. -/
example : used exCfg [.valueCtor 0 exMs 0 2 (.lit 7) true, .valueCtor 1 exMs 1 3 (.lit 8) true] (.swap 0 1 2) = some (2, 2, 0) := by decide +kernel
/-- Swap of small values. -/
example : used exCfg [.valueCtor 0 exMs 0 1 (.lit 7) true, .valueCtor 1 exMs 0 1 (.lit 8) true] (.swap 0 1 2) = some (0, 3, 0) := by decide +kernel
/-- With `std::allocator`. -/
example : used { exCfg with alwaysEq := true } [.valueCtor 0 exMs 0 2 (.lit 7) true, .allocCtor 1 exMs 1] (.copyAssign 1 0 2) = some (1, 1, 1) := by decide +kernel
example : used { exCfg with alwaysEq := true } [.valueCtor 0 exMs 0 2 (.lit 7) true, .valueCtor 1 exMs 1 3 (.lit 8) true] (.swap 0 1 2) = some (0, 0, 0) := by
  decide +kernel
/-- An exception: the memory was allocated (and freed again, C03), no object was made. -/
example : used (exCfgF 1) [] (.valueCtor 0 exMs 0 2 (.lit 7) false) = some (1, 0, 0) := by decide +kernel

end AnyAny.Mem
