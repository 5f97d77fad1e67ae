import Verif.Lemmas.AnyMemRun
/-
How much an operation can use: numbers of allocations, of objects constructed and of copies made.
-/
namespace AnyAny.Mem
variable {cfg : Cfg}

/-- Allocations, constructions, copy constructions. -/
structure Use where
  blks : Nat
  objs : Nat
  copies : Nat

/-- Whatever happens, `m` uses at most `k`. -/
structure Cost {α} (k : Use) (m : M α) : Prop where
  ok : ∀ w x w', m w = .ok x w' → w'.nextBlk ≤ w.nextBlk + k.blks ∧ w'.nextObj ≤ w.nextObj + k.objs ∧ w'.copies ≤ w.copies + k.copies
  exn : ∀ w w', m w = .exn w' → w'.nextBlk ≤ w.nextBlk + k.blks ∧ w'.nextObj ≤ w.nextObj + k.objs ∧ w'.copies ≤ w.copies + k.copies

/-- Nothing. -/
abbrev Use.zero : Use := ⟨0, 0, 0⟩

/-- `m` leaves the counters alone. -/
theorem Cost.of_same {α} {k : Use} {m : M α} (h1 : ∀ w x w', m w = .ok x w' → w'.nextBlk = w.nextBlk ∧ w'.nextObj = w.nextObj ∧ w'.copies = w.copies)
    (h2 : ∀ w w', m w = .exn w' → w'.nextBlk = w.nextBlk ∧ w'.nextObj = w.nextObj ∧ w'.copies = w.copies) : Cost k m :=
  ⟨fun w x w' h => by obtain ⟨a, b, c⟩ := h1 w x w' h; omega, fun w w' h => by obtain ⟨a, b, c⟩ := h2 w w' h; omega⟩

theorem Cost.weaken {α} {k k' : Use} {m : M α} (h : Cost k m) (h1 : k.blks ≤ k'.blks) (h2 : k.objs ≤ k'.objs) (h3 : k.copies ≤ k'.copies) : Cost k' m :=
  ⟨fun w x w' e => by have := h.ok w x w' e; omega, fun w w' e => by have := h.exn w w' e; omega⟩

theorem Cost.bind {α β} {b1 o1 c1 b2 o2 c2 : Nat} {m : M α} {f : α → M β} (hm : Cost ⟨b1, o1, c1⟩ m) (hf : ∀ x, Cost ⟨b2, o2, c2⟩ (f x)) :
    Cost ⟨b1 + b2, o1 + o2, c1 + c2⟩ (m >>= f) := by
  refine ⟨fun w x w' h => ?_, fun w w' h => ?_⟩ <;> rw [bind_apply] at h <;> cases hw : m w with
  | ok y w1 =>
    rw [hw] at h
    have h1 := hm.ok w y w1 hw
    first
    | have h2 := (hf y).ok w1 x w' h
      dsimp only at *; omega
    | have h2 := (hf y).exn w1 w' h
      dsimp only at *; omega
  | exn w1 =>
    rw [hw] at h
    cases h
    try (have h1 := hm.exn w _ hw; dsimp only at *; omega)
  | ub => rw [hw] at h; cases h
  | term => rw [hw] at h; cases h

/-- Steps that cost nothing, first or last. -/
theorem Cost.first {α β} {k : Use} {m : M α} {f : α → M β} (hm : Cost .zero m) (hf : ∀ x, Cost k (f x)) : Cost k (m >>= f) :=
  (Cost.bind hm hf).weaken (by simp) (by simp) (by simp)

theorem Cost.last {α β} {k : Use} {m : M α} {f : α → M β} (hm : Cost k m) (hf : ∀ x, Cost .zero (f x)) : Cost k (m >>= f) :=
  (Cost.bind hm hf).weaken (by simp) (by simp) (by simp)

theorem Cost.ite {α} {k : Use} {c : Prop} [Decidable c] {x y : M α} (hx : Cost k x) (hy : Cost k y) : Cost k (if c then x else y) := by
  split <;> assumption

theorem Cost.noexceptIf {α} {k : Use} {b : Bool} {m : M α} (hm : Cost k m) : Cost k (noexceptIf b m) := by
  refine ⟨fun w x w' h => ?_, fun w w' h => ?_⟩ <;> unfold AnyAny.Mem.noexceptIf at h <;> cases hw : m w with
  | ok y w1 => rw [hw] at h; cases h; try exact hm.ok w _ _ hw
  | exn w1 =>
    rw [hw] at h
    dsimp only at h
    split at h <;> cases h
    try exact hm.exn w _ hw
  | ub => rw [hw] at h; cases h
  | term => rw [hw] at h; cases h

theorem Cost.onFail {α} {k : Use} {m : M α} {c : M Unit} (hm : Cost k m) (hc : Cost .zero c) : Cost k (onFail m c) := by
  refine ⟨fun w x w' h => ?_, fun w w' h => ?_⟩ <;> unfold AnyAny.Mem.onFail at h <;> cases hw : m w with
  | ok y w1 => rw [hw] at h; cases h; try exact hm.ok w _ _ hw
  | exn w1 =>
    rw [hw] at h
    dsimp only at h
    cases hv : c w1 with
    | ok u w2 =>
      rw [hv] at h
      cases h
      try (have h1 := hm.exn w _ hw; have h2 := hc.ok _ _ _ hv; dsimp only at *; omega)
    | _ => rw [hv] at h; cases h
  | ub => rw [hw] at h; cases h
  | term => rw [hw] at h; cases h

theorem Cost.finallyDo {α} {k : Use} {m : M α} {c : M Unit} (hm : Cost k m) (hc : Cost .zero c) : Cost k (finallyDo m c) := by
  refine ⟨fun w x w' h => ?_, fun w w' h => ?_⟩ <;> unfold AnyAny.Mem.finallyDo at h <;> cases hw : m w with
  | ok y w1 =>
    rw [hw] at h
    dsimp only at h
    have h1 := hm.ok w _ _ hw
    cases hv : c w1 with
    | ok u w2 =>
      rw [hv] at h
      cases h
      try (have h2 := hc.ok _ _ _ hv; dsimp only at *; omega)
    | exn w2 =>
      rw [hv] at h
      cases h
      try (have h2 := hc.exn _ _ hv; dsimp only at *; omega)
    | _ => rw [hv] at h; cases h
  | exn w1 =>
    rw [hw] at h
    dsimp only at h
    have h1 := hm.exn w _ hw
    cases hv : c w1 with
    | ok u w2 =>
      rw [hv] at h
      cases h
      try (have h2 := hc.ok _ _ _ hv; dsimp only at *; omega)
    | _ => rw [hv] at h; cases h
  | ub => rw [hw] at h; cases h
  | term => rw [hw] at h; cases h

/-! ### Primitives -/

theorem Cost.pure {α} {k : Use} (x : α) : Cost k (Pure.pure x : M α) :=
  .of_same (fun _ _ _ h => by cases h; exact ⟨rfl, rfl, rfl⟩) (fun _ _ h => by cases h)
theorem Cost.ub {α} {k : Use} : Cost k (AnyAny.Mem.ub : M α) := .of_same (fun _ _ _ h => by cases h) (fun _ _ h => by cases h)
theorem Cost.throwExn {α} {k : Use} : Cost k (AnyAny.Mem.throwExn : M α) :=
  .of_same (fun _ _ _ h => by cases h) (fun _ _ h => by cases h; exact ⟨rfl, rfl, rfl⟩)
theorem Cost.getW {k : Use} : Cost k AnyAny.Mem.getW :=
  .of_same (fun _ _ _ h => by cases h; exact ⟨rfl, rfl, rfl⟩) (fun _ _ h => by cases h)

/-- Primitives that do not touch the counters. -/
local macro "same" d:ident : tactic => `(tactic| exact .of_same
  (fun _ _ _ h => by unfold $d at h; (repeat' split at h) <;> cases h <;> exact ⟨rfl, rfl, rfl⟩)
  (fun _ _ h => by unfold $d at h; (repeat' split at h) <;> cases h <;> exact ⟨rfl, rfl, rfl⟩))

theorem cost_getAny {k : Use} (a : Nat) : Cost k (getAny a) := by same getAny
theorem cost_setAny {k : Use} (a : Nat) (s : AnySt) : Cost k (setAny a s) :=
  .of_same (fun _ _ _ h => by cases h; exact ⟨rfl, rfl, rfl⟩) (fun _ _ h => by cases h)
theorem cost_dropSlot {k : Use} (a : Nat) : Cost k (dropSlot a) :=
  .of_same (fun _ _ _ h => by cases h; exact ⟨rfl, rfl, rfl⟩) (fun _ _ h => by cases h)
theorem cost_modifyAny {k : Use} (a : Nat) (f : AnySt → AnySt) : Cost k (modifyAny a f) := .first (cost_getAny a) fun _ => cost_setAny _ _
theorem cost_throwPoint {k : Use} : Cost k (throwPoint cfg) := by same throwPoint
theorem cost_mayThrow {k : Use} (b : Bool) : Cost k (mayThrow cfg b) := .ite (.pure _) cost_throwPoint
theorem cost_setCell {k : Use} (p : Ptr) (c : Option Obj) : Cost k (setCell p c) := by same setCell
theorem cost_evalArg {k : Use} (x : Arg) : Cost k (evalArg x) := by same evalArg
theorem cost_deallocate {k : Use} (al : Nat) (p : Ptr) (n : Nat) : Cost k (deallocate cfg al p n) := by same deallocate
theorem cost_readSize {k : Use} (a : Nat) : Cost k (readSize a) := by same readSize
theorem cost_writeSize {k : Use} (a n : Nat) : Cost k (writeSize cfg a n) := by same writeSize
theorem cost_readObj {k : Use} (p : Ptr) (t : Nat) : Cost k (readObj p t) := by same readObj
theorem cost_destroyAt {k : Use} (p : Ptr) (t : Nat) : Cost k (destroyAt p t) := by
  refine .of_same (fun w x w' h => ?_) (fun w w' h => ?_) <;> unfold destroyAt at h <;> (repeat' split at h) <;> (try cases h; done) <;>
    (unfold setCell at h; (repeat' split at h) <;> cases h <;> exact ⟨rfl, rfl, rfl⟩)

theorem cost_slotTy {k : Use} (s : AnySt) (m : Method) : Cost k (slotTy s m) := by
  unfold slotTy
  split
  · exact .ub
  · split
    · exact .ub
    · exact .ite (.pure _) .ub

theorem cost_getMoveFn {k : Use} (s : AnySt) : Cost k (getMoveFn s) := by
  unfold getMoveFn
  refine .ite (cost_slotTy _ _) ?_
  split
  · exact cost_slotTy _ _
  · exact .ub

theorem cost_subtablePtr {k : Use} (x y : List Method) (v : VtPtr) : Cost k (subtablePtr x y v) := by
  unfold subtablePtr
  refine .ite (.pure _) ?_
  split
  · exact .pure _
  · exact .ub

/-- The three primitives that cost something. -/
theorem cost_freshObj {b o c : Nat} (t v : Nat) : Cost ⟨b, o + 1, c⟩ (freshObj t v) :=
  ⟨fun _ _ _ h => by cases h; dsimp only; omega, fun _ _ h => by cases h⟩
theorem cost_countCopy {b o c : Nat} : Cost ⟨b, o, c + 1⟩ countCopy :=
  ⟨fun _ _ _ h => by cases h; dsimp only; omega, fun _ _ h => by cases h⟩
theorem cost_allocate {b o c : Nat} (al n : Nat) : Cost ⟨b + 1, o, c⟩ (allocate cfg al n) :=
  .first cost_throwPoint fun _ => ⟨fun _ _ _ h => by cases h; dsimp only; omega, fun _ _ h => by cases h⟩

theorem Cost.allocate {α} {b o c : Nat} {al n : Nat} {f : Nat → M α} (h : ∀ x, Cost ⟨b, o, c⟩ (f x)) : Cost ⟨b + 1, o, c⟩ (allocate cfg al n >>= f) :=
  (Cost.bind (cost_allocate (b := 0) (o := 0) (c := 0) al n) h).weaken (by simp; omega) (by simp) (by simp)
theorem Cost.countCopy {α} {b o c : Nat} {f : Unit → M α} (h : ∀ x, Cost ⟨b, o, c⟩ (f x)) : Cost ⟨b, o, c + 1⟩ (countCopy >>= f) :=
  (Cost.bind (cost_countCopy (b := 0) (o := 0) (c := 0)) h).weaken (by simp) (by simp) (by simp; omega)

theorem cost_constructAt {b o c : Nat} (p : Ptr) (t : Nat) (x : Arg) (n : Bool) : Cost ⟨b, o + 1, c⟩ (constructAt cfg p t x n) :=
  .first .getW fun _ => .ite (.first (cost_evalArg x) fun _ => .first (.onFail (cost_mayThrow n) (cost_setCell _ _))
    fun _ => .last (cost_freshObj _ _) fun _ => cost_setCell _ _) .ub

/-- Close `Cost` goals of computations without costly steps. -/
macro "cost0" : tactic => `(tactic| with_reducible repeat' (first
  | assumption
  | exact Cost.pure _ | exact Cost.ub | exact Cost.getW | exact Cost.throwExn
  | exact cost_getAny _ | exact cost_setAny _ _ | exact cost_dropSlot _ | exact cost_modifyAny _ _
  | exact cost_mayThrow _ | exact cost_setCell _ _ | exact cost_evalArg _
  | exact cost_destroyAt _ _ | exact cost_deallocate _ _ _
  | exact cost_readSize _ | exact cost_writeSize _ _ | exact cost_readObj _ _
  | exact cost_slotTy _ _ | exact cost_getMoveFn _ | exact cost_subtablePtr _ _ _
  | apply Cost.first | apply Cost.ite | apply Cost.noexceptIf | apply Cost.onFail | apply Cost.finallyDo
  | intro _ | split))

/-- Close `Cost` goals built from known pieces. -/
macro "cost" : tactic => `(tactic| with_reducible repeat' (first
  | assumption
  | exact Cost.pure _ | exact Cost.ub | exact Cost.getW | exact Cost.throwExn
  | exact cost_getAny _ | exact cost_setAny _ _ | exact cost_dropSlot _ | exact cost_modifyAny _ _
  | exact cost_mayThrow _ | exact cost_setCell _ _ | exact cost_evalArg _
  | exact cost_constructAt _ _ _ _ | exact cost_destroyAt _ _ | exact cost_deallocate _ _ _
  | exact cost_readSize _ | exact cost_writeSize _ _ | exact cost_readObj _ _
  | exact cost_slotTy _ _ | exact cost_getMoveFn _ | exact cost_subtablePtr _ _ _
  | apply Cost.allocate | apply Cost.countCopy
  | (apply Cost.first; focus (cost0; done))
  | (apply Cost.last; rotate_left; focus (intro _; cost0; done))
  | apply Cost.ite | apply Cost.noexceptIf | (apply Cost.onFail; rotate_left; focus (cost0; done)) | (apply Cost.finallyDo; rotate_left; focus (cost0; done))
  | intro _ | split))

theorem cost_destroyValue {k : Use} (a : Nat) : Cost k (destroyValue cfg a) := by unfold destroyValue; cost
theorem cost_deallocateMemory {k : Use} (a : Nat) : Cost k (deallocateMemory cfg a) := by unfold deallocateMemory; cost
theorem cost_reset {k : Use} (a : Nat) : Cost k (reset cfg a) := by
  have := @cost_destroyValue cfg .zero a; have := @cost_deallocateMemory cfg k a; unfold reset; cost
theorem cost_constructValue {b o c : Nat} (a t : Nat) (x : Arg) (n : Bool) : Cost ⟨b, o + 1, c⟩ (constructValue cfg a t x n) := by
  unfold constructValue; cost
theorem cost_emplaceInEmpty {b o c : Nat} (a t : Nat) (f : Bool) (x : Arg) (n : Bool) : Cost ⟨b + 1, o + 1, c⟩ (emplaceInEmpty cfg a t f x n) := by
  have := @cost_constructValue cfg b o c a t x n; have := @cost_constructValue cfg (b + 1) o c a t x n
  unfold emplaceInEmpty; cost
theorem cost_emplace {b o c : Nat} (a t : Nat) (x : Arg) (n : Bool) : Cost ⟨b + 1, o + 1, c⟩ (emplace cfg a t x n) := by
  have := @cost_constructValue cfg (b + 1) o c a t x n; have := @cost_emplaceInEmpty cfg b o c a t false x n
  have := @cost_destroyValue cfg .zero a; have := @cost_deallocateMemory cfg .zero a
  unfold emplace emplaceDecayed; cost
theorem cost_replaceWithBytes {b o c : Nat} (a n : Nat) : Cost ⟨b + 1, o, c⟩ (replaceWithBytes cfg a n) := by
  have := @cost_destroyValue cfg .zero a; have := @cost_deallocateMemory cfg .zero a
  unfold replaceWithBytes; cost
theorem cost_relocate {b o c : Nat} (t : Nat) (p q : Ptr) : Cost ⟨b, o + 1, c⟩ (relocate cfg t p q) := by unfold relocate; cost
theorem cost_moveValueFrom {b o c : Nat} (a d : Nat) : Cost ⟨b, o + 1, c⟩ (moveValueFrom cfg true a d) := by
  unfold moveValueFrom
  simp only [if_true]
  cost
  all_goals exact cost_relocate _ _ _
theorem cost_moveValueFrom' {b o c : Nat} (r : Bool) (a d : Nat) : Cost ⟨b + 1, o + 1, c⟩ (moveValueFrom cfg r a d) := by
  unfold moveValueFrom; cost
  all_goals exact cost_relocate _ _ _
theorem cost_construct {k : Use} (a : Nat) (ms : List Method) (al : Nat) {x : M Unit} (h : Cost k x) : Cost k (construct a ms al x) := by
  unfold construct; cost
theorem cost_copyFn {b o c : Nat} (t : Nat) (p : Ptr) (a : Nat) (d : Ptr) (al : Nat) : Cost ⟨b + 1, o + 1, c + 1⟩ (copyFn cfg t p a d al) := by
  unfold copyFn; cost
theorem cost_copyCtor {b o c : Nat} (a : Nat) (ms : List Method) (d : Nat) : Cost ⟨b + 1, o + 1, c + 1⟩ (copyCtor cfg a ms d) := by
  unfold copyCtor
  refine .first (cost_getAny _) fun t => cost_construct _ _ _ ?_
  cost
  all_goals exact cost_copyFn _ _ _ _ _
theorem cost_destructor {k : Use} (a : Nat) : Cost k (destructor cfg a) :=
  .noexceptIf (.first (cost_reset a) fun _ => cost_dropSlot a)
theorem cost_moveCtor {b o c : Nat} (a d : Nat) : Cost ⟨b, o + 1, c⟩ (moveCtor cfg a d) :=
  .noexceptIf (.first (cost_getAny _) fun _ => cost_construct _ _ _ (cost_moveValueFrom _ _))
theorem cost_transMoveCtor {b o c : Nat} (a : Nat) (ms : List Method) (d : Nat) : Cost ⟨b, o + 1, c⟩ (transMoveCtor cfg a ms d) :=
  .noexceptIf (cost_construct _ _ _ (cost_moveValueFrom _ _))
theorem cost_moveAssign {b o c : Nat} (a d : Nat) : Cost ⟨b + 1, o + 1, c⟩ (moveAssign cfg a d) := by
  have := fun k => @cost_reset cfg k a
  have := @cost_destroyValue cfg .zero a
  have := @cost_deallocateMemory cfg .zero a
  unfold moveAssign
  refine .noexceptIf (.ite (.pure _) (.ite ?_ (.ite ?_ ?_)))
  · exact .first (cost_reset _) fun _ => cost_moveValueFrom _ _
  · refine .first (cost_reset _) fun _ => .first (cost_getAny _) fun s => .first (cost_getAny _) fun t => ?_
    exact .ite (.first (cost_modifyAny _ _) fun _ => cost_moveValueFrom _ _) (cost_moveValueFrom _ _)
  · refine .first (cost_destroyValue _) fun _ => .first (cost_getAny _) fun s => .first (cost_getAny _) fun t => .ite ?_ ?_
    · dsimp only
      have hr : ∀ r : Bool, Cost ⟨b + 1, o + 1, c⟩ (if r = true then do
            let ty ← getMoveFn t
            relocate cfg ty t.vp s.vp
            modifyAny a (fun s => { s with vt := t.vt })
            modifyAny d (fun t => { t with vt := none })
          else if memAlloc a s = true then do
            let _ ← deallocateMemory cfg a
            moveValueFrom cfg false a d
          else moveValueFrom cfg false a d) := by
        intro r
        refine .ite ?_ (.ite (.first (cost_deallocateMemory _) fun _ => cost_moveValueFrom' _ _ _) (cost_moveValueFrom' _ _ _))
        refine .first (cost_getMoveFn _) fun ty => .last (cost_relocate _ _ _) fun _ => ?_
        cost0
      refine .ite (.first (cost_readSize _) fun n => .first (cost_readSize _) fun k => .first (.pure _) fun r => hr r) (.first (.pure _) fun r => hr r)
    · exact .first (cost_reset _) fun _ => cost_moveValueFrom _ _

theorem cost_moveAssign_movable {b o c : Nat} (h : movableAlloc cfg = true) (a d : Nat) : Cost ⟨b, o + 1, c⟩ (moveAssign cfg a d) := by
  unfold moveAssign
  refine .noexceptIf (.ite (.pure _) ?_)
  split
  · exact .first (cost_reset _) fun _ => cost_moveValueFrom _ _
  · rename_i ha
    have hp : cfg.pocma = true := by simpa [movableAlloc, ha] using h
    rw [if_pos hp]
    refine .first (cost_reset _) fun _ => .first (cost_getAny _) fun s => .first (cost_getAny _) fun t => ?_
    exact .ite (.first (cost_modifyAny _ _) fun _ => cost_moveValueFrom _ _) (cost_moveValueFrom _ _)

theorem cost_copyAssign {b o c : Nat} (a d tmp : Nat) : Cost ⟨b + 2, o + 2, c + 1⟩ (copyAssign cfg a d tmp) := by
  unfold copyAssign
  refine .first (cost_getAny _) fun t => ?_
  refine (Cost.bind (cost_copyCtor (b := 0) (o := 0) (c := c) _ _ _) fun _ => Cost.finallyDo (k := ⟨b + 1, o + 1, 0⟩) ?_ (cost_destructor _)).weaken ?_ ?_ ?_
  · exact .ite (.first (cost_getAny _) fun s => .first (cost_getAny _) fun t => .ite
      (.first (cost_reset _) fun _ => .first (cost_modifyAny _ _) fun _ => cost_moveAssign _ _) (cost_moveAssign _ _)) (cost_moveAssign _ _)
  all_goals (dsimp only; omega)

theorem cost_copyAssign_movable {b o c : Nat} (h : movableAlloc cfg = true) (a d tmp : Nat) : Cost ⟨b + 1, o + 2, c + 1⟩ (copyAssign cfg a d tmp) := by
  unfold copyAssign
  refine .first (cost_getAny _) fun t => ?_
  refine (Cost.bind (cost_copyCtor (b := 0) (o := 0) (c := c) _ _ _) fun _ => Cost.finallyDo (k := ⟨b, o + 1, 0⟩) ?_ (cost_destructor _)).weaken ?_ ?_ ?_
  · exact .ite (.first (cost_getAny _) fun s => .first (cost_getAny _) fun t => .ite
      (.first (cost_reset _) fun _ => .first (cost_modifyAny _ _) fun _ => cost_moveAssign_movable h _ _)
      (cost_moveAssign_movable h _ _)) (cost_moveAssign_movable h _ _)
  all_goals (dsimp only; omega)

theorem cost_swapAny {b o c : Nat} (x y tmp : Nat) : Cost ⟨b + 2, o + 3, c⟩ (swapAny cfg x y tmp) := by
  unfold swapAny
  refine (Cost.bind (cost_moveCtor (b := 0) (o := 0) (c := c) _ _) fun _ => Cost.finallyDo (k := ⟨b + 2, o + 2, 0⟩) ?_ (cost_destructor _)).weaken ?_ ?_ ?_
  · exact (Cost.bind (cost_moveAssign (b := 0) (o := 0) (c := 0) _ _) fun _ => cost_moveAssign (b := b) (o := o) (c := 0) _ _).weaken
      (by dsimp only; omega) (by dsimp only; omega) (by dsimp only; omega)
  all_goals (dsimp only; omega)

theorem cost_swapAny_movable {b o c : Nat} (h : movableAlloc cfg = true) (x y tmp : Nat) : Cost ⟨b, o + 3, c⟩ (swapAny cfg x y tmp) := by
  unfold swapAny
  refine (Cost.bind (cost_moveCtor (b := 0) (o := 0) (c := c) _ _) fun _ => Cost.finallyDo (k := ⟨b, o + 2, 0⟩) ?_ (cost_destructor _)).weaken ?_ ?_ ?_
  · exact (Cost.bind (cost_moveAssign_movable h (b := 0) (o := 0) (c := 0) _ _) fun _ => cost_moveAssign_movable h (b := b) (o := o) (c := 0) _ _).weaken
      (by dsimp only; omega) (by dsimp only; omega) (by dsimp only; omega)
  all_goals (dsimp only; omega)

theorem cost_materialize {b o c : Nat} (a : Nat) (ms : List Method) (al : Nat) (r : VtPtr × Ptr) : Cost ⟨b + 1, o + 1, c + 1⟩ (materialize cfg a ms al r) := by
  have := @cost_destructor cfg .zero a
  have := @cost_construct .zero a ms al (Pure.pure ()) (.pure _)
  unfold materialize allocCtor; cost
  all_goals exact cost_copyFn _ _ _ _ _
theorem cost_refTo {k : Use} (d : Nat) (ms : List Method) : Cost k (refTo d ms) := by unfold refTo; cost0
theorem cost_argOf {k : Use} (x : ArgSrc) : Cost k (argOf x) := by
  cases x with
  | lit v => exact .pure _
  | valueOf a => exact .first (cost_getAny _) fun _ => .pure _
theorem cost_descTy {k : Use} (s : AnySt) : Cost k (descTy s) := by
  unfold descTy
  split
  · exact .ub
  · exact cost_slotTy _ _
theorem cost_typeDescriptor {k : Use} (a : Nat) : Cost k (typeDescriptor a) :=
  .first (cost_getAny _) fun _ => .ite (.pure _) (.first (cost_descTy _) fun _ => .pure _)
theorem cost_anyCastPtr {k : Use} (a t : Nat) : Cost k (anyCastPtr a t) :=
  .first (cost_typeDescriptor a) fun _ => .ite (.first (cost_getAny _) fun _ => .pure _) (.pure _)
theorem cost_writeObj {k : Use} (p : Ptr) (t v : Nat) : Cost k (writeObj p t v) :=
  .first (cost_readObj _ _) fun _ => cost_setCell _ _
theorem cost_anyCastCopy {k : Use} (a t : Nat) : Cost k (anyCastCopy cfg a t) := by
  refine .first (cost_anyCastPtr _ _) fun r => ?_
  cases r with
  | none => exact .throwExn
  | some p => exact .first (cost_readObj _ _) fun _ => .first (cost_mayThrow _) fun _ => .pure _
theorem cost_anyCastMove {k : Use} (a t : Nat) : Cost k (anyCastMove cfg a t) := by
  refine .first (cost_anyCastPtr _ _) fun r => ?_
  cases r with
  | none => exact .throwExn
  | some p => exact .first (cost_readObj _ _) fun _ => .first (cost_mayThrow _) fun _ => .first (cost_writeObj _ _ _) fun _ => .pure _
theorem cost_invokeUser {k : Use} (a m x : Nat) : Cost k (invokeUser cfg a m x) := by
  refine .first (cost_getAny _) fun s => .first (cost_slotTy _ _) fun t => .first (cost_readObj _ _) fun ob => ?_
  split
  · exact .first (cost_mayThrow _) fun _ => .pure _
  · exact .first (.onFail (cost_mayThrow _) (cost_writeObj _ _ _)) fun _ => .first (cost_writeObj _ _ _) fun _ => .pure _
  · exact .first (cost_mayThrow _) fun _ => .first (cost_mayThrow _) fun _ => .pure _

end AnyAny.Mem
