import Verif.Lemmas.AnyMemRun
/-
Counters only grow: whatever an operation does, identities are never reused, and nothing is
un-destroyed, un-freed or un-copied.
-/
namespace AnyAny.Mem
variable {cfg : Cfg}

structure Mono (w w' : World) : Prop where
  obj : w.nextObj ≤ w'.nextObj
  blk : w.nextBlk ≤ w'.nextBlk
  born : ∀ i, i < w.nextObj → w'.born i = w.born i
  dtors : ∀ i, w.dtors i ≤ w'.dtors i
  frees : ∀ b, w.frees b ≤ w'.frees b
  copies : w.copies ≤ w'.copies
  tick : w.tick ≤ w'.tick

theorem Mono.refl (w : World) : Mono w w := ⟨by omega, by omega, fun _ _ => rfl, fun _ => by omega, fun _ => by omega, by omega, by omega⟩

theorem Mono.trans {w1 w2 w3 : World} (h : Mono w1 w2) (h' : Mono w2 w3) : Mono w1 w3 :=
  ⟨Nat.le_trans h.obj h'.obj, Nat.le_trans h.blk h'.blk,
   fun i hi => by rw [h'.born i (by have := h.obj; omega), h.born i hi],
   fun i => Nat.le_trans (h.dtors i) (h'.dtors i), fun b => Nat.le_trans (h.frees b) (h'.frees b),
   Nat.le_trans h.copies h'.copies, Nat.le_trans h.tick h'.tick⟩

/-- Every outcome of `m` is later than its start. -/
def MonoM {α} (m : M α) : Prop :=
  ∀ w, (∀ x w', m w = .ok x w' → Mono w w') ∧ (∀ w', m w = .exn w' → Mono w w')

theorem MonoM.pure {α} (x : α) : MonoM (Pure.pure x : M α) := fun w =>
  ⟨fun _ _ h => by cases h; exact .refl w, fun _ h => by cases h⟩

theorem MonoM.ub {α} : MonoM (AnyAny.Mem.ub : M α) := fun _ => ⟨fun _ _ h => by (cases h), fun _ h => by cases h⟩

theorem MonoM.throwExn {α} : MonoM (AnyAny.Mem.throwExn : M α) := fun w =>
  ⟨fun _ _ h => (by cases h), fun _ h => by cases h; exact .refl w⟩

theorem MonoM.getW : MonoM AnyAny.Mem.getW := fun w =>
  ⟨fun _ _ h => by cases h; exact .refl w, fun _ h => by cases h⟩

theorem MonoM.bind {α β} {m : M α} {f : α → M β} (hm : MonoM m) (hf : ∀ x, MonoM (f x)) : MonoM (m >>= f) := by
  intro w
  simp only [bind_apply]
  cases h : m w with
  | ok x w1 =>
    have h1 := (hm w).1 x w1 h
    exact ⟨fun y w' h' => h1.trans ((hf x w1).1 y w' h'), fun w' h' => h1.trans ((hf x w1).2 w' h')⟩
  | exn w1 => exact ⟨fun y w' h' => (by cases h'), fun w' h' => by cases h'; exact (hm w).2 w1 h⟩
  | ub => exact ⟨fun y w' h' => (by cases h'), fun w' h' => by cases h'⟩
  | term => exact ⟨fun y w' h' => (by cases h'), fun w' h' => by cases h'⟩

theorem MonoM.ite {α} {c : Prop} [Decidable c] {x y : M α} (hx : MonoM x) (hy : MonoM y) :
    MonoM (if c then x else y) := by split <;> assumption

theorem MonoM.noexceptIf {α} {b : Bool} {m : M α} (hm : MonoM m) : MonoM (noexceptIf b m) := by
  intro w
  have := hm w
  unfold AnyAny.Mem.noexceptIf
  cases h : m w with
  | exn w1 =>
    cases b
    · exact ⟨fun y w' h' => by simp at h', fun w' h' => by simp at h'; subst h'; exact this.2 _ h⟩
    · exact ⟨fun y w' h' => by simp at h', fun w' h' => by simp at h'⟩
  | ok x w1 => exact ⟨fun y w' h' => by cases h'; exact this.1 _ _ h, fun w' h' => by cases h'⟩
  | ub => exact ⟨fun y w' h' => (by cases h'), fun w' h' => by cases h'⟩
  | term => exact ⟨fun y w' h' => (by cases h'), fun w' h' => by cases h'⟩

theorem MonoM.onFail {α} {m : M α} {c : M Unit} (hm : MonoM m) (hc : MonoM c) : MonoM (onFail m c) := by
  intro w
  have := hm w
  unfold AnyAny.Mem.onFail
  cases h : m w with
  | exn w1 =>
    have h1 := this.2 _ h
    have h2 := hc w1
    simp only []
    cases h' : c w1 with
    | ok u w2 => exact ⟨fun y w' h'' => (by cases h''), fun w' h'' => by cases h''; exact h1.trans (h2.1 _ _ h')⟩
    | exn w2 => exact ⟨fun y w' h'' => (by cases h''), fun w' h'' => by cases h''⟩
    | ub => exact ⟨fun y w' h'' => (by cases h''), fun w' h'' => by cases h''⟩
    | term => exact ⟨fun y w' h'' => (by cases h''), fun w' h'' => by cases h''⟩
  | ok x w1 => exact ⟨fun y w' h' => by cases h'; exact this.1 _ _ h, fun w' h' => by cases h'⟩
  | ub => exact ⟨fun y w' h' => (by cases h'), fun w' h' => by cases h'⟩
  | term => exact ⟨fun y w' h' => (by cases h'), fun w' h' => by cases h'⟩

theorem MonoM.finallyDo {α} {m : M α} {c : M Unit} (hm : MonoM m) (hc : MonoM c) : MonoM (finallyDo m c) := by
  intro w
  have := hm w
  unfold AnyAny.Mem.finallyDo
  cases h : m w with
  | exn w1 =>
    have h1 := this.2 _ h
    have h2 := hc w1
    simp only []
    cases h' : c w1 with
    | ok u w2 => exact ⟨fun y w' h'' => (by cases h''), fun w' h'' => by cases h''; exact h1.trans (h2.1 _ _ h')⟩
    | exn w2 => exact ⟨fun y w' h'' => (by cases h''), fun w' h'' => by cases h''⟩
    | ub => exact ⟨fun y w' h'' => (by cases h''), fun w' h'' => by cases h''⟩
    | term => exact ⟨fun y w' h'' => (by cases h''), fun w' h'' => by cases h''⟩
  | ok x w1 =>
    have h1 := this.1 _ _ h
    have h2 := hc w1
    simp only []
    cases h' : c w1 with
    | ok u w2 => exact ⟨fun y w' h'' => by cases h''; exact h1.trans (h2.1 _ _ h'), fun w' h'' => by cases h''⟩
    | exn w2 => exact ⟨fun y w' h'' => (by cases h''), fun w' h'' => by cases h''; exact h1.trans (h2.2 _ h')⟩
    | ub => exact ⟨fun y w' h'' => (by cases h''), fun w' h'' => by cases h''⟩
    | term => exact ⟨fun y w' h'' => (by cases h''), fun w' h'' => by cases h''⟩
  | ub => exact ⟨fun y w' h' => (by cases h'), fun w' h' => by cases h'⟩
  | term => exact ⟨fun y w' h' => (by cases h'), fun w' h' => by cases h'⟩


theorem mono_getAny (a : Nat) : MonoM (getAny a) := fun w =>
  ⟨fun _ _ h => by unfold getAny at h; split at h <;> cases h; exact .refl w,
   fun _ h => by unfold getAny at h; split at h <;> cases h⟩

theorem mono_setAny (a : Nat) (s : AnySt) : MonoM (setAny a s) := fun w =>
  ⟨fun _ _ h => by cases h; exact ⟨Nat.le_refl _, Nat.le_refl _, fun _ _ => rfl, fun _ => Nat.le_refl _, fun _ => Nat.le_refl _, Nat.le_refl _, Nat.le_refl _⟩,
   fun _ h => by cases h⟩

theorem mono_dropSlot (a : Nat) : MonoM (dropSlot a) := fun w =>
  ⟨fun _ _ h => by cases h; exact ⟨Nat.le_refl _, Nat.le_refl _, fun _ _ => rfl, fun _ => Nat.le_refl _, fun _ => Nat.le_refl _, Nat.le_refl _, Nat.le_refl _⟩,
   fun _ h => by cases h⟩

theorem mono_modifyAny (a : Nat) (f : AnySt → AnySt) : MonoM (modifyAny a f) :=
  .bind (mono_getAny a) fun _ => mono_setAny _ _

theorem mono_throwPoint : MonoM (throwPoint cfg) := by
  intro w
  constructor <;> intros <;> rename_i h <;> unfold throwPoint at h <;> split at h <;> cases h <;>
    exact ⟨Nat.le_refl _, Nat.le_refl _, fun _ _ => rfl, fun _ => Nat.le_refl _, fun _ => Nat.le_refl _, Nat.le_refl _, Nat.le_succ _⟩

theorem mono_mayThrow (b : Bool) : MonoM (mayThrow cfg b) := .ite (.pure _) mono_throwPoint

theorem mono_setCell (p : Ptr) (c : Option Obj) : MonoM (setCell p c) := by
  intro w
  constructor <;> intros <;> rename_i h <;> unfold setCell at h <;> (repeat' split at h) <;> cases h <;>
    exact ⟨Nat.le_refl _, Nat.le_refl _, fun _ _ => rfl, fun _ => Nat.le_refl _, fun _ => Nat.le_refl _, Nat.le_refl _, Nat.le_refl _⟩

theorem mono_evalArg (x : Arg) : MonoM (evalArg x) := by
  intro w
  constructor <;> intros <;> rename_i h <;> unfold evalArg at h <;> (repeat' split at h) <;> cases h <;>
    exact .refl _

theorem mono_freshObj (t v : Nat) : MonoM (freshObj t v) := by
  intro w
  refine ⟨fun _ _ h => ?_, fun _ h => by cases h⟩
  cases h
  exact ⟨Nat.le_succ _, Nat.le_refl _, fun i hi => upd_other _ _ _ _ (by omega), fun _ => Nat.le_refl _, fun _ => Nat.le_refl _, Nat.le_refl _, Nat.le_refl _⟩

theorem mono_constructAt (p : Ptr) (t : Nat) (x : Arg) (n : Bool) : MonoM (constructAt cfg p t x n) :=
  .bind .getW fun _ => .ite (.bind (mono_evalArg x) fun _ => .bind (.onFail (mono_mayThrow n) (mono_setCell _ _))
    fun _ => .bind (mono_freshObj _ _) fun _ => mono_setCell _ _) .ub

theorem mono_destroyAt (p : Ptr) (t : Nat) : MonoM (destroyAt p t) := by
  have key : ∀ (w : World) i, Mono w { w with dtors := upd w.dtors i (w.dtors i + 1) } := fun w i =>
    ⟨Nat.le_refl _, Nat.le_refl _, fun _ _ => rfl, fun j => by simp only [upd]; split <;> simp_all, fun _ => Nat.le_refl _, Nat.le_refl _, Nat.le_refl _⟩
  intro w
  constructor <;> intros <;> rename_i h <;> unfold destroyAt at h <;> (repeat' split at h)
  · exact (key w _).trans ((mono_setCell _ _ _).1 _ _ h)
  all_goals first | (cases h; done) | exact (key w _).trans ((mono_setCell _ _ _).2 _ h)

theorem mono_allocate (al n : Nat) : MonoM (allocate cfg al n) := by
  refine .bind mono_throwPoint fun _ => ?_
  intro w
  refine ⟨fun _ _ h => ?_, fun _ h => by cases h⟩
  cases h
  exact ⟨Nat.le_refl _, Nat.le_succ _, fun _ _ => rfl, fun _ => Nat.le_refl _, fun _ => Nat.le_refl _, Nat.le_refl _, Nat.le_refl _⟩

theorem mono_deallocate (al : Nat) (p : Ptr) (n : Nat) : MonoM (deallocate cfg al p n) := by
  intro w
  constructor <;> intros <;> rename_i h <;> unfold deallocate at h <;> (repeat' split at h) <;> cases h
  exact ⟨Nat.le_refl _, Nat.le_refl _, fun _ _ => rfl, fun _ => Nat.le_refl _, fun j => by simp only [upd]; split <;> simp_all, Nat.le_refl _, Nat.le_refl _⟩

theorem mono_readSize (a : Nat) : MonoM (readSize a) := by
  intro w
  constructor <;> intros <;> rename_i h <;> unfold readSize at h <;> (repeat' split at h) <;> cases h <;>
    exact .refl _

theorem mono_writeSize (a n : Nat) : MonoM (writeSize cfg a n) := by
  intro w
  constructor <;> intros <;> rename_i h <;> unfold writeSize at h <;> (repeat' split at h) <;> cases h <;>
    exact ⟨Nat.le_refl _, Nat.le_refl _, fun _ _ => rfl, fun _ => Nat.le_refl _, fun _ => Nat.le_refl _, Nat.le_refl _, Nat.le_refl _⟩

theorem mono_readObj (p : Ptr) (t : Nat) : MonoM (readObj p t) := by
  intro w
  constructor <;> intros <;> rename_i h <;> unfold readObj at h <;> (repeat' split at h) <;> cases h <;>
    exact .refl _

theorem mono_countCopy : MonoM countCopy := by
  intro w
  refine ⟨fun _ _ h => ?_, fun _ h => by cases h⟩
  cases h
  exact ⟨Nat.le_refl _, Nat.le_refl _, fun _ _ => rfl, fun _ => Nat.le_refl _, fun _ => Nat.le_refl _, Nat.le_succ _, Nat.le_refl _⟩

theorem mono_slotTy (s : AnySt) (m : Method) : MonoM (slotTy s m) := by
  unfold slotTy
  split
  · exact .ub
  · split
    · exact .ub
    · exact .ite (.pure _) .ub

theorem mono_descTy (s : AnySt) : MonoM (descTy s) := by
  unfold descTy
  split
  · exact .ub
  · exact mono_slotTy _ _

theorem mono_getMoveFn (s : AnySt) : MonoM (getMoveFn s) := by
  unfold getMoveFn
  refine .ite (mono_slotTy _ _) ?_
  split
  · exact mono_slotTy _ _
  · exact .ub

theorem mono_subtablePtr (x y : List Method) (v : VtPtr) : MonoM (subtablePtr x y v) := by
  unfold subtablePtr
  refine .ite (.pure _) ?_
  split
  · exact .pure _
  · exact .ub

attribute [local irreducible] MonoM

/-- Close `MonoM` goals built from known pieces. -/
macro "mono" : tactic => `(tactic| repeat' (first
  | assumption
  | exact MonoM.pure _ | exact MonoM.ub | exact MonoM.getW | exact MonoM.throwExn
  | exact mono_getAny _ | exact mono_setAny _ _ | exact mono_dropSlot _ | exact mono_modifyAny _ _
  | exact mono_mayThrow _ | exact mono_setCell _ _ | exact mono_evalArg _ | exact mono_freshObj _ _
  | exact mono_constructAt _ _ _ _ | exact mono_destroyAt _ _ | exact mono_allocate _ _ | exact mono_deallocate _ _ _
  | exact mono_readSize _ | exact mono_writeSize _ _ | exact mono_readObj _ _ | exact mono_countCopy
  | exact mono_slotTy _ _ | exact mono_descTy _ | exact mono_getMoveFn _ | exact mono_subtablePtr _ _ _
  | apply MonoM.bind | apply MonoM.ite | apply MonoM.noexceptIf | apply MonoM.onFail | apply MonoM.finallyDo
  | intro _ | split))

theorem mono_destroyValue (a : Nat) : MonoM (destroyValue cfg a) := by unfold destroyValue; mono
theorem mono_deallocateMemory (a : Nat) : MonoM (deallocateMemory cfg a) := by unfold deallocateMemory; mono
theorem mono_reset (a : Nat) : MonoM (reset cfg a) := by
  have := @mono_destroyValue cfg a; have := @mono_deallocateMemory cfg a; unfold reset; mono
theorem mono_constructValue (a t : Nat) (x : Arg) (n : Bool) : MonoM (constructValue cfg a t x n) := by
  unfold constructValue; mono
theorem mono_emplaceInEmpty (a t : Nat) (f : Bool) (x : Arg) (n : Bool) : MonoM (emplaceInEmpty cfg a t f x n) := by
  have := @mono_constructValue cfg a t x n; unfold emplaceInEmpty; mono
theorem mono_emplace (a t : Nat) (x : Arg) (n : Bool) : MonoM (emplace cfg a t x n) := by
  have := @mono_constructValue cfg a t x n; have := @mono_emplaceInEmpty cfg a t false x n
  have := @mono_destroyValue cfg a; have := @mono_deallocateMemory cfg a
  unfold emplace emplaceDecayed; mono
theorem mono_replaceWithBytes (a n : Nat) : MonoM (replaceWithBytes cfg a n) := by
  have := @mono_destroyValue cfg a; have := @mono_deallocateMemory cfg a
  unfold replaceWithBytes; mono
theorem mono_relocate (t : Nat) (p q : Ptr) : MonoM (relocate cfg t p q) := by unfold relocate; mono
attribute [local irreducible] relocate
theorem mono_moveValueFrom (r : Bool) (a o : Nat) : MonoM (moveValueFrom cfg r a o) := by
  have := @mono_relocate cfg
  unfold moveValueFrom; mono
  all_goals exact this _ _ _
theorem mono_construct (a : Nat) (ms : List Method) (al : Nat) {b : M Unit} (h : MonoM b) : MonoM (construct a ms al b) := by
  unfold construct; mono
theorem mono_copyFn (t : Nat) (p : Ptr) (a : Nat) (d : Ptr) (al : Nat) : MonoM (copyFn cfg t p a d al) := by
  unfold copyFn; mono
attribute [local irreducible] copyFn
theorem mono_copyCtor (a : Nat) (ms : List Method) (o : Nat) : MonoM (copyCtor cfg a ms o) := by
  unfold copyCtor
  refine .bind (mono_getAny _) fun t => mono_construct _ _ _ ?_
  split
  · exact .pure _
  · have := @mono_copyFn cfg
    mono
    exact this _ _ _ _ _
attribute [local irreducible] copyCtor
theorem mono_moveCtor (a o : Nat) : MonoM (moveCtor cfg a o) := by
  unfold moveCtor
  exact .noexceptIf (.bind (mono_getAny _) fun t => mono_construct _ _ _ (mono_moveValueFrom _ _ _))
theorem mono_destructor (a : Nat) : MonoM (destructor cfg a) := by
  have := @mono_reset cfg a; unfold destructor; mono
theorem mono_moveAssign (a o : Nat) : MonoM (moveAssign cfg a o) := by
  have := @mono_reset cfg a; have := @mono_moveValueFrom cfg true a o; have := @mono_moveValueFrom cfg false a o
  have := @mono_destroyValue cfg a; have := @mono_deallocateMemory cfg a; have hr := @mono_relocate cfg
  unfold moveAssign; mono
  all_goals exact hr _ _ _
theorem mono_copyAssign (a o tmp : Nat) : MonoM (copyAssign cfg a o tmp) := by
  have := @mono_reset cfg a; have := @mono_moveAssign cfg a tmp; have := @mono_destructor cfg tmp
  have hc := @mono_copyCtor cfg
  unfold copyAssign; mono
  all_goals exact hc _ _ _
theorem mono_swapAny (a b tmp : Nat) : MonoM (swapAny cfg a b tmp) := by
  have := @mono_moveCtor cfg tmp a; have := @mono_moveAssign cfg a b; have := @mono_moveAssign cfg b tmp
  have := @mono_destructor cfg tmp
  unfold swapAny; mono
theorem mono_argOf (x : ArgSrc) : MonoM (argOf x) := by unfold argOf; mono
theorem mono_anyCastPtr (a t : Nat) : MonoM (anyCastPtr a t) := by unfold anyCastPtr typeDescriptor; mono
theorem mono_writeObj (p : Ptr) (t v : Nat) : MonoM (writeObj p t v) := by unfold writeObj; mono

theorem mono_refTo (o : Nat) (ms : List Method) : MonoM (refTo o ms) := by unfold refTo; mono
theorem mono_materialize (a : Nat) (ms : List Method) (al : Nat) (r : VtPtr × Ptr) : MonoM (materialize cfg a ms al r) := by
  have h1 := @mono_destructor cfg a
  have h2 := @mono_copyFn cfg
  refine .bind (mono_construct _ _ _ (.pure _)) fun _ => .onFail ?_ h1
  exact .bind (mono_modifyAny _ _) fun _ => .bind (mono_getAny _) fun _ => .bind (mono_slotTy _ _) fun _ =>
    .bind (h2 _ _ _ _ _) fun _ => mono_modifyAny _ _

theorem mono_exec (op : Op) : MonoM (exec cfg op) := by
  have h1 := @mono_argOf; have h2 := @mono_anyCastPtr; have h3 := @mono_writeObj
  cases op with
  | allocCtor a ms al => exact mono_construct _ _ _ (.pure _)
  | valueCtor a ms al t x n =>
    exact .bind (h1 x) fun _ => .noexceptIf (mono_construct _ _ _ (mono_emplaceInEmpty _ _ _ _ _))
  | forceCtor a ms t x n =>
    exact .bind (h1 x) fun _ => .noexceptIf (mono_construct _ _ _ (mono_emplaceInEmpty _ _ _ _ _))
  | copyCtor a ms o => exact mono_copyCtor a ms o
  | moveCtor a o => exact mono_moveCtor a o
  | transMoveCtor a ms o => exact .noexceptIf (mono_construct _ _ _ (mono_moveValueFrom _ _ _))
  | dtor a => exact mono_destructor a
  | copyAssign a o tmp => exact mono_copyAssign a o tmp
  | moveAssign a o => exact mono_moveAssign a o
  | emplace a t x n => exact .bind (h1 x) fun _ => mono_emplace _ _ _ _
  | reset a => exact mono_reset a
  | destroyValue a => exact mono_destroyValue a
  | replaceWithBytes a n => exact mono_replaceWithBytes a n
  | mutate a t v => simp only [exec]; mono
  | castCopy a t => simp only [exec, anyCastCopy]; mono
  | castMove a t => simp only [exec, anyCastMove]; mono
  | invoke a m x => simp only [exec, invokeUser]; mono
  | swap a b tmp => exact mono_swapAny a b tmp
  | materialize a ms al o => exact .bind (mono_refTo _ _) fun _ => mono_materialize _ _ _ _

end AnyAny.Mem
