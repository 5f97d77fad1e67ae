import Verif.Model.Fine
/-
Performing the steps of Model/Fine.lean in sequence is the function of Model/AnyMem.lean.
-/
namespace AnyAny.Fine
open AnyAny.TypeList (numberOfFirst findSubsequence)
open AnyAny.Mem (Method SelfKind TyInfo Cfg Obj Buf Ptr VtPtr AnySt Blk World Res M upd Arg Op ArgSrc cellAt cellFree allocEq fits movableAlloc memAlloc
  someCopyMethod)

variable {α β : Type} (cfg : Cfg)

@[simp] theorem run_pure (a : α) : (pure a : Tree α).run cfg = (pure a : M α) := rfl

@[simp] theorem run_ub : (ub : Tree α).run cfg = Mem.ub := rfl
@[simp] theorem run_throw : (throwExn : Tree α).run cfg = Mem.throwExn := rfl

@[simp] theorem run_bind (t : Tree α) (f : α → Tree β) :
    (t >>= f).run cfg = (t.run cfg >>= fun a => (f a).run cfg : M β) := by
  funext w
  show (t.bind f).run cfg w = Mem.M.bind (t.run cfg) (fun a => (f a).run cfg) w
  induction t generalizing w with
  | ret a => rfl
  | exn => rfl
  | ub => rfl
  | term => rfl
  | act A k ih =>
    simp only [Tree.bind, Tree.run, Mem.M.bind]
    cases A.exec cfg w with
    | ok b w' => simp only []; rw [ih]; rfl
    | exn w' => rfl
    | ub => rfl
    | term => rfl

@[simp] theorem run_do (A : Act β) : A.do.run cfg = A.exec cfg := by
  funext w
  simp only [Act.do, Tree.run]
  cases A.exec cfg w <;> rfl

@[simp] theorem run_ite {c : Prop} [Decidable c] (t u : Tree α) :
    (if c then t else u).run cfg = if c then t.run cfg else u.run cfg := by split <;> rfl

/-- Only a step that does not throw stands in front of a continuation. -/
theorem exec_ne_exn (A : Act β) (w v : World) : A.exec cfg w ≠ .exn v := by
  cases A <;> simp only [Act.exec, Mem.getAny, Mem.setAny, Mem.dropSlot, Mem.readSize, Mem.writeSize, Mem.setCell, Mem.destroyAt, Mem.deallocate,
    Mem.freshObj, Mem.countCopy] <;> (repeat' split) <;> simp

@[simp] theorem run_noexceptIf (b : Bool) (t : Tree α) :
    (noexceptIf b t).run cfg = Mem.noexceptIf b (t.run cfg) := by
  funext w
  induction t generalizing w with
  | ret a => rfl
  | exn => cases b <;> rfl
  | ub => rfl
  | term => rfl
  | act A k ih =>
    simp only [noexceptIf, Tree.run, Mem.noexceptIf]
    cases h : A.exec cfg w with
    | ok b' w' => simp only []; rw [ih]; rfl
    | exn w' => exact absurd h (exec_ne_exn cfg A w w')
    | ub => rfl
    | term => rfl

theorem run_rethrow (t : Tree Unit) (w : World) :
    (rethrow t : Tree α).run cfg w =
      match t.run cfg w with
      | .ok _ w' => .exn w'
      | .exn _ => .term
      | .ub => .ub
      | .term => .term := by
  induction t generalizing w with
  | ret a => rfl
  | exn => rfl
  | ub => rfl
  | term => rfl
  | act A k ih =>
    simp only [rethrow, Tree.run]
    cases h : A.exec cfg w with
    | ok b w' => simp only []; rw [ih]
    | exn w' => exact absurd h (exec_ne_exn cfg A w w')
    | ub => rfl
    | term => rfl

@[simp] theorem run_onFail (t : Tree α) (c : Tree Unit) :
    (onFail t c).run cfg = Mem.onFail (t.run cfg) (c.run cfg) := by
  funext w
  induction t generalizing w with
  | ret a => rfl
  | exn => simp only [onFail, Tree.run, Mem.onFail]; rw [run_rethrow]; rfl
  | ub => rfl
  | term => rfl
  | act A k ih =>
    simp only [onFail, Tree.run, Mem.onFail]
    cases h : A.exec cfg w with
    | ok b' w' => simp only []; rw [ih]; rfl
    | exn w' => exact absurd h (exec_ne_exn cfg A w w')
    | ub => rfl
    | term => rfl

@[simp] theorem run_finallyDo (t : Tree α) (c : Tree Unit) :
    (finallyDo t c).run cfg = Mem.finallyDo (t.run cfg) (c.run cfg) := by
  funext w
  induction t generalizing w with
  | ret a =>
    simp only [finallyDo, Tree.run, Mem.finallyDo]
    have := congrFun (run_bind cfg c (fun _ => pure a)) w
    refine this.trans ?_
    show Mem.M.bind _ _ w = _
    unfold Mem.M.bind
    cases c.run cfg w <;> rfl
  | exn => simp only [finallyDo, Tree.run, Mem.finallyDo]; rw [run_rethrow]; rfl
  | ub => rfl
  | term => rfl
  | act A k ih =>
    simp only [finallyDo, Tree.run, Mem.finallyDo]
    cases h : A.exec cfg w with
    | ok b' w' => simp only []; rw [ih]; rfl
    | exn w' => exact absurd h (exec_ne_exn cfg A w w')
    | ub => rfl
    | term => rfl

/-! ### primitive functions -/

@[simp] theorem run_getAny (a : Nat) : (getAny a).run cfg = Mem.getAny a := run_do cfg _
@[simp] theorem run_setAny (a : Nat) (s : AnySt) : (setAny a s).run cfg = Mem.setAny a s := run_do cfg _
@[simp] theorem run_dropSlot (a : Nat) : (dropSlot a).run cfg = Mem.dropSlot a := run_do cfg _
@[simp] theorem run_readSize (a : Nat) : (readSize a).run cfg = Mem.readSize a := run_do cfg _
@[simp] theorem run_writeSize (a n : Nat) : (writeSize a n).run cfg = Mem.writeSize cfg a n := run_do cfg _
@[simp] theorem run_setCell (p : Ptr) (c : Option Obj) : (setCell p c).run cfg = Mem.setCell p c := run_do cfg _
@[simp] theorem run_destroyAt (p : Ptr) (t : Nat) : (destroyAt p t).run cfg = Mem.destroyAt p t := run_do cfg _
@[simp] theorem run_deallocate (al : Nat) (p : Ptr) (n : Nat) : (deallocate al p n).run cfg = Mem.deallocate cfg al p n := run_do cfg _
@[simp] theorem run_freshObj (t v : Nat) : (freshObj t v).run cfg = Mem.freshObj t v := run_do cfg _
@[simp] theorem run_countCopy : countCopy.run cfg = Mem.countCopy := run_do cfg _

@[simp] theorem run_modifyAny (a : Nat) (f : AnySt → AnySt) : (modifyAny a f).run cfg = Mem.modifyAny a f := by
  simp [modifyAny, Mem.modifyAny]

@[simp] theorem run_throwPoint : throwPoint.run cfg = Mem.throwPoint cfg := by
  funext w
  simp only [throwPoint, run_bind, run_do, run_ite, run_throw, run_pure]
  show Mem.M.bind _ _ w = _
  simp only [Mem.M.bind, Act.exec, Mem.throwPoint]
  cases cfg.faults w.tick <;> rfl

@[simp] theorem run_mayThrow (n : Bool) : (mayThrow n).run cfg = Mem.mayThrow cfg n := by
  simp [mayThrow, Mem.mayThrow]

@[simp] theorem run_allocate (al n : Nat) : (allocate al n).run cfg = Mem.allocate cfg al n := by
  simp only [allocate, run_bind, run_do, run_throwPoint]
  rfl

@[simp] theorem run_evalArg (x : Arg) : (evalArg x).run cfg = Mem.evalArg x := by
  cases x with
  | lit v => rfl
  | ref p =>
    funext w
    simp only [evalArg, readCell, run_bind, run_do, run_pure]
    show Mem.M.bind _ _ w = _
    simp only [Mem.M.bind, Act.exec, Mem.evalArg]
    cases cellAt w p <;> rfl

@[simp] theorem run_constructAt (p : Ptr) (t : Nat) (x : Arg) (n : Bool) :
    (constructAt p t x n).run cfg = Mem.constructAt cfg p t x n := by
  funext w
  simp only [constructAt, run_bind, run_do, run_evalArg, run_onFail, run_mayThrow, run_setCell, run_freshObj, Mem.constructAt]
  show Mem.M.bind _ _ w = Mem.M.bind _ _ w
  simp only [Mem.M.bind, Act.exec, Mem.getW]
  cases Mem.storageOk cfg w p t <;> rfl

@[simp] theorem run_readObj (p : Ptr) (t : Nat) : (readObj p t).run cfg = Mem.readObj p t := by
  funext w
  simp only [readObj, readCell, run_bind, run_do, run_ite, run_pure, run_ub]
  show Mem.M.bind _ _ w = _
  simp only [Mem.M.bind, Act.exec, Mem.readObj]
  cases cellAt w p with
  | none => rfl
  | some o => simp only []; split <;> rfl

/-! ### the library -/

@[simp] theorem run_slotTy (s : AnySt) (m : Method) : (slotTy s m).run cfg = Mem.slotTy s m := by
  unfold slotTy Mem.slotTy
  cases s.vt with
  | none => rfl
  | some v => cases numberOfFirst m s.ms <;> simp

@[simp] theorem run_destroyValue (a : Nat) : (destroyValue cfg a).run cfg = Mem.destroyValue cfg a := by
  simp [destroyValue, Mem.destroyValue]

@[simp] theorem run_deallocateMemory (a : Nat) : (deallocateMemory a).run cfg = Mem.deallocateMemory cfg a := by
  simp [deallocateMemory, Mem.deallocateMemory]

@[simp] theorem run_reset (a : Nat) : (reset cfg a).run cfg = Mem.reset cfg a := by
  simp [reset, Mem.reset]

@[simp] theorem run_constructValue (a t : Nat) (x : Arg) (n : Bool) :
    (constructValue a t x n).run cfg = Mem.constructValue cfg a t x n := by
  simp [constructValue, Mem.constructValue]

@[simp] theorem run_emplaceInEmpty (a t : Nat) (f : Bool) (x : Arg) (n : Bool) :
    (emplaceInEmpty cfg a t f x n).run cfg = Mem.emplaceInEmpty cfg a t f x n := by
  simp [emplaceInEmpty, Mem.emplaceInEmpty]

@[simp] theorem run_emplaceDecayed (a t : Nat) (x : Arg) (n : Bool) :
    (emplaceDecayed cfg a t x n).run cfg = Mem.emplaceDecayed cfg a t x n := by
  simp [emplaceDecayed, Mem.emplaceDecayed]

@[simp] theorem run_emplace (a t : Nat) (x : Arg) (n : Bool) :
    (emplace cfg a t x n).run cfg = Mem.emplace cfg a t x n := by
  simp [emplace, Mem.emplace]

@[simp] theorem run_replaceWithBytes (a n : Nat) :
    (replaceWithBytes cfg a n).run cfg = Mem.replaceWithBytes cfg a n := by
  simp [replaceWithBytes, Mem.replaceWithBytes]

/-- Reading the object at an address first. -/
theorem run_readCell_bind (p : Ptr) (k : Obj → Tree α) (f : Obj → M α) (h : ∀ o, (k o).run cfg = f o) :
    (readCell p >>= k).run cfg = (show M α from do
      let w ← Mem.getW
      match cellAt w p with
      | none => Mem.ub
      | some o => f o) := by
  funext w
  simp only [readCell, run_bind, run_do]
  show Mem.M.bind _ _ w = Mem.M.bind _ _ w
  simp only [Mem.M.bind, Act.exec, Mem.getW]
  cases cellAt w p with
  | none => rfl
  | some o => simp only [h]

@[simp] theorem run_relocate (t : Nat) (p q : Ptr) : (relocate cfg t p q).run cfg = Mem.relocate cfg t p q := by
  simp only [relocate, Mem.relocate, run_noexceptIf]
  congr 1
  exact run_readCell_bind cfg p _ _ fun o => by simp

@[simp] theorem run_getMoveFn (s : AnySt) : (getMoveFn s).run cfg = Mem.getMoveFn s := by
  unfold getMoveFn Mem.getMoveFn
  rw [run_ite, run_slotTy]
  congr 1
  cases someCopyMethod s.ms <;> simp

@[simp] theorem run_subtablePtr (x y : List Method) (v : VtPtr) : (subtablePtr x y v).run cfg = Mem.subtablePtr x y v := by
  unfold subtablePtr Mem.subtablePtr
  rw [run_ite]
  congr 1
  cases findSubsequence x y <;> simp

@[simp] theorem run_moveValueFrom (r : Bool) (a o : Nat) :
    (moveValueFrom cfg r a o).run cfg = Mem.moveValueFrom cfg r a o := by
  simp only [moveValueFrom, Mem.moveValueFrom, run_noexceptIf, run_bind, run_getAny, run_ite, run_ub]
  congr 1
  congr 1
  funext s
  congr 1
  congr 1
  funext t
  cases t.vt with
  | none => rfl
  | some v => simp

@[simp] theorem run_construct (a : Nat) (ms : List Method) (al : Nat) (t : Tree Unit) :
    (construct a ms al t).run cfg = Mem.construct a ms al (t.run cfg) := by
  funext w
  simp only [construct, newAny, run_bind, run_do, run_onFail, run_dropSlot, Mem.construct]
  show Mem.M.bind _ _ w = Mem.M.bind _ _ w
  simp only [Mem.M.bind, Act.exec, Mem.getW]
  cases (w.anys a).isSome <;> rfl

@[simp] theorem run_allocCtor (a : Nat) (ms : List Method) (al : Nat) :
    (allocCtor a ms al).run cfg = Mem.allocCtor a ms al := by
  simp [allocCtor, Mem.allocCtor]

@[simp] theorem run_valueCtor (a : Nat) (ms : List Method) (al t : Nat) (x : Arg) (n : Bool) :
    (valueCtor cfg a ms al t x n).run cfg = Mem.valueCtor cfg a ms al t x n := by
  simp [valueCtor, Mem.valueCtor]

@[simp] theorem run_forceCtor (a : Nat) (ms : List Method) (t : Nat) (x : Arg) (n : Bool) :
    (forceCtor cfg a ms t x n).run cfg = Mem.forceCtor cfg a ms t x n := by
  simp [forceCtor, Mem.forceCtor]

@[simp] theorem run_copyFn (t : Nat) (p : Ptr) (a : Nat) (q : Ptr) (al : Nat) :
    (copyFn cfg t p a q al).run cfg = Mem.copyFn cfg t p a q al := by
  simp only [copyFn, Mem.copyFn]
  exact run_readCell_bind cfg p _ _ fun o => by simp

@[simp] theorem run_copyCtor (a : Nat) (ms : List Method) (o : Nat) :
    (copyCtor cfg a ms o).run cfg = Mem.copyCtor cfg a ms o := by
  simp only [copyCtor, Mem.copyCtor, run_bind, run_getAny, run_construct]
  congr 1
  funext t
  congr 1
  cases t.vt with
  | none => rfl
  | some v => simp

@[simp] theorem run_moveCtor (a o : Nat) : (moveCtor cfg a o).run cfg = Mem.moveCtor cfg a o := by
  simp [moveCtor, Mem.moveCtor]

@[simp] theorem run_transMoveCtor (a : Nat) (ms : List Method) (o : Nat) :
    (transMoveCtor cfg a ms o).run cfg = Mem.transMoveCtor cfg a ms o := by
  simp [transMoveCtor, Mem.transMoveCtor]

@[simp] theorem run_destructor (a : Nat) : (destructor cfg a).run cfg = Mem.destructor cfg a := by
  simp [destructor, Mem.destructor]

@[simp] theorem run_moveAssign (a o : Nat) : (moveAssign cfg a o).run cfg = Mem.moveAssign cfg a o := by
  simp [moveAssign, Mem.moveAssign]

@[simp] theorem run_copyAssign (a o tmp : Nat) : (copyAssign cfg a o tmp).run cfg = Mem.copyAssign cfg a o tmp := by
  simp [copyAssign, Mem.copyAssign]

@[simp] theorem run_swapAny (a b tmp : Nat) : (swapAny cfg a b tmp).run cfg = Mem.swapAny cfg a b tmp := by
  simp [swapAny, Mem.swapAny]

@[simp] theorem run_refTo (o : Nat) (ms : List Method) : (refTo o ms).run cfg = Mem.refTo o ms := by
  simp only [refTo, Mem.refTo, run_bind, run_getAny]
  congr 1
  funext t
  cases t.vt with
  | none => rfl
  | some v => simp

@[simp] theorem run_materialize (a : Nat) (ms : List Method) (al : Nat) (r : VtPtr × Ptr) :
    (materialize cfg a ms al r).run cfg = Mem.materialize cfg a ms al r := by
  simp [materialize, Mem.materialize]

@[simp] theorem run_descTy (s : AnySt) : (descTy s).run cfg = Mem.descTy s := by
  unfold descTy Mem.descTy
  cases Mem.descMethod s.ms <;> simp

@[simp] theorem run_typeDescriptor (a : Nat) : (typeDescriptor a).run cfg = Mem.typeDescriptor a := by
  simp [typeDescriptor, Mem.typeDescriptor]

@[simp] theorem run_anyCastPtr (a t : Nat) : (anyCastPtr a t).run cfg = Mem.anyCastPtr a t := by
  simp [anyCastPtr, Mem.anyCastPtr]

@[simp] theorem run_writeObj (p : Ptr) (t v : Nat) : (writeObj p t v).run cfg = Mem.writeObj p t v := by
  simp [writeObj, Mem.writeObj]

@[simp] theorem run_anyCastCopy (a t : Nat) : (anyCastCopy cfg a t).run cfg = Mem.anyCastCopy cfg a t := by
  simp only [anyCastCopy, Mem.anyCastCopy, run_bind, run_anyCastPtr]
  congr 1
  funext p
  cases p <;> simp

@[simp] theorem run_anyCastMove (a t : Nat) : (anyCastMove cfg a t).run cfg = Mem.anyCastMove cfg a t := by
  simp only [anyCastMove, Mem.anyCastMove, run_bind, run_anyCastPtr]
  congr 1
  funext p
  cases p <;> simp

@[simp] theorem run_invokeUser (a m x : Nat) : (invokeUser cfg a m x).run cfg = Mem.invokeUser cfg a m x := by
  simp only [invokeUser, Mem.invokeUser, run_bind, run_getAny, run_slotTy, run_readObj]
  congr 1
  funext s
  congr 1
  funext t
  congr 1
  funext o
  cases cfg.kind m <;> simp

@[simp] theorem run_argOf (x : ArgSrc) : (argOf x).run cfg = Mem.argOf x := by
  cases x <;> simp [argOf, Mem.argOf]

/-- All accesses of a statement in sequence are the statement. -/
theorem run_exec (op : Op) : (exec cfg op).run cfg = Mem.exec cfg op := by
  cases op with
  | mutate a t v =>
    simp only [exec, Mem.exec, run_bind, run_anyCastPtr]
    congr 1
    funext p
    cases p <;> simp
  | _ => simp [exec, Mem.exec]

end AnyAny.Fine
