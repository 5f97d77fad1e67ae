import Verif.Lemmas.AnyMemRun
/-
Where exceptions come from: `Ex cfg m`: `m` fails exactly when a call of user code or of the allocator fails, and stops at the first one.
`Qt m`: `m` makes no call that may fail.
-/
namespace AnyAny.Mem

variable {cfg : Cfg} {α β : Type}

/-- No call with a number in `[i, j)` throws. -/
def Fine (cfg : Cfg) (i j : Nat) : Prop := ∀ k, i ≤ k → k < j → cfg.faults k = false

def ExRes (cfg : Cfg) (i : Nat) : Res α → Prop
  | .ok _ w' => i ≤ w'.tick ∧ Fine cfg i w'.tick
  | .exn w' => ∃ n, w'.tick = n + 1 ∧ i ≤ n ∧ cfg.faults n = true ∧ Fine cfg i n
  | .ub => True
  | .term => ∃ n, i ≤ n ∧ cfg.faults n = true ∧ Fine cfg i n

def Ex (cfg : Cfg) (m : M α) : Prop := ∀ w, ExRes cfg w.tick (m w)

def QtRes (i : Nat) : Res α → Prop
  | .ok _ w' => w'.tick = i
  | .ub => True
  | _ => False

def Qt (m : M α) : Prop := ∀ w, QtRes w.tick (m w)

theorem Fine.refl (i : Nat) : Fine cfg i i := fun k h1 h2 => by omega

theorem Fine.trans {i j k : Nat} (h1 : Fine cfg i j) (h2 : Fine cfg j k) : Fine cfg i k := fun n a b => by
  by_cases h : n < j
  · exact h1 n a h
  · exact h2 n (by omega) b

theorem QtRes.ex {r : Res α} {i : Nat} (h : QtRes i r) : ExRes cfg i r := by
  cases r with
  | ok a w => exact ⟨Nat.le_of_eq (Eq.symm h), by rw [show w.tick = i from h]; exact Fine.refl _⟩
  | ub => trivial
  | exn => cases h
  | term => cases h

theorem Qt.ex {m : M α} (h : Qt m) : Ex cfg m := fun w => (h w).ex

theorem ExRes.after {r : Res α} {i j : Nat} (h1 : i ≤ j) (h2 : Fine cfg i j) (h : ExRes cfg j r) : ExRes cfg i r := by
  cases r with
  | ok a w => exact ⟨Nat.le_trans h1 h.1, h2.trans h.2⟩
  | exn w => obtain ⟨n, a, b, c, d⟩ := h; exact ⟨n, a, by omega, c, h2.trans d⟩
  | ub => trivial
  | term => obtain ⟨n, b, c, d⟩ := h; exact ⟨n, by omega, c, h2.trans d⟩

theorem Qt.pure (a : α) : Qt (pure a : M α) := fun _ => rfl
theorem Qt.ub : Qt (ub : M α) := fun _ => trivial

theorem Qt.bind {m : M α} {k : α → M β} (hm : Qt m) (hk : ∀ a, Qt (k a)) : Qt (m >>= k) := by
  intro w
  have := hm w
  show QtRes _ (M.bind m k w)
  unfold M.bind
  cases h : m w with
  | ok a w' => rw [h] at this; have := hk a w'; rw [show w'.tick = w.tick from ‹_›] at this; exact this
  | ub => trivial
  | exn => rw [h] at this; cases this
  | term => rw [h] at this; cases this

theorem Qt.ite {c : Prop} [Decidable c] {m k : M α} (h1 : Qt m) (h2 : Qt k) : Qt (if c then m else k) := by
  split
  · exact h1
  · exact h2

theorem Qt.noexceptIf {b : Bool} {m : M α} (hm : Qt m) : Qt (noexceptIf b m) := by
  intro w
  have := hm w
  unfold Mem.noexceptIf
  cases h : m w with
  | ok a w' => rw [h] at this; exact this
  | ub => trivial
  | exn => rw [h] at this; cases this
  | term => rw [h] at this; cases this

theorem Ex.ite {c : Prop} [Decidable c] {m k : M α} (h1 : Ex cfg m) (h2 : Ex cfg k) : Ex cfg (if c then m else k) := by
  split
  · exact h1
  · exact h2

theorem Ex.bind {m : M α} {k : α → M β} (hm : Ex cfg m) (hk : ∀ a, Ex cfg (k a)) : Ex cfg (m >>= k) := by
  intro w
  have := hm w
  show ExRes cfg _ (M.bind m k w)
  unfold M.bind
  cases h : m w with
  | ok a w' => rw [h] at this; exact (hk a w').after this.1 this.2
  | ub => trivial
  | exn => rw [h] at this; exact this
  | term => rw [h] at this; exact this

theorem Ex.noexceptIf {b : Bool} {m : M α} (hm : Ex cfg m) : Ex cfg (noexceptIf b m) := by
  intro w
  have := hm w
  unfold Mem.noexceptIf
  cases h : m w with
  | ok a w' => rw [h] at this; exact this
  | ub => trivial
  | exn =>
    rw [h] at this
    cases b
    · exact this
    · obtain ⟨n, _, b, c, d⟩ := this; exact ⟨n, b, c, d⟩
  | term => rw [h] at this; exact this

theorem Ex.onFail {m : M α} {c : M Unit} (hm : Ex cfg m) (hc : Qt c) : Ex cfg (onFail m c) := by
  intro w
  have := hm w
  unfold Mem.onFail
  cases h : m w with
  | ok a w' => rw [h] at this; exact this
  | ub => trivial
  | exn w' =>
    rw [h] at this
    have hq := hc w'
    dsimp only
    cases h2 : c w' with
    | ok a w'' => rw [h2] at hq; obtain ⟨n, a, b, c, d⟩ := this; exact ⟨n, (show w''.tick = w'.tick from hq).trans a, b, c, d⟩
    | ub => trivial
    | exn => rw [h2] at hq; cases hq
    | term => rw [h2] at hq; cases hq
  | term => rw [h] at this; exact this

theorem Ex.finallyDo {m : M α} {c : M Unit} (hm : Ex cfg m) (hc : Qt c) : Ex cfg (finallyDo m c) := by
  intro w
  have := hm w
  unfold Mem.finallyDo
  cases h : m w with
  | ok a w' =>
    rw [h] at this
    have hq := hc w'
    dsimp only
    cases h2 : c w' with
    | ok a w'' => rw [h2] at hq; have e : w''.tick = w'.tick := hq; exact ⟨by rw [e]; exact this.1, by rw [e]; exact this.2⟩
    | ub => trivial
    | exn => rw [h2] at hq; cases hq
    | term => rw [h2] at hq; cases hq
  | ub => trivial
  | exn w' =>
    rw [h] at this
    have hq := hc w'
    dsimp only
    cases h2 : c w' with
    | ok a w'' => rw [h2] at hq; obtain ⟨n, a, b, c, d⟩ := this; exact ⟨n, (show w''.tick = w'.tick from hq).trans a, b, c, d⟩
    | ub => trivial
    | exn => rw [h2] at hq; cases hq
    | term => rw [h2] at hq; cases hq
  | term => rw [h] at this; exact this

/-! ### Primitives -/

theorem Ex.throwPoint : Ex cfg (throwPoint cfg) := by
  intro w
  unfold Mem.throwPoint
  cases h : cfg.faults w.tick with
  | false => exact ⟨Nat.le_succ _, fun k h1 h2 => by
      have : k = w.tick := by have : k < w.tick + 1 := h2; omega
      rw [this]; exact h⟩
  | true => exact ⟨w.tick, rfl, Nat.le_refl _, h, .refl _⟩

theorem Ex.mayThrow {n : Bool} : Ex cfg (mayThrow cfg n) := by
  unfold Mem.mayThrow
  exact .ite (Qt.pure _).ex .throwPoint

theorem Qt.getW : Qt getW := fun _ => rfl
theorem Qt.setAny {a : Nat} {s : AnySt} : Qt (setAny a s) := fun _ => rfl
theorem Qt.getAny {a : Nat} : Qt (getAny a) := by
  intro w; unfold Mem.getAny; cases w.anys a <;> trivial
theorem Qt.modifyAny {a : Nat} {g : AnySt → AnySt} : Qt (modifyAny a g) := Qt.getAny.bind fun _ => .setAny
theorem Qt.setCell {p : Ptr} {c : Option Obj} : Qt (setCell p c) := by
  intro w
  cases p with
  | data a => simp only [Mem.setCell]; cases w.anys a <;> trivial
  | blk b => simp only [Mem.setCell]; cases w.blks b <;> trivial
theorem Qt.evalArg {arg : Arg} : Qt (evalArg arg) := by
  intro w
  cases arg with
  | lit v => rfl
  | ref p => simp only [Mem.evalArg]; cases cellAt w p <;> trivial
theorem Qt.freshObj {t v : Nat} : Qt (freshObj t v) := fun _ => rfl
theorem Qt.destroyAt {p : Ptr} {t : Nat} : Qt (destroyAt p t) := by
  intro w
  unfold Mem.destroyAt
  split
  · split
    · exact Qt.setCell _
    · trivial
  · trivial
theorem Qt.deallocate {al n : Nat} {p : Ptr} : Qt (deallocate cfg al p n) := by
  intro w
  cases p with
  | data a => trivial
  | blk b =>
    simp only [Mem.deallocate]
    split
    · split <;> trivial
    · trivial
theorem Qt.readSize {a : Nat} : Qt (readSize a) := by
  intro w
  unfold Mem.readSize
  split
  · split <;> trivial
  · trivial
theorem Qt.writeSize {a n : Nat} : Qt (writeSize cfg a n) := by
  intro w
  unfold Mem.writeSize
  split
  · split <;> trivial
  · trivial
theorem Qt.countCopy : Qt countCopy := fun _ => rfl
theorem Qt.dropSlot {a : Nat} : Qt (dropSlot a) := fun _ => rfl
theorem Qt.readObj {p : Ptr} {t : Nat} : Qt (readObj p t) := by
  intro w
  unfold Mem.readObj
  split
  · split <;> trivial
  · trivial
theorem Qt.slotTy {s : AnySt} {m : Method} : Qt (slotTy s m) := by
  unfold Mem.slotTy
  split
  · exact .ub
  · split
    · exact .ub
    · exact .ite (.pure _) .ub
theorem Qt.getMoveFn {s : AnySt} : Qt (getMoveFn s) := by
  unfold Mem.getMoveFn
  split
  · exact .slotTy
  · split
    · exact .slotTy
    · exact .ub
theorem Qt.subtablePtr {l l' : List Method} {v : VtPtr} : Qt (subtablePtr l l' v) := by
  unfold Mem.subtablePtr
  split
  · exact .pure _
  · split
    · exact .pure _
    · exact .ub

/-- Decomposes a computation into its primitives. -/
syntax "throws" : tactic
macro_rules
  | `(tactic| throws) => `(tactic|
    repeat' with_reducible (first
      | exact Qt.pure _ | exact Qt.ub | exact Qt.getW | exact Qt.getAny | exact Qt.setAny | exact Qt.modifyAny
      | exact Qt.setCell | exact Qt.evalArg | exact Qt.freshObj | exact Qt.destroyAt
      | exact Qt.deallocate | exact Qt.readSize | exact Qt.writeSize | exact Qt.countCopy | exact Qt.readObj | exact Qt.slotTy
      | exact Qt.getMoveFn | exact Qt.subtablePtr | exact Qt.dropSlot
      | exact (Qt.pure _).ex | exact Qt.ub.ex | exact Qt.getW.ex | exact Qt.getAny.ex | exact Qt.setAny.ex | exact Qt.modifyAny.ex
      | exact Qt.setCell.ex | exact Qt.evalArg.ex | exact Qt.freshObj.ex | exact Qt.destroyAt.ex
      | exact Qt.deallocate.ex | exact Qt.readSize.ex | exact Qt.writeSize.ex | exact Qt.countCopy.ex | exact Qt.readObj.ex
      | exact Qt.slotTy.ex | exact Qt.getMoveFn.ex | exact Qt.subtablePtr.ex | exact Qt.dropSlot.ex
      | exact Ex.throwPoint | exact Ex.mayThrow
      | apply Qt.ite | apply Qt.noexceptIf | refine Qt.bind ?_ (fun _ => ?_)
      | apply Ex.ite | apply Ex.noexceptIf | apply Ex.onFail | apply Ex.finallyDo | refine Ex.bind ?_ (fun _ => ?_)))

theorem Ex.constructAt {p : Ptr} {t : Nat} {arg : Arg} {n : Bool} : Ex cfg (constructAt cfg p t arg n) := by
  unfold Mem.constructAt
  throws

theorem Ex.allocate {al n : Nat} : Ex cfg (allocate cfg al n) :=
  Ex.throwPoint.bind fun _ => Qt.ex fun _ => rfl

/-! ### The functions of the library -/

theorem Qt.destroyValue {a : Nat} : Qt (destroyValue cfg a) := by
  unfold Mem.destroyValue
  throws

theorem Qt.deallocateMemory {a : Nat} : Qt (deallocateMemory cfg a) := by
  unfold Mem.deallocateMemory
  throws

theorem Qt.reset {a : Nat} : Qt (reset cfg a) :=
  Qt.destroyValue.bind fun _ => Qt.getAny.bind fun _ => .ite .deallocateMemory (.pure _)

theorem Qt.destructor {a : Nat} : Qt (destructor cfg a) := .noexceptIf (Qt.reset.bind fun _ => .dropSlot)

theorem Ex.constructValue {a t : Nat} {arg : Arg} {n : Bool} : Ex cfg (constructValue cfg a t arg n) := by
  unfold Mem.constructValue
  throws
  exact .constructAt

theorem Ex.emplaceInEmpty {a t : Nat} {b : Bool} {arg : Arg} {n : Bool} : Ex cfg (emplaceInEmpty cfg a t b arg n) := by
  unfold Mem.emplaceInEmpty
  throws
  all_goals first | exact .constructValue | exact .allocate

theorem Ex.emplaceDecayed {a t : Nat} {arg : Arg} {n : Bool} : Ex cfg (emplaceDecayed cfg a t arg n) := by
  unfold Mem.emplaceDecayed
  throws
  all_goals first | exact Qt.destroyValue.ex | exact .emplaceInEmpty | exact Qt.deallocateMemory.ex | exact .constructValue

theorem Ex.emplace {a t : Nat} {arg : Arg} {n : Bool} : Ex cfg (emplace cfg a t arg n) := .noexceptIf .emplaceDecayed

theorem Ex.replaceWithBytes {a n : Nat} : Ex cfg (replaceWithBytes cfg a n) := by
  unfold Mem.replaceWithBytes
  throws
  all_goals first | exact Qt.destroyValue.ex | exact Qt.deallocateMemory.ex | exact .allocate

theorem Ex.relocate {t : Nat} {src dest : Ptr} : Ex cfg (relocate cfg t src dest) := by
  refine .noexceptIf (Qt.getW.ex.bind fun w => ?_)
  split
  · exact Qt.ub.ex
  · throws
    all_goals exact .constructAt

theorem Ex.moveValueFrom {r : Bool} {a o : Nat} : Ex cfg (moveValueFrom cfg r a o) := by
  unfold Mem.moveValueFrom
  refine .noexceptIf (Qt.getAny.ex.bind fun s => .ite Qt.ub.ex (Qt.getAny.ex.bind fun t => ?_))
  split
  · exact (Qt.pure _).ex
  · throws
    all_goals first | exact .relocate | exact .allocate

theorem Ex.copyFn {t : Nat} {src : Ptr} {a : Nat} {dest : Ptr} {al : Nat} : Ex cfg (copyFn cfg t src a dest al) := by
  unfold Mem.copyFn
  refine Qt.getW.ex.bind fun w => ?_
  split
  · exact Qt.ub.ex
  · throws
    all_goals first | exact .constructAt | exact .allocate

theorem Ex.construct {a : Nat} {ms : List Method} {al : Nat} {body : M Unit} (hb : Ex cfg body) : Ex cfg (construct a ms al body) := by
  unfold Mem.construct
  throws
  exact hb

theorem Ex.copyCtor {a o : Nat} {ms : List Method} : Ex cfg (copyCtor cfg a ms o) := by
  unfold Mem.copyCtor
  refine Qt.getAny.ex.bind fun t => .construct ?_
  split
  · exact (Qt.pure _).ex
  · throws
    exact .copyFn

theorem Ex.moveCtor {a o : Nat} : Ex cfg (moveCtor cfg a o) := .noexceptIf (Qt.getAny.ex.bind fun _ => .construct .moveValueFrom)

theorem Ex.moveAssign {a o : Nat} : Ex cfg (moveAssign cfg a o) := by
  unfold Mem.moveAssign
  throws
  all_goals first | exact Qt.reset.ex | exact .moveValueFrom | exact Qt.destroyValue.ex | exact .relocate | exact Qt.deallocateMemory.ex

theorem Ex.copyAssign {a o tmp : Nat} : Ex cfg (copyAssign cfg a o tmp) := by
  unfold Mem.copyAssign
  throws
  all_goals first | exact .copyCtor | exact Qt.reset.ex | exact .moveAssign | exact Qt.destructor

theorem Ex.swapAny {a b tmp : Nat} : Ex cfg (swapAny cfg a b tmp) := by
  unfold Mem.swapAny
  throws
  all_goals first | exact .moveCtor | exact .moveAssign | exact Qt.destructor

theorem Qt.refTo {o : Nat} {ms : List Method} : Qt (refTo o ms) := by
  unfold Mem.refTo
  refine Qt.getAny.bind fun t => ?_
  split
  · exact .ub
  · throws

theorem Ex.materialize {a : Nat} {ms : List Method} {al : Nat} {r : VtPtr × Ptr} : Ex cfg (materialize cfg a ms al r) := by
  unfold Mem.materialize
  refine (Ex.construct (Qt.pure _).ex).bind fun _ => ?_
  throws
  all_goals first | exact .copyFn | exact Qt.destructor

theorem Qt.descTy {s : AnySt} : Qt (descTy s) := by
  unfold Mem.descTy
  split
  · exact .ub
  · exact .slotTy

theorem Qt.typeDescriptor {a : Nat} : Qt (typeDescriptor a) := by
  unfold Mem.typeDescriptor
  throws
  exact .descTy

theorem Qt.anyCastPtr {a t : Nat} : Qt (anyCastPtr a t) := by
  unfold Mem.anyCastPtr
  throws
  exact .typeDescriptor

theorem Qt.writeObj {p : Ptr} {t v : Nat} : Qt (writeObj p t v) := by
  unfold Mem.writeObj
  throws

theorem Ex.invokeUser {a m x : Nat} : Ex cfg (invokeUser cfg a m x) := by
  unfold Mem.invokeUser
  refine Qt.getAny.ex.bind fun s => Qt.slotTy.ex.bind fun t => Qt.readObj.ex.bind fun o => ?_
  split
  · throws
  · refine Ex.bind ?_ fun _ => Qt.writeObj.ex.bind fun _ => (Qt.pure _).ex
    throws
    exact Qt.writeObj
  · throws

theorem Qt.argOf {s : ArgSrc} : Qt (argOf s) := by
  cases s
  · exact .pure _
  · exact Qt.getAny.bind fun _ => .pure _

/-- Operations other than the throwing casts. -/
def Op.notCast : Op → Prop
  | .castCopy _ _ | .castMove _ _ => False
  | _ => True

theorem Ex.exec {op : Op} (hop : op.notCast) : Ex cfg (exec cfg op) := by
  cases op with
  | allocCtor a ms al => exact .construct (Qt.pure _).ex
  | valueCtor a ms al t arg n => exact Qt.argOf.ex.bind fun _ => .noexceptIf (.construct .emplaceInEmpty)
  | forceCtor a ms t arg n => exact Qt.argOf.ex.bind fun _ => .noexceptIf (.construct .emplaceInEmpty)
  | copyCtor a ms o => exact .copyCtor
  | moveCtor a o => exact .moveCtor
  | transMoveCtor a ms o => exact .noexceptIf (.construct .moveValueFrom)
  | dtor a => exact Qt.destructor.ex
  | copyAssign a o tmp => exact .copyAssign
  | moveAssign a o => exact .moveAssign
  | emplace a t arg n => exact Qt.argOf.ex.bind fun _ => .emplace
  | reset a => exact Qt.reset.ex
  | destroyValue a => exact Qt.destroyValue.ex
  | replaceWithBytes a n => exact .replaceWithBytes
  | mutate a t v =>
    refine Qt.anyCastPtr.ex.bind fun p => ?_
    split
    · exact (Qt.pure _).ex
    · exact Qt.writeObj.ex
  | castCopy a t => cases hop
  | castMove a t => cases hop
  | invoke a m x => exact Ex.invokeUser.bind fun _ => (Qt.pure _).ex
  | swap a b tmp => exact .swapAny
  | materialize a ms al o => exact Qt.refTo.ex.bind fun _ => .materialize

end AnyAny.Mem
