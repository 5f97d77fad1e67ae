import Verif.Lemmas.AnyMemRun
import Verif.Spec.Threads
/-
Frame property of the operations of `basic_any`: objects and memory that an operation does not know do not influence it and are not
changed. `Sim f w1 w2`: `w2` is `w1` with the anys and blocks of `f` added.
-/
namespace AnyAny.Mem
open AnyAny.TypeList (numberOfFirst findSubsequence)

variable {cfg : Cfg}

structure Frame where
  anys : Nat → Option AnySt
  blks : Nat → Option Blk

/-- Counters of destructor and deallocation calls are not compared. -/
structure Sim (f : Frame) (w1 w2 : World) : Prop where
  anys : ∀ a, w2.anys a = (f.anys a).or (w1.anys a)
  blks : ∀ b, w2.blks b = (f.blks b).or (w1.blks b)
  disjA : ∀ a, (f.anys a).isSome → w1.anys a = none
  disjB : ∀ b, (f.blks b).isSome → w1.blks b = none ∧ b < w1.nextBlk
  nextBlk : w2.nextBlk = w1.nextBlk
  nextObj : w2.nextObj = w1.nextObj
  born : w2.born = w1.born
  copies : w2.copies = w1.copies
  tick : w2.tick = w1.tick

/-- Results of the same computation without and with the frame. -/
def RelRes {α : Type} (f : Frame) (r1 r2 : Res α) : Prop :=
  match r1 with
  | .ok a w1 => ∃ w2, r2 = .ok a w2 ∧ Sim f w1 w2
  | .exn w1 => ∃ w2, r2 = .exn w2 ∧ Sim f w1 w2
  | .ub => True
  | .term => r2 = .term

def Fr {α : Type} (f : Frame) (m : M α) : Prop := ∀ w1 w2, Sim f w1 w2 → RelRes f (m w1) (m w2)

variable {f : Frame} {α β : Type}

theorem Fr.pure (a : α) : Fr f (pure a : M α) := fun _ w2 h => ⟨w2, rfl, h⟩
theorem Fr.ub : Fr f (ub : M α) := fun _ _ _ => trivial
theorem Fr.throwExn : Fr f (throwExn : M α) := fun _ w2 h => ⟨w2, rfl, h⟩

theorem Fr.bind {m : M α} {k : α → M β} (hm : Fr f m) (hk : ∀ a, Fr f (k a)) : Fr f (m >>= k) := by
  intro w1 w2 h
  have := hm w1 w2 h
  show RelRes f (M.bind m k w1) (M.bind m k w2)
  unfold M.bind
  cases h1 : m w1 with
  | ok a w1' =>
    rw [h1] at this; obtain ⟨w2', e, s⟩ := this
    rw [e]; exact hk a _ _ s
  | exn w1' => rw [h1] at this; obtain ⟨w2', e, s⟩ := this; rw [e]; exact ⟨_, rfl, s⟩
  | ub => trivial
  | term => rw [h1] at this; have this : m w2 = .term := this; rw [this]; rfl

theorem Fr.ite {c : Prop} [Decidable c] {m k : M α} (h1 : Fr f m) (h2 : Fr f k) : Fr f (if c then m else k) := by
  split
  · exact h1
  · exact h2

theorem Fr.noexceptIf {b : Bool} {m : M α} (hm : Fr f m) : Fr f (noexceptIf b m) := by
  intro w1 w2 h
  have := hm w1 w2 h
  unfold Mem.noexceptIf
  cases h1 : m w1 with
  | ok a w1' => rw [h1] at this; obtain ⟨w2', e, s⟩ := this; rw [e]; exact ⟨_, rfl, s⟩
  | exn w1' =>
    rw [h1] at this; obtain ⟨w2', e, s⟩ := this; rw [e]
    cases b
    · exact ⟨_, rfl, s⟩
    · rfl
  | ub => trivial
  | term => rw [h1] at this; have this : m w2 = .term := this; rw [this]; rfl

theorem Fr.onFail {m : M α} {c : M Unit} (hm : Fr f m) (hc : Fr f c) : Fr f (onFail m c) := by
  intro w1 w2 h
  have := hm w1 w2 h
  unfold Mem.onFail
  cases h1 : m w1 with
  | ok a w1' => rw [h1] at this; obtain ⟨w2', e, s⟩ := this; rw [e]; exact ⟨_, rfl, s⟩
  | exn w1' =>
    rw [h1] at this; obtain ⟨w2', e, s⟩ := this; rw [e]
    have := hc _ _ s
    dsimp only
    cases h2 : c w1' with
    | ok a w1'' => rw [h2] at this; obtain ⟨w2'', e, s⟩ := this; rw [e]; exact ⟨_, rfl, s⟩
    | exn w1'' => rw [h2] at this; obtain ⟨w2'', e, s⟩ := this; rw [e]; rfl
    | ub => trivial
    | term => rw [h2] at this; have this : c w2' = .term := this; rw [this]; rfl
  | ub => trivial
  | term => rw [h1] at this; have this : m w2 = .term := this; rw [this]; rfl

theorem Fr.finallyDo {m : M α} {c : M Unit} (hm : Fr f m) (hc : Fr f c) : Fr f (finallyDo m c) := by
  intro w1 w2 h
  have := hm w1 w2 h
  unfold Mem.finallyDo
  cases h1 : m w1 with
  | ok a w1' =>
    rw [h1] at this; obtain ⟨w2', e, s⟩ := this; rw [e]
    have := hc _ _ s
    dsimp only
    cases h2 : c w1' with
    | ok a w1'' => rw [h2] at this; obtain ⟨w2'', e, s⟩ := this; rw [e]; exact ⟨_, rfl, s⟩
    | exn w1'' => rw [h2] at this; obtain ⟨w2'', e, s⟩ := this; rw [e]; exact ⟨_, rfl, s⟩
    | ub => trivial
    | term => rw [h2] at this; have this : c w2' = .term := this; rw [this]; rfl
  | exn w1' =>
    rw [h1] at this; obtain ⟨w2', e, s⟩ := this; rw [e]
    have := hc _ _ s
    dsimp only
    cases h2 : c w1' with
    | ok a w1'' => rw [h2] at this; obtain ⟨w2'', e, s⟩ := this; rw [e]; exact ⟨_, rfl, s⟩
    | exn w1'' => rw [h2] at this; obtain ⟨w2'', e, s⟩ := this; rw [e]; rfl
    | ub => trivial
    | term => rw [h2] at this; have this : c w2' = .term := this; rw [this]; rfl
  | ub => trivial
  | term => rw [h1] at this; have this : m w2 = .term := this; rw [this]; rfl

/-! ### Primitives -/

section
variable {w1 w2 : World} (h : Sim f w1 w2)
include h

theorem Sim.anys_some {a : Nat} {s : AnySt} (hs : w1.anys a = some s) : w2.anys a = some s ∧ f.anys a = none := by
  have := h.disjA a
  cases hf : f.anys a with
  | none => exact ⟨by rw [h.anys, hf, hs]; rfl, rfl⟩
  | some x => rw [hf] at this; rw [this rfl] at hs; cases hs

theorem Sim.blks_some {b : Nat} {k : Blk} (hk : w1.blks b = some k) : w2.blks b = some k ∧ f.blks b = none := by
  have := h.disjB b
  cases hf : f.blks b with
  | none => exact ⟨by rw [h.blks, hf, hk]; rfl, rfl⟩
  | some x => rw [hf] at this; rw [(this rfl).1] at hk; cases hk

theorem Sim.cell {p : Ptr} {o : Obj} (hc : cellAt w1 p = some o) : cellAt w2 p = some o := by
  cases p with
  | data a =>
    simp only [cellAt] at hc ⊢
    cases ha : w1.anys a with
    | none => rw [ha] at hc; cases hc
    | some s => rw [(h.anys_some ha).1]; rw [ha] at hc; exact hc
  | blk b =>
    simp only [cellAt] at hc ⊢
    cases ha : w1.blks b with
    | none => rw [ha] at hc; cases hc
    | some s => rw [(h.blks_some ha).1]; rw [ha] at hc; exact hc

theorem Sim.storage {p : Ptr} {t : Nat} (hc : storageOk cfg w1 p t = true) : storageOk cfg w2 p t = true := by
  cases p with
  | data a =>
    simp only [storageOk] at hc ⊢
    cases ha : w1.anys a with
    | none => rw [ha] at hc; cases hc
    | some s => rw [(h.anys_some ha).1]; rw [ha] at hc; exact hc
  | blk b =>
    simp only [storageOk] at hc ⊢
    cases ha : w1.blks b with
    | none => rw [ha] at hc; cases hc
    | some s => rw [(h.blks_some ha).1]; rw [ha] at hc; exact hc

/-- Both worlds change the same any, which is not of the frame. -/
theorem Sim.setAny {a : Nat} (hf : f.anys a = none) (s : Option AnySt) :
    Sim f { w1 with anys := upd w1.anys a s } { w2 with anys := upd w2.anys a s } where
  anys c := by
    simp only [upd]
    split
    · rename_i hc; subst hc; rw [hf]; rfl
    · exact h.anys c
  blks := h.blks
  disjA c hc := by
    simp only [upd]
    split
    · rename_i he; subst he; rw [hf] at hc; cases hc
    · exact h.disjA c hc
  disjB := h.disjB
  nextBlk := h.nextBlk
  nextObj := h.nextObj
  born := h.born
  copies := h.copies
  tick := h.tick

theorem Sim.setBlk {b : Nat} (hf : f.blks b = none) (k : Option Blk) :
    Sim f { w1 with blks := upd w1.blks b k } { w2 with blks := upd w2.blks b k } where
  anys := h.anys
  blks c := by
    simp only [upd]
    split
    · rename_i hc; subst hc; rw [hf]; rfl
    · exact h.blks c
  disjA := h.disjA
  disjB c hc := by
    simp only [upd]
    split
    · rename_i he; subst he; rw [hf] at hc; cases hc
    · exact h.disjB c hc
  nextBlk := h.nextBlk
  nextObj := h.nextObj
  born := h.born
  copies := h.copies
  tick := h.tick

end

theorem Fr.throwPoint : Fr f (throwPoint cfg) := by
  intro w1 w2 h
  simp only [Mem.throwPoint, h.tick]
  have h' : Sim f { w1 with tick := w1.tick + 1 } { w2 with tick := w1.tick + 1 } :=
    ⟨h.anys, h.blks, h.disjA, h.disjB, h.nextBlk, h.nextObj, h.born, h.copies, rfl⟩
  split
  · exact ⟨_, rfl, h'⟩
  · exact ⟨_, rfl, h'⟩

theorem Fr.mayThrow {n : Bool} : Fr f (mayThrow cfg n) := by
  unfold Mem.mayThrow
  split
  · exact Fr.pure ()
  · exact Fr.throwPoint

theorem Fr.getAny {a : Nat} : Fr f (getAny a) := by
  intro w1 w2 h
  unfold Mem.getAny
  cases ha : w1.anys a with
  | none => exact True.intro
  | some s => rw [(h.anys_some ha).1]; exact ⟨_, rfl, h⟩

theorem Fr.modifyAny {a : Nat} {g : AnySt → AnySt} : Fr f (modifyAny a g) := by
  intro w1 w2 h
  show RelRes f (M.bind (Mem.getAny a) _ w1) (M.bind (Mem.getAny a) _ w2)
  unfold M.bind Mem.getAny
  cases ha : w1.anys a with
  | none => exact True.intro
  | some s => rw [(h.anys_some ha).1]; exact ⟨_, rfl, h.setAny (h.anys_some ha).2 _⟩

theorem RelRes.ub {r : Res α} : RelRes f (.ub : Res α) r := trivial

theorem RelRes.ok {a : α} {w1 w2 : World} (h : Sim f w1 w2) : RelRes f (.ok a w1) (.ok a w2) := ⟨_, rfl, h⟩

theorem Fr.setCell {p : Ptr} {c : Option Obj} : Fr f (setCell p c) := by
  intro w1 w2 h
  cases p with
  | data a =>
    simp only [Mem.setCell]
    cases ha : w1.anys a with
    | none => exact .ub
    | some s => rw [(h.anys_some ha).1]; exact .ok (h.setAny (h.anys_some ha).2 _)
  | blk b =>
    simp only [Mem.setCell]
    cases ha : w1.blks b with
    | none => exact .ub
    | some s => rw [(h.blks_some ha).1]; exact .ok (h.setBlk (h.blks_some ha).2 _)

theorem Fr.evalArg {arg : Arg} : Fr f (evalArg arg) := by
  intro w1 w2 h
  cases arg with
  | lit v => exact ⟨_, rfl, h⟩
  | ref p =>
    simp only [Mem.evalArg]
    cases hc : cellAt w1 p with
    | none => exact .ub
    | some o => rw [h.cell hc]; exact .ok h

theorem Fr.freshObj {t v : Nat} : Fr f (freshObj t v) := by
  intro w1 w2 h
  simp only [Mem.freshObj, h.nextObj]
  exact .ok ⟨h.anys, h.blks, h.disjA, h.disjB, h.nextBlk, rfl, by simp only [h.born], h.copies, h.tick⟩

theorem Fr.constructAt {p : Ptr} {t : Nat} {arg : Arg} {n : Bool} : Fr f (constructAt cfg p t arg n) := by
  intro w1 w2 h
  have : Fr f (do
    let v ← Mem.evalArg arg
    Mem.onFail (Mem.mayThrow cfg n) (Mem.setCell p none)
    let o ← Mem.freshObj t v
    Mem.setCell p (some o)) :=
    Fr.evalArg.bind fun v => (Fr.onFail .mayThrow .setCell).bind fun _ => Fr.freshObj.bind fun o => .setCell
  show RelRes f ((if storageOk cfg w1 p t then _ else Mem.ub : M Unit) w1) ((if storageOk cfg w2 p t then _ else Mem.ub : M Unit) w2)
  by_cases hs : storageOk cfg w1 p t = true
  · rw [if_pos hs, if_pos (h.storage hs)]; exact this w1 w2 h
  · rw [if_neg hs]; trivial

theorem Fr.destroyAt {p : Ptr} {t : Nat} : Fr f (destroyAt p t) := by
  intro w1 w2 h
  unfold Mem.destroyAt
  cases hc : cellAt w1 p with
  | none => exact True.intro
  | some o =>
    simp only [h.cell hc]
    split
    · exact Fr.setCell _ _ ⟨h.anys, h.blks, h.disjA, h.disjB, h.nextBlk, h.nextObj, h.born, h.copies, h.tick⟩
    · trivial

theorem Fr.allocate {al n : Nat} : Fr f (allocate cfg al n) := by
  refine Fr.throwPoint.bind fun _ => ?_
  intro w1 w2 h
  have hf : f.blks w1.nextBlk = none := by
    cases hb : f.blks w1.nextBlk with
    | none => rfl
    | some k => have := (h.disjB w1.nextBlk (by rw [hb]; rfl)).2; omega
  have h' := h.setBlk hf (some ⟨n, al, none⟩)
  simp only [h.nextBlk]
  exact .ok ⟨h'.anys, h'.blks, h'.disjA, fun b hb => ⟨(h'.disjB b hb).1, Nat.lt_succ_of_lt (h'.disjB b hb).2⟩, rfl, h'.nextObj, h'.born, h'.copies, h'.tick⟩

theorem Fr.deallocate {al n : Nat} {p : Ptr} : Fr f (deallocate cfg al p n) := by
  intro w1 w2 h
  cases p with
  | data a => exact .ub
  | blk b =>
    simp only [Mem.deallocate]
    cases hb : w1.blks b with
    | none => exact .ub
    | some k =>
      rw [(h.blks_some hb).1]
      dsimp only
      split
      · have h' := h.setBlk (h.blks_some hb).2 none
        exact .ok ⟨h'.anys, h'.blks, h'.disjA, h'.disjB, h'.nextBlk, h'.nextObj, h'.born, h'.copies, h'.tick⟩
      · exact .ub

theorem Fr.readSize {a : Nat} : Fr f (readSize a) := by
  intro w1 w2 h
  simp only [Mem.readSize]
  cases ha : w1.anys a with
  | none => exact .ub
  | some s =>
    rw [(h.anys_some ha).1]
    dsimp only
    split
    · exact .ok h
    · exact .ub

theorem Fr.writeSize {a n : Nat} : Fr f (writeSize cfg a n) := by
  intro w1 w2 h
  simp only [Mem.writeSize]
  cases ha : w1.anys a with
  | none => exact .ub
  | some s =>
    rw [(h.anys_some ha).1]
    dsimp only
    split
    · exact .ok (h.setAny (h.anys_some ha).2 _)
    · exact .ub

theorem Fr.countCopy : Fr f countCopy := by
  intro w1 w2 h
  exact ⟨_, rfl, ⟨h.anys, h.blks, h.disjA, h.disjB, h.nextBlk, h.nextObj, h.born, by simp only [h.copies], h.tick⟩⟩

theorem Fr.dropSlot {a : Nat} (hf : f.anys a = none) : Fr f (dropSlot a) := fun _ _ h => ⟨_, rfl, h.setAny hf none⟩

theorem Fr.readObj {p : Ptr} {t : Nat} : Fr f (readObj p t) := by
  intro w1 w2 h
  unfold Mem.readObj
  cases hc : cellAt w1 p with
  | none => exact True.intro
  | some o =>
    simp only [h.cell hc]
    split
    · exact ⟨_, rfl, h⟩
    · trivial

theorem Fr.construct {a : Nat} {ms : List Method} {al : Nat} {body : M Unit} (hf : f.anys a = none) (hb : Fr f body) :
    Fr f (construct a ms al body) := by
  intro w1 w2 h
  show RelRes f ((if (w1.anys a).isSome then Mem.ub else _ : M Unit) w1) ((if (w2.anys a).isSome then Mem.ub else _ : M Unit) w2)
  have e : w2.anys a = w1.anys a := by rw [h.anys, hf]; rfl
  rw [e]
  split
  · trivial
  · exact (Fr.bind (m := Mem.setAny a _) (fun w1 w2 h => ⟨_, rfl, h.setAny hf _⟩) fun _ => Fr.onFail hb (.dropSlot hf)) w1 w2 h

/-! ### The functions of the library -/

theorem Fr.slotTy {s : AnySt} {m : Method} : Fr f (slotTy s m) := by
  unfold Mem.slotTy
  split
  · exact .ub
  · split
    · exact .ub
    · exact .ite (.pure _) .ub

theorem Fr.getMoveFn {s : AnySt} : Fr f (getMoveFn s) := by
  unfold Mem.getMoveFn
  split
  · exact .slotTy
  · split
    · exact .slotTy
    · exact .ub

theorem Fr.subtablePtr {l l' : List Method} {v : VtPtr} : Fr f (subtablePtr l l' v) := by
  unfold Mem.subtablePtr
  split
  · exact .pure _
  · split
    · exact .pure _
    · exact .ub

/-- Decomposes a computation into its primitives. -/
syntax "frame" : tactic
macro_rules
  | `(tactic| frame) => `(tactic|
    repeat' with_reducible (first
      | exact Fr.pure _ | exact Fr.ub | exact Fr.throwExn | exact Fr.throwPoint | exact Fr.mayThrow | exact Fr.getAny | exact Fr.modifyAny
      | exact Fr.setCell | exact Fr.evalArg | exact Fr.freshObj | exact Fr.constructAt | exact Fr.destroyAt | exact Fr.allocate
      | exact Fr.deallocate | exact Fr.readSize | exact Fr.writeSize | exact Fr.countCopy | exact Fr.readObj | exact Fr.slotTy
      | exact Fr.getMoveFn | exact Fr.subtablePtr
      | apply Fr.ite | apply Fr.noexceptIf | apply Fr.onFail | apply Fr.finallyDo | refine Fr.bind ?_ (fun _ => ?_)))

theorem Fr.destroyValue {a : Nat} : Fr f (destroyValue cfg a) := by
  unfold Mem.destroyValue
  frame

theorem Fr.deallocateMemory {a : Nat} : Fr f (deallocateMemory cfg a) := by
  unfold Mem.deallocateMemory
  frame

theorem Fr.reset {a : Nat} : Fr f (reset cfg a) := by
  unfold Mem.reset
  refine Fr.destroyValue.bind fun _ => Fr.getAny.bind fun _ => .ite .deallocateMemory (.pure _)

theorem Fr.constructValue {a t : Nat} {arg : Arg} {n : Bool} : Fr f (constructValue cfg a t arg n) := by
  unfold Mem.constructValue
  frame

theorem Fr.emplaceInEmpty {a t : Nat} {b : Bool} {arg : Arg} {n : Bool} : Fr f (emplaceInEmpty cfg a t b arg n) := by
  unfold Mem.emplaceInEmpty
  frame
  all_goals exact .constructValue

theorem Fr.emplaceDecayed {a t : Nat} {arg : Arg} {n : Bool} : Fr f (emplaceDecayed cfg a t arg n) := by
  unfold Mem.emplaceDecayed
  frame
  all_goals first | exact .destroyValue | exact .emplaceInEmpty | exact .deallocateMemory | exact .constructValue

theorem Fr.emplace {a t : Nat} {arg : Arg} {n : Bool} : Fr f (emplace cfg a t arg n) := .noexceptIf .emplaceDecayed

theorem Fr.replaceWithBytes {a n : Nat} : Fr f (replaceWithBytes cfg a n) := by
  unfold Mem.replaceWithBytes
  frame
  all_goals first | exact .destroyValue | exact .deallocateMemory

theorem Fr.relocate {t : Nat} {src dest : Ptr} : Fr f (relocate cfg t src dest) := by
  refine .noexceptIf ?_
  intro w1 w2 h
  show RelRes f ((match cellAt w1 src with | none => Mem.ub | some o => _ : M Unit) w1)
    ((match cellAt w2 src with | none => Mem.ub | some o => _ : M Unit) w2)
  cases hc : cellAt w1 src with
  | none => exact .ub
  | some o =>
    rw [h.cell hc]
    dsimp only
    refine (?_ : Fr f _) w1 w2 h
    frame

theorem Fr.moveValueFrom {r : Bool} {a o : Nat} : Fr f (moveValueFrom cfg r a o) := by
  unfold Mem.moveValueFrom
  refine .noexceptIf (Fr.getAny.bind fun s => .ite .ub (Fr.getAny.bind fun t => ?_))
  split
  · exact .pure _
  · frame
    all_goals exact .relocate

theorem Fr.copyFn {t : Nat} {src : Ptr} {a : Nat} {dest : Ptr} {al : Nat} : Fr f (copyFn cfg t src a dest al) := by
  intro w1 w2 h
  show RelRes f ((match cellAt w1 src with | none => Mem.ub | some o => _ : M Ptr) w1)
    ((match cellAt w2 src with | none => Mem.ub | some o => _ : M Ptr) w2)
  cases hc : cellAt w1 src with
  | none => exact .ub
  | some o =>
    rw [h.cell hc]
    dsimp only
    refine (?_ : Fr f _) w1 w2 h
    frame

theorem Fr.allocCtor {a : Nat} {ms : List Method} {al : Nat} (hf : f.anys a = none) : Fr f (allocCtor a ms al) := .construct hf (.pure _)

theorem Fr.copyCtor {a o : Nat} {ms : List Method} (hf : f.anys a = none) : Fr f (copyCtor cfg a ms o) := by
  unfold Mem.copyCtor
  refine Fr.getAny.bind fun t => .construct hf ?_
  split
  · exact .pure _
  · frame
    exact .copyFn

theorem Fr.moveCtor {a o : Nat} (hf : f.anys a = none) : Fr f (moveCtor cfg a o) :=
  .noexceptIf (Fr.getAny.bind fun _ => .construct hf .moveValueFrom)

theorem Fr.destructor {a : Nat} (hf : f.anys a = none) : Fr f (destructor cfg a) := .noexceptIf (Fr.reset.bind fun _ => .dropSlot hf)

theorem Fr.moveAssign {a o : Nat} : Fr f (moveAssign cfg a o) := by
  unfold Mem.moveAssign
  frame
  all_goals first | exact .reset | exact .moveValueFrom | exact .destroyValue | exact .relocate | exact .deallocateMemory

theorem Fr.copyAssign {a o tmp : Nat} (hf : f.anys tmp = none) : Fr f (copyAssign cfg a o tmp) := by
  unfold Mem.copyAssign
  frame
  all_goals first | exact .copyCtor hf | exact .reset | exact .moveAssign | exact .destructor hf

theorem Fr.swapAny {a b tmp : Nat} (hf : f.anys tmp = none) : Fr f (swapAny cfg a b tmp) := by
  unfold Mem.swapAny
  frame
  all_goals first | exact .moveCtor hf | exact .moveAssign | exact .destructor hf

theorem Fr.refTo {o : Nat} {ms : List Method} : Fr f (refTo o ms) := by
  unfold Mem.refTo
  refine Fr.getAny.bind fun t => ?_
  split
  · exact .ub
  · frame

theorem Fr.materialize {a : Nat} {ms : List Method} {al : Nat} {r : VtPtr × Ptr} (hf : f.anys a = none) :
    Fr f (materialize cfg a ms al r) := by
  unfold Mem.materialize
  frame
  all_goals first | exact .allocCtor hf | exact .copyFn | exact .destructor hf

theorem Fr.descTy {s : AnySt} : Fr f (descTy s) := by
  unfold Mem.descTy
  split
  · exact .ub
  · exact .slotTy

theorem Fr.typeDescriptor {a : Nat} : Fr f (typeDescriptor a) := by
  unfold Mem.typeDescriptor
  frame
  exact .descTy

theorem Fr.anyCastPtr {a t : Nat} : Fr f (anyCastPtr a t) := by
  unfold Mem.anyCastPtr
  frame
  exact .typeDescriptor

theorem Fr.writeObj {p : Ptr} {t v : Nat} : Fr f (writeObj p t v) := by
  unfold Mem.writeObj
  frame

theorem Fr.anyCastCopy {a t : Nat} : Fr f (anyCastCopy cfg a t) := by
  unfold Mem.anyCastCopy
  refine Fr.anyCastPtr.bind fun p => ?_
  split
  · exact .throwExn
  · frame

theorem Fr.anyCastMove {a t : Nat} : Fr f (anyCastMove cfg a t) := by
  unfold Mem.anyCastMove
  refine Fr.anyCastPtr.bind fun p => ?_
  split
  · exact .throwExn
  · frame
    exact .writeObj

theorem Fr.invokeUser {a m x : Nat} : Fr f (invokeUser cfg a m x) := by
  unfold Mem.invokeUser
  refine Fr.getAny.bind fun s => Fr.slotTy.bind fun t => Fr.readObj.bind fun o => ?_
  split
  · frame
  · refine Fr.bind ?_ fun _ => Fr.writeObj.bind fun _ => .pure _
    frame
    exact .writeObj
  · frame

theorem Fr.argOf {s : ArgSrc} : Fr f (argOf s) := by
  cases s
  · exact .pure _
  · exact Fr.getAny.bind fun _ => .pure _

theorem Fr.exec {op : Op} (hf : ∀ a ∈ op.addrs, f.anys a = none) : Fr f (exec cfg op) := by
  have hh : ∀ (a : Nat) (arg : ArgSrc), a ∈ (match arg with | .lit _ => [a] | .valueOf c => [a, c] : List Nat) := by
    intro a arg; cases arg <;> exact List.mem_cons_self
  cases op with
  | allocCtor a ms al => exact .allocCtor (hf a List.mem_cons_self)
  | valueCtor a ms al t arg n => exact Fr.argOf.bind fun _ => .noexceptIf (.construct (hf a (hh a arg)) .emplaceInEmpty)
  | forceCtor a ms t arg n => exact Fr.argOf.bind fun _ => .noexceptIf (.construct (hf a (hh a arg)) .emplaceInEmpty)
  | copyCtor a ms o => exact .copyCtor (hf a List.mem_cons_self)
  | moveCtor a o => exact .moveCtor (hf a List.mem_cons_self)
  | transMoveCtor a ms o => exact .noexceptIf (.construct (hf a List.mem_cons_self) .moveValueFrom)
  | dtor a => exact .destructor (hf a List.mem_cons_self)
  | copyAssign a o tmp => exact .copyAssign (hf tmp (by simp [Op.addrs]))
  | moveAssign a o => exact .moveAssign
  | emplace a t arg n => exact Fr.argOf.bind fun _ => .emplace
  | reset a => exact .reset
  | destroyValue a => exact .destroyValue
  | replaceWithBytes a n => exact .replaceWithBytes
  | mutate a t v =>
    refine Fr.anyCastPtr.bind fun p => ?_
    split
    · exact .pure _
    · exact .writeObj
  | castCopy a t => exact Fr.anyCastCopy.bind fun _ => .pure _
  | castMove a t => exact Fr.anyCastMove.bind fun _ => .pure _
  | invoke a m x => exact Fr.invokeUser.bind fun _ => .pure _
  | swap a b tmp => exact .swapAny (hf tmp (by simp [Op.addrs]))
  | materialize a ms al o => exact Fr.refTo.bind fun _ => .materialize (hf a List.mem_cons_self)

end AnyAny.Mem
