import Verif.Lemmas.Fine
import Verif.Spec.Fine
/-
Which locations an operation writes: the any objects passed as non-const objects, and the memory that belongs to them. `own`: the locations
that may be written; `lo`, `hi`: names of new blocks.
-/
namespace AnyAny.Fine
open AnyAny.TypeList (numberOfFirst findSubsequence)
open AnyAny.Mem (Method SelfKind TyInfo Cfg Obj Buf Ptr VtPtr AnySt Blk World Res M upd Arg Op ArgSrc cellAt cellFree allocEq fits movableAlloc memAlloc
  someCopyMethod)

variable {cfg : Cfg} {own : Loc → Prop} {lo hi : Nat} {α β : Type}

/-- The any objects that may be written point to memory that may be written. -/
structure Inv (own : Loc → Prop) (lo hi : Nat) (v : World) : Prop where
  range : ∀ b, lo ≤ b → b < hi → own (.blk b)
  next : lo ≤ v.nextBlk
  any : ∀ c s, own (.any c) → v.anys c = some s → own (locOf s.vp)

/-- All accesses of the computation from `v` are allowed; in the end `Inv` holds, and `P` holds for the result. -/
def Disc (cfg : Cfg) (own : Loc → Prop) (lo hi : Nat) (P : α → Prop) : Tree α → World → Prop
  | .ret a, v => P a ∧ Inv own lo hi v
  | .exn, v => Inv own lo hi v
  | .ub, _ => True
  | .term, _ => True
  | .act A k, v => ∀ b v', A.exec cfg v = .ok b v' → v'.nextBlk ≤ hi →
      (∀ l, A.accesses v = some (l, true) → own l) ∧ Disc cfg own lo hi P (k b) v'

def Safe (cfg : Cfg) (own : Loc → Prop) (lo hi : Nat) (P : α → Prop) (t : Tree α) : Prop :=
  ∀ v, Inv own lo hi v → Disc cfg own lo hi P t v

local notation "Sf" => Safe cfg own lo hi
local notation "OP" => fun p : Ptr => own (locOf p)

theorem Safe.pure {P : α → Prop} {a : α} (h : P a) : Sf P (Pure.pure a : Tree α) := fun _ hv => ⟨h, hv⟩
theorem Safe.ub {P : α → Prop} : Sf P (Fine.ub : Tree α) := fun _ _ => trivial
theorem Safe.throwExn {P : α → Prop} : Sf P (Fine.throwExn : Tree α) := fun _ hv => hv

theorem Disc.bind {P : α → Prop} {Q : β → Prop} {t : Tree α} {k : α → Tree β} (hk : ∀ a, P a → Sf Q (k a)) {v : World}
    (ht : Disc cfg own lo hi P t v) : Disc cfg own lo hi Q (t.bind k) v := by
  induction t generalizing v with
  | ret a => exact hk a ht.1 v ht.2
  | exn => exact ht
  | ub => trivial
  | term => trivial
  | act A c ih => exact fun b v' e h => ⟨(ht b v' e h).1, ih b (ht b v' e h).2⟩

theorem Safe.bind {P : α → Prop} {Q : β → Prop} {t : Tree α} {k : α → Tree β} (ht : Sf P t) (hk : ∀ a, P a → Sf Q (k a)) : Sf Q (t >>= k) :=
  fun v hv => Disc.bind hk (ht v hv)

theorem Safe.ite {P : α → Prop} {c : Prop} [Decidable c] {t u : Tree α} (h1 : Sf P t) (h2 : Sf P u) : Sf P (if c then t else u) := by
  split
  · exact h1
  · exact h2

theorem Disc.noexceptIf {P : α → Prop} {b : Bool} {t : Tree α} {v : World} (ht : Disc cfg own lo hi P t v) :
    Disc cfg own lo hi P (noexceptIf b t) v := by
  induction t generalizing v with
  | ret a => exact ht
  | exn =>
    cases b
    · exact ht
    · trivial
  | ub => trivial
  | term => trivial
  | act A c ih => exact fun b v' e h => ⟨(ht b v' e h).1, ih b (ht b v' e h).2⟩

theorem Safe.noexceptIf {P : α → Prop} {b : Bool} {t : Tree α} (ht : Sf P t) : Sf P (noexceptIf b t) := fun v hv => (ht v hv).noexceptIf

theorem Disc.rethrow {P : α → Prop} {t : Tree Unit} {v : World} (ht : Disc cfg own lo hi (fun _ => True) t v) :
    Disc cfg own lo hi P (rethrow t) v := by
  induction t generalizing v with
  | ret a => exact ht.2
  | exn => trivial
  | ub => trivial
  | term => trivial
  | act A c ih => exact fun b v' e h => ⟨(ht b v' e h).1, ih b (ht b v' e h).2⟩

theorem Disc.onFail {P : α → Prop} {t : Tree α} {c : Tree Unit} {v : World} (hc : Sf (fun _ => True) c) (ht : Disc cfg own lo hi P t v) :
    Disc cfg own lo hi P (onFail t c) v := by
  induction t generalizing v with
  | ret a => exact ht
  | exn => exact (hc v ht).rethrow
  | ub => trivial
  | term => trivial
  | act A c ih => exact fun b v' e h => ⟨(ht b v' e h).1, ih b (ht b v' e h).2⟩

theorem Safe.onFail {P : α → Prop} {t : Tree α} {c : Tree Unit} (ht : Sf P t) (hc : Sf (fun _ => True) c) : Sf P (onFail t c) :=
  fun v hv => (ht v hv).onFail hc

theorem Disc.finallyDo {P : α → Prop} {t : Tree α} {c : Tree Unit} {v : World} (hc : Sf (fun _ => True) c) (ht : Disc cfg own lo hi P t v) :
    Disc cfg own lo hi P (finallyDo t c) v := by
  induction t generalizing v with
  | ret a => exact Disc.bind (P := fun _ => True) (fun _ _ => Safe.pure ht.1) (hc v ht.2)
  | exn => exact (hc v ht).rethrow
  | ub => trivial
  | term => trivial
  | act A c ih => exact fun b v' e h => ⟨(ht b v' e h).1, ih b (ht b v' e h).2⟩

theorem Safe.finallyDo {P : α → Prop} {t : Tree α} {c : Tree Unit} (ht : Sf P t) (hc : Sf (fun _ => True) c) : Sf P (finallyDo t c) :=
  fun v hv => (ht v hv).finallyDo hc

theorem Safe.act {P : β → Prop} {A : Act β} (h : ∀ v b v', Inv own lo hi v → A.exec cfg v = .ok b v' → v'.nextBlk ≤ hi →
    (∀ l, A.accesses v = some (l, true) → own l) ∧ Inv own lo hi v' ∧ P b) : Sf P A.do := fun v hv b v' e hn =>
  ⟨(h v b v' hv e hn).1, (h v b v' hv e hn).2.2, (h v b v' hv e hn).2.1⟩

/-! ### Primitives -/

theorem Inv.setAny {v : World} (h : Inv own lo hi v) {a : Nat} {s : Option AnySt} (hs : own (.any a) → ∀ t, s = some t → own (locOf t.vp)) :
    Inv own lo hi { v with anys := upd v.anys a s } where
  range := h.range
  next := h.next
  any c t hc ht := by
    simp only [upd] at ht
    split at ht
    · rename_i e; subst e; exact hs hc t ht
    · exact h.any c t hc ht

theorem Inv.mono {v v' : World} (h : Inv own lo hi v) (h1 : v'.anys = v.anys) (h2 : v.nextBlk ≤ v'.nextBlk) : Inv own lo hi v' where
  range := h.range
  next := Nat.le_trans h.next h2
  any := by rw [h1]; exact h.any

private theorem acc {β : Type} {A : Act β} {v : World} {p : Loc} {wr : Bool} (h : A.accesses v = some (p, wr)) (hp : own p) :
    ∀ l, A.accesses v = some (l, true) → own l := by
  intro l e
  rw [h] at e
  cases e; exact hp

private theorem acc0 {β : Type} {A : Act β} {v : World} (h : ∀ l, A.accesses v ≠ some (l, true)) : ∀ l, A.accesses v = some (l, true) → own l :=
  fun l e => absurd e (h l)

theorem Safe.getAny {a : Nat} : Sf (fun s => own (.any a) → OP s.vp) (getAny a) := by
  refine .act fun v s v' hv e _ => ⟨acc0 (by intro l h; cases h), ?_⟩
  simp only [Act.exec, Mem.getAny] at e
  split at e
  · rename_i h; cases e; exact ⟨hv, fun ho => hv.any a s ho h⟩
  · cases e

theorem Safe.setAny {a : Nat} {s : AnySt} (ha : own (.any a)) (hs : own (locOf s.vp)) : Sf (fun _ => True) (setAny a s) := by
  refine .act fun v _ v' hv e _ => ⟨acc rfl ha, ?_⟩
  cases e
  exact ⟨hv.setAny fun _ t e => by cases e; exact hs, trivial⟩

theorem Safe.newAny {a : Nat} {s : AnySt} (ha : own (.any a)) (hs : own (locOf s.vp)) : Sf (fun _ => True) (newAny a s) := by
  refine .act fun v _ v' hv e _ => ⟨acc rfl ha, ?_⟩
  simp only [Act.exec] at e
  split at e
  · cases e
  · cases e
    exact ⟨hv.setAny fun _ t e => by cases e; exact hs, trivial⟩

theorem Safe.modifyAny {a : Nat} {f : AnySt → AnySt} (ha : own (.any a)) (hf : ∀ s : AnySt, own (locOf s.vp) → own (locOf (f s).vp)) :
    Sf (fun _ => True) (modifyAny a f) := Safe.getAny.bind fun s hs => .setAny ha (hf s (hs ha))

theorem Safe.dropSlot {a : Nat} (ha : own (.any a)) : Sf (fun _ => True) (dropSlot a) := by
  refine .act fun v _ v' hv e _ => ⟨acc rfl ha, ?_⟩
  cases e
  exact ⟨hv.setAny fun _ t e => (by cases e), trivial⟩

theorem Safe.readSize {a : Nat} : Sf (fun _ => True) (readSize a) := by
  refine .act fun v _ v' hv e _ => ⟨acc0 (by intro l h; cases h), ?_⟩
  simp only [Act.exec, Mem.readSize] at e
  (repeat' split at e) <;> cases e
  exact ⟨hv, trivial⟩

theorem Safe.writeSize {a n : Nat} (ha : own (.any a)) : Sf (fun _ => True) (writeSize a n) := by
  refine .act fun v _ v' hv e _ => ⟨acc rfl ha, ?_⟩
  simp only [Act.exec, Mem.writeSize] at e
  split at e
  · rename_i s h
    split at e <;> cases e
    exact ⟨hv.setAny fun ho t e => by cases e; exact hv.any a s ho h, trivial⟩
  · cases e

theorem Safe.readCell {p : Ptr} : Sf (fun _ => True) (readCell p) := by
  refine .act fun v _ v' hv e _ => ⟨acc0 (by intro l h; cases h), ?_⟩
  simp only [Act.exec] at e
  split at e <;> cases e
  exact ⟨hv, trivial⟩

theorem Safe.claim {p : Ptr} {t : Nat} (hp : own (locOf p)) : Sf (fun _ => True) (Act.claim p t).do := by
  refine .act fun v _ v' hv e _ => ⟨acc rfl hp, ?_⟩
  simp only [Act.exec] at e
  split at e <;> cases e
  exact ⟨hv, trivial⟩

private theorem setCell_inv {p : Ptr} {c : Option Obj} {v v' : World} {x : Unit} (hv : Inv own lo hi v) (e : Mem.setCell p c v = .ok x v') :
    Inv own lo hi v' := by
  cases p with
  | data a =>
    simp only [Mem.setCell] at e
    split at e
    · rename_i s h
      cases e
      exact hv.setAny fun ho t e => by cases e; exact hv.any a s ho h
    · cases e
  | blk b =>
    simp only [Mem.setCell] at e
    split at e
    · cases e; exact hv.mono rfl (Nat.le_refl _)
    · cases e

theorem Safe.setCell {p : Ptr} {c : Option Obj} (hp : own (locOf p)) : Sf (fun _ => True) (setCell p c) :=
  .act fun _ _ _ hv e _ => ⟨acc rfl hp, setCell_inv hv e, trivial⟩

theorem Safe.destroyAt {p : Ptr} {t : Nat} (hp : own (locOf p)) : Sf (fun _ => True) (destroyAt p t) := by
  refine .act fun v _ v' hv e _ => ⟨acc rfl hp, ?_⟩
  simp only [Act.exec, Mem.destroyAt] at e
  split at e
  · split at e
    · refine ⟨setCell_inv (hv.mono ?_ ?_) e, trivial⟩
      · rfl
      · exact Nat.le_refl _
    · cases e
  · cases e

theorem Safe.deallocate {al n : Nat} {p : Ptr} (hp : own (locOf p)) : Sf (fun _ => True) (deallocate al p n) := by
  refine .act fun v _ v' hv e _ => ⟨acc rfl hp, ?_⟩
  simp only [Act.exec, Mem.deallocate] at e
  (repeat' split at e) <;> cases e
  exact ⟨hv.mono rfl (Nat.le_refl _), trivial⟩

theorem Safe.freshObj {t x : Nat} : Sf (fun _ => True) (freshObj t x) := by
  refine .act fun v _ v' hv e _ => ⟨acc0 (by intro l h; cases h), ?_⟩
  cases e
  exact ⟨hv.mono rfl (Nat.le_refl _), trivial⟩

theorem Safe.countCopy : Sf (fun _ => True) countCopy := by
  refine .act fun v _ v' hv e _ => ⟨acc0 (by intro l h; cases h), ?_⟩
  cases e
  exact ⟨hv.mono rfl (Nat.le_refl _), trivial⟩

theorem Safe.throwPoint : Sf (fun _ => True) throwPoint := by
  refine Safe.bind (P := fun _ => True) (.act fun v _ v' hv e _ => ⟨acc0 (by intro l h; cases h), ?_⟩) fun _ _ => .ite .throwExn (.pure trivial)
  cases e
  exact ⟨hv.mono rfl (Nat.le_refl _), trivial⟩

theorem Safe.mayThrow {n : Bool} : Sf (fun _ => True) (mayThrow n) := by
  unfold Fine.mayThrow
  split
  · exact .pure trivial
  · exact .throwPoint

theorem Safe.allocate {al n : Nat} : Sf (fun b => own (.blk b)) (allocate al n) := by
  refine Safe.throwPoint.bind fun _ _ => .act fun v _ v' hv e hn => ?_
  cases e
  have hb : own (.blk v.nextBlk) := hv.range _ hv.next hn
  exact ⟨acc rfl hb, hv.mono rfl (Nat.le_succ _), hb⟩

theorem Safe.evalArg {arg : Arg} : Sf (fun _ => True) (evalArg arg) := by
  cases arg with
  | lit v => exact .pure trivial
  | ref p => exact Safe.readCell.bind fun _ _ => .pure trivial

theorem Safe.constructAt {p : Ptr} {t : Nat} {arg : Arg} {n : Bool} (hp : own (locOf p)) : Sf (fun _ => True) (constructAt p t arg n) :=
  (Safe.claim hp).bind fun _ _ => Safe.evalArg.bind fun _ _ => (Safe.onFail .mayThrow (.setCell hp)).bind fun _ _ => Safe.freshObj.bind fun _ _ => .setCell hp

theorem Safe.readObj {p : Ptr} {t : Nat} : Sf (fun _ => True) (readObj p t) := Safe.readCell.bind fun _ _ => .ite (.pure trivial) .ub

theorem Safe.construct {a : Nat} {ms : List Method} {al : Nat} {body : Tree Unit} (ha : own (.any a)) (hb : Sf (fun _ => True) body) :
    Sf (fun _ => True) (construct a ms al body) := (Safe.newAny ha (show own (locOf (.data a)) from ha)).bind fun _ _ => Safe.onFail hb (.dropSlot ha)

/-! ### The functions of the library -/

theorem Safe.slotTy {s : AnySt} {m : Method} : Sf (fun _ => True) (slotTy s m) := by
  unfold Fine.slotTy
  split
  · exact .ub
  · split
    · exact .ub
    · exact .ite (.pure trivial) .ub

theorem Safe.getMoveFn {s : AnySt} : Sf (fun _ => True) (getMoveFn s) := by
  unfold Fine.getMoveFn
  split
  · exact .slotTy
  · split
    · exact .slotTy
    · exact .ub

theorem Safe.subtablePtr {l l' : List Method} {v : VtPtr} : Sf (fun _ => True) (subtablePtr l l' v) := by
  unfold Fine.subtablePtr
  split
  · exact .pure trivial
  · split
    · exact .pure trivial
    · exact .ub

theorem Safe.destroyValue {a : Nat} (ha : own (.any a)) : Sf (fun _ => True) (destroyValue cfg a) := by
  unfold Fine.destroyValue
  refine Safe.getAny.bind fun s hs => .ite (.pure trivial) (Safe.slotTy.bind fun t _ => ?_)
  dsimp only
  split
  · exact .modifyAny ha (by intro _ h; exact h)
  · exact (Safe.destroyAt (hs ha)).bind fun _ _ => .modifyAny ha (by intro _ h; exact h)

theorem Safe.deallocateMemory {a : Nat} (ha : own (.any a)) : Sf (fun _ => True) (deallocateMemory a) := by
  unfold Fine.deallocateMemory
  exact Safe.getAny.bind fun s hs => .ite .ub (Safe.readSize.bind fun n _ => (Safe.deallocate (hs ha)).bind fun _ _ => .modifyAny ha (by intro _ _; exact ha))

theorem Safe.reset {a : Nat} (ha : own (.any a)) : Sf (fun _ => True) (reset cfg a) := by
  unfold Fine.reset
  exact (Safe.destroyValue ha).bind fun _ _ => Safe.getAny.bind fun s hs => .ite (.deallocateMemory ha) (.pure trivial)

theorem Safe.constructValue {a t : Nat} {arg : Arg} {n : Bool} (ha : own (.any a)) : Sf (fun _ => True) (constructValue a t arg n) := by
  unfold Fine.constructValue
  exact Safe.getAny.bind fun s hs => (Safe.constructAt (hs ha)).bind fun _ _ => .modifyAny ha (by intro _ h; exact h)

theorem Safe.emplaceInEmpty {a t : Nat} {b : Bool} {arg : Arg} {n : Bool} (ha : own (.any a)) : Sf (fun _ => True) (emplaceInEmpty cfg a t b arg n) := by
  unfold Fine.emplaceInEmpty
  exact .ite (.constructValue ha) (Safe.getAny.bind fun s hs => Safe.allocate.bind fun b hb => (Safe.modifyAny ha (by intro _ _; exact hb)).bind fun _ _ =>
    (Safe.writeSize ha).bind fun _ _ => .ite (.constructValue ha) (.onFail (.constructValue ha) (Safe.getAny.bind fun s hs =>
      (Safe.deallocate (hs ha)).bind fun _ _ => .modifyAny ha (by intro _ _; exact ha))))

theorem Safe.emplaceDecayed {a t : Nat} {arg : Arg} {n : Bool} (ha : own (.any a)) : Sf (fun _ => True) (emplaceDecayed cfg a t arg n) := by
  unfold Fine.emplaceDecayed
  exact .noexceptIf ((Safe.destroyValue ha).bind fun _ _ => Safe.getAny.bind fun s hs => .ite (.emplaceInEmpty ha) (Safe.readSize.bind fun n _ =>
    .ite ((Safe.deallocateMemory ha).bind fun _ _ => .emplaceInEmpty ha) (.constructValue ha)))

theorem Safe.emplace {a t : Nat} {arg : Arg} {n : Bool} (ha : own (.any a)) : Sf (fun _ => True) (emplace cfg a t arg n) := .noexceptIf (.emplaceDecayed ha)

theorem Safe.relocate {t : Nat} {src dest : Ptr} (hs : own (locOf src)) (hd : own (locOf dest)) : Sf (fun _ => True) (relocate cfg t src dest) :=
  .noexceptIf (Safe.readCell.bind fun _ _ => .ite (.ite (.constructAt hd) ((Safe.constructAt hd).bind fun _ _ => .destroyAt hs)) .ub)

theorem Safe.moveValueFrom {r : Bool} {a c : Nat} (ha : own (.any a)) (hc : own (.any c)) : Sf (fun _ => True) (moveValueFrom cfg r a c) := by
  unfold Fine.moveValueFrom
  refine .noexceptIf (Safe.getAny.bind fun s hs => .ite .ub (Safe.getAny.bind fun t ht => ?_))
  have tail : ∀ {v : VtPtr}, Sf (fun _ => True) (do
      let v' ← Fine.subtablePtr s.ms t.ms v
      Fine.modifyAny a (fun s => { s with vt := some v' })
      Fine.modifyAny c (fun t => { t with vt := none })) := fun {v} =>
    Safe.subtablePtr.bind fun _ _ => (Safe.modifyAny ha (by intro _ h; exact h)).bind fun _ _ => .modifyAny hc (by intro _ h; exact h)
  split
  · exact .pure trivial
  · rename_i v hv
    dsimp only
    split
    · exact (Safe.modifyAny hc (by intro _ _; exact hc)).bind fun _ _ => (Safe.modifyAny ha (by intro _ _; exact ht hc)).bind fun _ _ =>
        Safe.readSize.bind fun _ _ => (Safe.writeSize ha).bind fun _ _ => tail
    · split
      · exact Safe.getMoveFn.bind fun _ _ => (Safe.relocate (ht hc) (hs ha)).bind fun _ _ => tail
      · split
        · exact (Safe.modifyAny hc (by intro _ _; exact hc)).bind fun _ _ => (Safe.modifyAny ha (by intro _ _; exact ht hc)).bind fun _ _ =>
            Safe.readSize.bind fun _ _ => (Safe.writeSize ha).bind fun _ _ => tail
        · exact Safe.readSize.bind fun _ _ => Safe.allocate.bind fun b hb => (Safe.modifyAny ha (by intro _ _; exact hb)).bind fun _ _ =>
            (Safe.writeSize ha).bind fun _ _ => (Safe.onFail (Safe.getMoveFn.bind fun _ _ => .relocate (dest := .blk b) (ht hc) hb)
              (Safe.getAny.bind fun s hs => Safe.readSize.bind fun _ _ => (Safe.deallocate (hs ha)).bind fun _ _ =>
                .modifyAny ha (by intro _ _; exact ha))).bind fun _ _ => tail

theorem Safe.copyFn {t : Nat} {src : Ptr} {a : Nat} {dest : Ptr} {al : Nat} (ha : own (.any a)) (hd : own (locOf dest)) :
    Sf OP (copyFn cfg t src a dest al) := by
  unfold Fine.copyFn
  refine Safe.readCell.bind fun ob _ => .ite (Safe.countCopy.bind fun _ _ => ?_) .ub
  have new : ∀ {b : Nat}, own (.blk b) → own (locOf (.blk b)) := fun h => h
  refine .ite ((Safe.constructAt hd).bind fun _ _ => .pure hd) (.ite (Safe.allocate.bind fun b hb => (Safe.constructAt (new hb)).bind fun _ _ =>
    (Safe.writeSize ha).bind fun _ _ => .pure (new hb)) (.ite ((Safe.constructAt hd).bind fun _ _ => .pure hd) (Safe.allocate.bind fun b hb => ?_)))
  split
  · exact (Safe.constructAt (new hb)).bind fun _ _ => (Safe.writeSize ha).bind fun _ _ => .pure (new hb)
  · exact (Safe.onFail (.constructAt (new hb)) (.deallocate (new hb))).bind fun _ _ => (Safe.writeSize ha).bind fun _ _ => .pure (new hb)

theorem Safe.copyCtor {a c : Nat} {ms : List Method} (ha : own (.any a)) : Sf (fun _ => True) (copyCtor cfg a ms c) := by
  unfold Fine.copyCtor
  refine Safe.getAny.bind fun t _ => .construct ha ?_
  split
  · exact .pure trivial
  · exact Safe.getAny.bind fun s hs => Safe.slotTy.bind fun _ _ => (Safe.copyFn ha (hs ha)).bind fun p hp =>
      (Safe.modifyAny ha (by intro _ _; exact hp)).bind fun _ _ => Safe.subtablePtr.bind fun _ _ => .modifyAny ha (by intro _ h; exact h)

theorem Safe.destructor {a : Nat} (ha : own (.any a)) : Sf (fun _ => True) (destructor cfg a) := .noexceptIf ((Safe.reset ha).bind fun _ _ => .dropSlot ha)

theorem Safe.moveAssign {a c : Nat} (ha : own (.any a)) (hc : own (.any c)) : Sf (fun _ => True) (moveAssign cfg a c) := by
  unfold Fine.moveAssign
  refine .noexceptIf (.ite (.pure trivial) (.ite ((Safe.reset ha).bind fun _ _ => .moveValueFrom ha hc) (.ite ?_ ?_)))
  · refine (Safe.reset ha).bind fun _ _ => Safe.getAny.bind fun s hs => Safe.getAny.bind fun t ht => ?_
    dsimp only
    split
    · exact (Safe.modifyAny ha (by intro _ h; exact h)).bind fun _ _ => .moveValueFrom ha hc
    · exact .moveValueFrom ha hc
  · refine (Safe.destroyValue ha).bind fun _ _ => Safe.getAny.bind fun s hs => Safe.getAny.bind fun t ht => .ite ?_
      ((Safe.reset ha).bind fun _ _ => .moveValueFrom ha hc)
    dsimp only
    have tail : ∀ r : Bool, Sf (fun _ => True) (if r = true then do
          let ty ← Fine.getMoveFn t
          Fine.relocate cfg ty t.vp s.vp
          Fine.modifyAny a fun s => { s with vt := t.vt }
          Fine.modifyAny c fun t => { t with vt := none }
        else
          if memAlloc a s = true then do
            Fine.deallocateMemory a
            Fine.moveValueFrom cfg false a c
          else Fine.moveValueFrom cfg false a c) := fun r =>
      .ite (Safe.getMoveFn.bind fun _ _ => (Safe.relocate (ht hc) (hs ha)).bind fun _ _ => (Safe.modifyAny ha (by intro _ h; exact h)).bind fun _ _ =>
        .modifyAny hc (by intro _ h; exact h)) (.ite ((Safe.deallocateMemory ha).bind fun _ _ => .moveValueFrom ha hc) (.moveValueFrom ha hc))
    split
    · exact Safe.readSize.bind fun n _ => Safe.readSize.bind fun k _ => tail (decide (n ≥ k))
    · exact tail false

theorem Safe.copyAssign {a c tmp : Nat} (ha : own (.any a)) (ht : own (.any tmp)) : Sf (fun _ => True) (copyAssign cfg a c tmp) := by
  unfold Fine.copyAssign
  refine Safe.getAny.bind fun t _ => (Safe.copyCtor ht).bind fun _ _ => .finallyDo ?_ (.destructor ht)
  split
  · refine Safe.getAny.bind fun s hs => Safe.getAny.bind fun t _ => ?_
    dsimp only
    split
    · exact (Safe.reset ha).bind fun _ _ => (Safe.modifyAny ha (by intro _ h; exact h)).bind fun _ _ => .moveAssign ha ht
    · exact .moveAssign ha ht
  · exact .moveAssign ha ht

theorem Safe.refTo {c : Nat} {ms : List Method} : Sf (fun _ => True) (refTo c ms) := by
  unfold Fine.refTo
  refine Safe.getAny.bind fun t _ => ?_
  split
  · exact .ub
  · exact Safe.subtablePtr.bind fun _ _ => .pure trivial

theorem Safe.materialize {a : Nat} {ms : List Method} {al : Nat} {r : VtPtr × Ptr} (ha : own (.any a)) : Sf (fun _ => True) (materialize cfg a ms al r) := by
  unfold Fine.materialize
  exact (Safe.construct ha (.pure trivial)).bind fun _ _ => .onFail ((Safe.modifyAny ha (by intro _ h; exact h)).bind fun _ _ => Safe.getAny.bind fun s hs =>
    Safe.slotTy.bind fun _ _ => (Safe.copyFn ha (hs ha)).bind fun p hp => .modifyAny ha (by intro _ _; exact hp)) (.destructor ha)

theorem Safe.descTy {s : AnySt} : Sf (fun _ => True) (descTy s) := by
  unfold Fine.descTy
  split
  · exact .ub
  · exact .slotTy

theorem Safe.anyCastPtr {a t : Nat} : Sf (fun r => ∀ p, r = some p → own (.any a) → OP p) (anyCastPtr a t) := by
  unfold Fine.anyCastPtr Fine.typeDescriptor
  refine Safe.bind (P := fun _ => True) (Safe.getAny.bind fun s _ => .ite (.pure trivial) (Safe.descTy.bind fun _ _ => .pure trivial)) fun d _ => ?_
  exact .ite (Safe.getAny.bind fun s hs => .pure (fun p e ha => by cases e; exact hs ha)) (.pure fun p e => by cases e)

theorem Safe.writeObj {p : Ptr} {t v : Nat} (hp : OP p) : Sf (fun _ => True) (writeObj p t v) := Safe.readObj.bind fun _ _ => .setCell hp

theorem Safe.anyCastCopy {a t : Nat} : Sf (fun _ => True) (anyCastCopy cfg a t) := by
  unfold Fine.anyCastCopy
  refine Safe.anyCastPtr.bind fun p _ => ?_
  split
  · exact .throwExn
  · exact Safe.readObj.bind fun _ _ => Safe.mayThrow.bind fun _ _ => .pure trivial

theorem Safe.anyCastMove {a t : Nat} (ha : own (.any a)) : Sf (fun _ => True) (anyCastMove cfg a t) := by
  unfold Fine.anyCastMove
  refine Safe.anyCastPtr.bind fun p hp => ?_
  split
  · exact .throwExn
  · exact Safe.readObj.bind fun _ _ => Safe.mayThrow.bind fun _ _ => (Safe.writeObj (hp _ rfl ha)).bind fun _ _ => .pure trivial

theorem Safe.invokeUser {a m x : Nat} (ha : cfg.kind m = .mutRef → own (.any a)) : Sf (fun _ => True) (invokeUser cfg a m x) := by
  unfold Fine.invokeUser
  refine Safe.getAny.bind fun s hs => Safe.slotTy.bind fun t _ => Safe.readObj.bind fun ob _ => ?_
  split
  · exact Safe.mayThrow.bind fun _ _ => .pure trivial
  · rename_i h
    exact (Safe.onFail .mayThrow (.writeObj (hs (ha h)))).bind fun _ _ => (Safe.writeObj (hs (ha h))).bind fun _ _ => .pure trivial
  · exact Safe.mayThrow.bind fun _ _ => Safe.mayThrow.bind fun _ _ => .pure trivial

theorem Safe.argOf {s : ArgSrc} : Sf (fun _ => True) (argOf s) := by
  cases s
  · exact .pure trivial
  · exact Safe.getAny.bind fun _ _ => .pure trivial

theorem Safe.replaceWithBytes {a n : Nat} (ha : own (.any a)) : Sf (fun _ => True) (replaceWithBytes cfg a n) := by
  unfold Fine.replaceWithBytes
  refine (Safe.destroyValue ha).bind fun _ _ => Safe.getAny.bind fun s _ => ?_
  split
  · exact Safe.readSize.bind fun n _ => .ite (.pure trivial) (Safe.allocate.bind fun b hb =>
      (Safe.deallocateMemory ha).bind fun _ _ => (Safe.modifyAny ha (by intro _ _; exact hb)).bind fun _ _ => .writeSize ha)
  · exact (Safe.pure (P := fun _ => True) trivial).bind fun n _ => .ite (.pure trivial) (Safe.allocate.bind fun b hb =>
      (Safe.modifyAny ha (by intro _ _; exact hb)).bind fun _ _ => .writeSize ha)

theorem Safe.moveCtor {a c : Nat} (ha : own (.any a)) (hc : own (.any c)) : Sf (fun _ => True) (moveCtor cfg a c) :=
  .noexceptIf (Safe.getAny.bind fun _ _ => .construct ha (.moveValueFrom ha hc))

theorem Safe.swapAny {a b tmp : Nat} (ha : own (.any a)) (hb : own (.any b)) (ht : own (.any tmp)) : Sf (fun _ => True) (swapAny cfg a b tmp) :=
  (Safe.moveCtor ht ha).bind fun _ _ => .finallyDo ((Safe.moveAssign ha hb).bind fun _ _ => .moveAssign hb ht) (.destructor ht)

/-- An operation writes only what it is passed as a non-const object, and the memory that belongs to it. -/
theorem Safe.exec {op : Op} (h : ∀ a ∈ op.writes cfg, own (.any a)) : Sf (fun _ => True) (exec cfg op) := by
  cases op <;> simp only [Op.writes, List.mem_cons, List.not_mem_nil, or_false, forall_eq_or_imp, forall_eq] at h <;> unfold Fine.exec
  case allocCtor => exact .construct h (.pure trivial)
  case valueCtor => exact Safe.argOf.bind fun _ _ => .noexceptIf (.construct h (.emplaceInEmpty h))
  case forceCtor => exact Safe.argOf.bind fun _ _ => .noexceptIf (.construct h (.emplaceInEmpty h))
  case copyCtor => exact .copyCtor h
  case moveCtor => exact .moveCtor h.1 h.2
  case transMoveCtor => exact .noexceptIf (.construct h.1 (.moveValueFrom h.1 h.2))
  case dtor => exact .destructor h
  case copyAssign => exact .copyAssign h.1 h.2
  case moveAssign => exact .moveAssign h.1 h.2
  case emplace => exact Safe.argOf.bind fun _ _ => .emplace h
  case reset => exact .reset h
  case destroyValue => exact .destroyValue h
  case replaceWithBytes => exact .replaceWithBytes h
  case mutate =>
    refine Safe.anyCastPtr.bind fun r hr => ?_
    split
    · exact .pure trivial
    · exact .writeObj (hr _ rfl h)
  case castCopy => exact Safe.anyCastCopy.bind fun _ _ => .pure trivial
  case castMove => exact (Safe.anyCastMove h).bind fun _ _ => .pure trivial
  case invoke a m x =>
    refine (Safe.invokeUser fun hk => ?_).bind fun _ _ => .pure trivial
    rw [hk] at h
    exact h a (List.mem_singleton_self _)
  case swap => exact .swapAny h.1 h.2.1 h.2.2
  case materialize => exact Safe.refTo.bind fun _ _ => .materialize h

end AnyAny.Fine
