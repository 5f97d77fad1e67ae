import Verif.Lemmas.FineDisc
/-
A step depends only on the location it accesses, and changes it only if it writes.
-/
namespace AnyAny.Fine
open AnyAny.Mem (Cfg Obj Ptr AnySt Blk World Res upd cellAt)

variable {cfg : Cfg} {β : Type}

/-- The location has the same contents in both worlds. -/
def SameAt (v g : World) : Loc → Prop
  | .any a => v.anys a = g.anys a
  | .blk b => v.blks b = g.blks b

/-- There is something at the location. -/
def Present (v : World) : Loc → Prop
  | .any a => v.anys a ≠ none
  | .blk b => v.blks b ≠ none

/-- The bookkeeping is the same. -/
structure SameBook (v g : World) : Prop where
  nextBlk : v.nextBlk = g.nextBlk
  nextObj : v.nextObj = g.nextObj
  born : v.born = g.born
  dtors : v.dtors = g.dtors
  frees : v.frees = g.frees
  copies : v.copies = g.copies
  tick : v.tick = g.tick

/-- A step does not throw and does not terminate the program. -/
theorem exec_cases (A : Act β) (v : World) : A.exec cfg v = .ub ∨ ∃ b v', A.exec cfg v = .ok b v' := by
  cases h : A.exec cfg v with
  | ok b v' => exact .inr ⟨b, v', rfl⟩
  | exn v' => exact absurd h (exec_ne_exn cfg A v v')
  | ub => exact .inl rfl
  | term =>
    exfalso
    cases A <;> simp only [Act.exec, Mem.getAny, Mem.setAny, Mem.dropSlot, Mem.readSize, Mem.writeSize, Mem.setCell, Mem.destroyAt,
      Mem.deallocate, Mem.freshObj, Mem.countCopy] at h <;> (repeat' split at h) <;> cases h

private theorem setCell_writes {p : Ptr} {c : Option Obj} {v v' : World} {x : Unit} (e : Mem.setCell p c v = .ok x v') {l : Loc} (hl : locOf p ≠ l) :
    SameAt v v' l := by
  cases p <;> simp only [Mem.setCell] at e <;> split at e <;> cases e <;> cases l <;> simp only [SameAt, upd]
  · rename_i h c; rw [if_neg]; exact fun e => hl (by rw [e]; rfl)
  · rename_i h c; rw [if_neg]; exact fun e => hl (by rw [e]; rfl)

/-- A step changes only the location that it writes. -/
theorem exec_writes {A : Act β} {v v' : World} {b : β} (e : A.exec cfg v = .ok b v') {l : Loc} (hl : A.accesses v ≠ some (l, true)) :
    SameAt v v' l := by
  cases A with
  | getAny a => simp only [Act.exec, Mem.getAny] at e; split at e <;> cases e; cases l <;> rfl
  | readSize a => simp only [Act.exec, Mem.readSize] at e; (repeat' split at e) <;> cases e; cases l <;> rfl
  | readCell p => simp only [Act.exec] at e; split at e <;> cases e; cases l <;> rfl
  | claim p t => simp only [Act.exec] at e; split at e <;> cases e; cases l <;> rfl
  | call => cases e; cases l <;> rfl
  | freshObj t x => cases e; cases l <;> rfl
  | countCopy => cases e; cases l <;> rfl
  | newAny a s =>
    simp only [Act.exec] at e
    split at e <;> cases e
    cases l with
    | blk b => rfl
    | any c => simp only [SameAt, upd]; rw [if_neg]; exact fun h => hl (by rw [h]; rfl)
  | setAny a s =>
    cases e
    cases l with
    | blk b => rfl
    | any c => simp only [SameAt, upd]; rw [if_neg]; exact fun h => hl (by rw [h]; rfl)
  | dropSlot a =>
    cases e
    cases l with
    | blk b => rfl
    | any c => simp only [SameAt, upd]; rw [if_neg]; exact fun h => hl (by rw [h]; rfl)
  | writeSize a n =>
    simp only [Act.exec, Mem.writeSize] at e
    (repeat' split at e) <;> cases e
    cases l with
    | blk b => rfl
    | any c => simp only [SameAt, upd]; rw [if_neg]; exact fun h => hl (by rw [h]; rfl)
  | setCell p c => exact setCell_writes e (fun h => hl (by rw [← h]; rfl))
  | destroyAt p t =>
    simp only [Act.exec, Mem.destroyAt] at e
    split at e
    · split at e
      · have := setCell_writes e (l := l) (fun h => hl (by rw [← h]; rfl))
        cases l <;> exact this
      · cases e
    · cases e
  | newBlk al n =>
    cases e
    cases l with
    | any c => rfl
    | blk b => simp only [SameAt, upd]; rw [if_neg]; exact fun h => hl (by rw [h]; rfl)
  | deallocate al p n =>
    simp only [Act.exec, Mem.deallocate] at e
    (repeat' split at e) <;> cases e
    cases l with
    | any c => rfl
    | blk b => simp only [SameAt, upd]; rw [if_neg]; exact fun h => hl (by rw [h]; rfl)

/-- A location that is read exists. -/
theorem exec_reads {A : Act β} {v v' : World} {b : β} (e : A.exec cfg v = .ok b v') {l : Loc} (hl : A.accesses v = some (l, false)) : Present v l := by
  cases A with
  | getAny a =>
    simp only [Act.exec, Mem.getAny] at e
    split at e <;> cases e
    rename_i h
    cases hl
    simp [Present, h]
  | readSize a =>
    simp only [Act.exec, Mem.readSize] at e
    split at e
    · rename_i h
      cases hl
      simp [Present, h]
    · cases e
  | readCell p =>
    simp only [Act.exec] at e
    split at e <;> cases e
    rename_i h
    cases hl
    cases p <;> simp only [locOf, Present] <;> intro h' <;> simp [cellAt, h'] at h
  | _ => cases hl

/-- The names of new blocks. -/
theorem exec_next {A : Act β} {v v' g g' : World} {b b' : β} (e : A.exec cfg v = .ok b v') (e' : A.exec cfg g = .ok b' g') (h : v.nextBlk = g.nextBlk) :
    v'.nextBlk = g'.nextBlk := by
  cases A with
  | newBlk al n => cases e; cases e'; simp [h]
  | setCell p c =>
    cases p <;> simp only [Act.exec, Mem.setCell] at e e' <;> split at e <;> cases e <;> split at e' <;> cases e' <;> exact h
  | destroyAt p t =>
    cases p <;> simp only [Act.exec, Mem.destroyAt, Mem.setCell] at e e' <;> (repeat' split at e) <;> cases e <;> (repeat' split at e') <;> cases e' <;> exact h
  | _ =>
    simp only [Act.exec, Mem.getAny, Mem.setAny, Mem.dropSlot, Mem.readSize, Mem.writeSize, Mem.deallocate, Mem.freshObj, Mem.countCopy] at e e'
    (repeat' split at e) <;> cases e <;> (repeat' split at e') <;> cases e' <;> exact h

theorem exec_le {A : Act β} {v v' : World} {b : β} (e : A.exec cfg v = .ok b v') : v.nextBlk ≤ v'.nextBlk := by
  cases A with
  | newBlk al n => cases e; exact Nat.le_succ _
  | setCell p c => cases p <;> simp only [Act.exec, Mem.setCell] at e <;> split at e <;> cases e <;> exact Nat.le_refl _
  | destroyAt p t =>
    cases p <;> simp only [Act.exec, Mem.destroyAt, Mem.setCell] at e <;> (repeat' split at e) <;> cases e <;> exact Nat.le_refl _
  | _ =>
    simp only [Act.exec, Mem.getAny, Mem.setAny, Mem.dropSlot, Mem.readSize, Mem.writeSize, Mem.deallocate, Mem.freshObj, Mem.countCopy] at e
    (repeat' split at e) <;> cases e <;> exact Nat.le_refl _

private theorem setCell_local {p : Ptr} {c : Option Obj} {v g : World} (hb : SameBook v g) (hp : SameAt v g (locOf p)) :
    (Mem.setCell p c v = .ub ∧ Mem.setCell p c g = .ub) ∨
    ∃ v' g', Mem.setCell p c v = .ok () v' ∧ Mem.setCell p c g = .ok () g' ∧ SameBook v' g' ∧ SameAt v' g' (locOf p) := by
  cases p with
  | data a =>
    have hp : v.anys a = g.anys a := hp
    simp only [Mem.setCell, ← hp]
    cases v.anys a with
    | none => exact .inl ⟨rfl, rfl⟩
    | some s => exact .inr ⟨_, _, rfl, rfl, ⟨hb.1, hb.2, hb.3, hb.4, hb.5, hb.6, hb.7⟩, by simp [locOf, SameAt, upd]⟩
  | blk a =>
    have hp : v.blks a = g.blks a := hp
    simp only [Mem.setCell, ← hp]
    cases v.blks a with
    | none => exact .inl ⟨rfl, rfl⟩
    | some s => exact .inr ⟨_, _, rfl, rfl, ⟨hb.1, hb.2, hb.3, hb.4, hb.5, hb.6, hb.7⟩, by simp [locOf, SameAt, upd]⟩

private theorem cellAt_local {p : Ptr} {v g : World} (hp : SameAt v g (locOf p)) : cellAt v p = cellAt g p := by
  cases p with
  | data a => simp only [cellAt, show v.anys a = g.anys a from hp]
  | blk b => simp only [cellAt, show v.blks b = g.blks b from hp]

/-- A step depends only on the location that it accesses: if it has the same contents in two worlds, then the outcome is the same, and the
location has the same contents again. -/
theorem exec_local {A : Act β} {v g : World} (hb : SameBook v g) (hl : ∀ l wr, A.accesses v = some (l, wr) → SameAt v g l) :
    (A.exec cfg v = .ub ∧ A.exec cfg g = .ub) ∨
    ∃ b v' g', A.exec cfg v = .ok b v' ∧ A.exec cfg g = .ok b g' ∧ SameBook v' g' ∧ ∀ l, A.accesses v = some (l, true) → SameAt v' g' l := by
  have book : ∀ {α1 α2 β1 β2 : _}, SameBook { v with anys := α1, blks := β1 } { g with anys := α2, blks := β2 } := fun {_ _ _ _} =>
    ⟨hb.1, hb.2, hb.3, hb.4, hb.5, hb.6, hb.7⟩
  cases A with
  | getAny a =>
    have h : v.anys a = g.anys a := hl _ _ rfl
    simp only [Act.exec, Mem.getAny, ← h]
    cases v.anys a with
    | none => exact .inl ⟨rfl, rfl⟩
    | some s => exact .inr ⟨_, _, _, rfl, rfl, hb, fun _ e => by cases e⟩
  | readSize a =>
    have h : v.anys a = g.anys a := hl _ _ rfl
    simp only [Act.exec, Mem.readSize, ← h]
    cases v.anys a with
    | none => exact .inl ⟨rfl, rfl⟩
    | some s =>
      dsimp only
      cases s.buf with
      | size n => exact .inr ⟨_, _, _, rfl, rfl, hb, fun _ e => by cases e⟩
      | raw => exact .inl ⟨rfl, rfl⟩
      | obj o => exact .inl ⟨rfl, rfl⟩
  | readCell p =>
    have h : cellAt v p = cellAt g p := cellAt_local (hl _ _ rfl)
    simp only [Act.exec, ← h]
    cases cellAt v p with
    | none => exact .inl ⟨rfl, rfl⟩
    | some s => exact .inr ⟨_, _, _, rfl, rfl, hb, fun _ e => by cases e⟩
  | claim p t =>
    have hs : SameAt v g (locOf p) := hl _ _ rfl
    have h : Mem.storageOk cfg v p t = Mem.storageOk cfg g p t := by
      cases p with
      | data a => simp only [Mem.storageOk, show v.anys a = g.anys a from hs]
      | blk b => simp only [Mem.storageOk, show v.blks b = g.blks b from hs]
    simp only [Act.exec, ← h]
    cases Mem.storageOk cfg v p t with
    | false => exact .inl ⟨rfl, rfl⟩
    | true => exact .inr ⟨_, _, _, rfl, rfl, hb, fun _ e => by cases e; exact hs⟩
  | call =>
    refine .inr ⟨_, _, { g with tick := g.tick + 1 }, rfl, ?_, ?_, fun _ e => by cases e⟩
    · simp only [Act.exec, hb.tick]
    · exact ⟨hb.1, hb.2, hb.3, hb.4, hb.5, hb.6, by simp [hb.tick]⟩
  | freshObj t x =>
    refine .inr ⟨_, _, { g with nextObj := g.nextObj + 1, born := upd g.born g.nextObj t }, rfl, ?_, ?_, fun _ e => by cases e⟩
    · simp only [Act.exec, Mem.freshObj, hb.nextObj]
    · exact ⟨hb.1, by simp [hb.nextObj], by simp [hb.nextObj, hb.born], hb.4, hb.5, hb.6, hb.7⟩
  | countCopy =>
    exact .inr ⟨_, _, _, rfl, rfl, ⟨hb.1, hb.2, hb.3, hb.4, hb.5, by simp [hb.copies], hb.7⟩, fun _ e => by cases e⟩
  | newAny a s =>
    have h : v.anys a = g.anys a := hl _ _ rfl
    simp only [Act.exec, ← h]
    split
    · exact .inl ⟨rfl, rfl⟩
    · exact .inr ⟨_, _, _, rfl, rfl, book, fun _ e => by cases e; simp [SameAt, upd]⟩
  | setAny a s => exact .inr ⟨_, _, _, rfl, rfl, book, fun _ e => by cases e; simp [SameAt, upd]⟩
  | dropSlot a => exact .inr ⟨_, _, _, rfl, rfl, book, fun _ e => by cases e; simp [SameAt, upd]⟩
  | writeSize a n =>
    have h : v.anys a = g.anys a := hl _ _ rfl
    simp only [Act.exec, Mem.writeSize, ← h]
    cases v.anys a with
    | none => exact .inl ⟨rfl, rfl⟩
    | some s =>
      dsimp only
      split
      · exact .inr ⟨_, _, _, rfl, rfl, book, fun _ e => by cases e; simp [SameAt, upd]⟩
      · exact .inl ⟨rfl, rfl⟩
  | setCell p c =>
    rcases setCell_local (c := c) hb (hl _ _ rfl) with h | ⟨v', g', h1, h2, h3, h4⟩
    · exact .inl h
    · exact .inr ⟨(), v', g', h1, h2, h3, fun _ e => by cases e; exact h4⟩
  | destroyAt p t =>
    have hs : SameAt v g (locOf p) := hl _ _ rfl
    simp only [Act.exec, Mem.destroyAt, ← cellAt_local hs]
    cases cellAt v p with
    | none => exact .inl ⟨rfl, rfl⟩
    | some o =>
      dsimp only
      split
      · rcases setCell_local (p := p) (c := none) (v := { v with dtors := upd v.dtors o.id (v.dtors o.id + 1) })
          (g := { g with dtors := upd g.dtors o.id (g.dtors o.id + 1) }) ⟨hb.1, hb.2, hb.3, by simp [hb.dtors], hb.5, hb.6, hb.7⟩
          (by cases p <;> exact hs) with h | ⟨v', g', h1, h2, h3, h4⟩
        · exact .inl h
        · exact .inr ⟨(), v', g', h1, h2, h3, fun _ e => by cases e; exact h4⟩
      · exact .inl ⟨rfl, rfl⟩
  | newBlk al n =>
    refine .inr ⟨_, _, { g with nextBlk := g.nextBlk + 1, blks := upd g.blks g.nextBlk (some ⟨n, al, none⟩) }, rfl, ?_, ?_, ?_⟩
    · simp only [Act.exec, hb.nextBlk]
    · exact ⟨by simp [hb.nextBlk], hb.2, hb.3, hb.4, hb.5, hb.6, hb.7⟩
    · intro l e; cases e; simp [SameAt, upd, hb.nextBlk]
  | deallocate al p n =>
    cases p with
    | data a => exact .inl ⟨rfl, rfl⟩
    | blk b =>
      have h : v.blks b = g.blks b := hl _ _ rfl
      simp only [Act.exec, Mem.deallocate, ← h]
      cases v.blks b with
      | none => exact .inl ⟨rfl, rfl⟩
      | some k =>
        dsimp only
        split
        · exact .inr ⟨_, _, _, rfl, rfl, ⟨hb.1, hb.2, hb.3, hb.4, by simp [hb.frees], hb.6, hb.7⟩, fun _ e => by cases e; simp [locOf, SameAt, upd]⟩
        · exact .inl ⟨rfl, rfl⟩

theorem accesses_congr (A : Act β) {v g : World} (h : v.nextBlk = g.nextBlk) : A.accesses v = A.accesses g := by
  cases A <;> simp only [Act.accesses, h]

theorem world_ext {v g : World} (h : SameBook v g) (h1 : ∀ l, SameAt v g l) : v = g := by
  have ha : v.anys = g.anys := funext fun a => h1 (.any a)
  have hb : v.blks = g.blks := funext fun b => h1 (.blk b)
  obtain ⟨a, b, c, d, e, f, x, y, z⟩ := v
  obtain ⟨i1, i2, i3, i4, i5, i6, i7⟩ := h
  dsimp only at *
  subst ha hb i1 i2 i3 i4 i5 i6 i7
  rfl

end AnyAny.Fine
