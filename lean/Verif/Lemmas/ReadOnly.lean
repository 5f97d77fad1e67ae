import Verif.Lemmas.AnyMemMono
import Verif.Spec.Threads
/-
Operations do not touch operands they only read: neither the object itself nor its memory. `Ro o s0 k0 w`: the object at `o` is `s0`,
the block it points to is `k0`, and no other any object points to either.
-/
namespace AnyAny.Mem
open AnyAny.TypeList (numberOfFirst findSubsequence)

variable {cfg : Cfg}

/-- `p` is not an address in the object at `o` or in its block. -/
def Away (o : Nat) (s0 : AnySt) (p : Ptr) : Prop := p ≠ .data o ∧ ∀ b, s0.vp = .blk b → p ≠ .blk b

structure Ro (o : Nat) (s0 : AnySt) (k0 : Option Blk) (w : World) : Prop where
  any : w.anys o = some s0
  mem : ∀ b, s0.vp = .blk b → w.blks b = k0 ∧ b < w.nextBlk
  others : ∀ c s, c ≠ o → w.anys c = some s → Away o s0 s.vp

variable {o : Nat} {s0 : AnySt} {k0 : Option Blk} {α β : Type}

/-- Every outcome of `m` leaves the object alone; the result satisfies `P`. -/
def Keep (o : Nat) (s0 : AnySt) (k0 : Option Blk) (P : α → Prop) (m : M α) : Prop :=
  ∀ w, Ro o s0 k0 w → (∀ a w', m w = .ok a w' → Ro o s0 k0 w' ∧ P a) ∧ ∀ w', m w = .exn w' → Ro o s0 k0 w'

local notation "Kp" => Keep o s0 k0
local notation "Aw" => Away o s0

theorem Keep.pure {P : α → Prop} {a : α} (h : P a) : Kp P (Pure.pure a : M α) := fun w hw =>
  ⟨fun _ _ e => by cases e; exact ⟨hw, h⟩, fun _ e => by cases e⟩
theorem Keep.ub {P : α → Prop} : Kp P (Mem.ub : M α) := fun _ _ => ⟨fun _ _ e => (by cases e), fun _ e => by cases e⟩
theorem Keep.throwExn {P : α → Prop} : Kp P (Mem.throwExn : M α) := fun _ hw => ⟨fun _ _ e => (by cases e), fun _ e => by cases e; exact hw⟩

theorem Keep.weaken {P Q : α → Prop} {m : M α} (h : Kp P m) (hpq : ∀ a, P a → Q a) : Kp Q m := fun w hw =>
  ⟨fun a w' e => ⟨((h w hw).1 a w' e).1, hpq a ((h w hw).1 a w' e).2⟩, (h w hw).2⟩

theorem Keep.bind {P : α → Prop} {Q : β → Prop} {m : M α} {k : α → M β} (hm : Kp P m) (hk : ∀ a, P a → Kp Q (k a)) : Kp Q (m >>= k) := by
  intro w hw
  have := hm w hw
  simp only [bind_apply]
  cases h : m w with
  | ok a w1 =>
    obtain ⟨h1, h2⟩ := this.1 a w1 h
    exact hk a h2 w1 h1
  | exn w1 => exact ⟨fun _ _ e => (by cases e), fun _ e => by cases e; exact this.2 w1 h⟩
  | ub => exact ⟨fun _ _ e => (by cases e), fun _ e => by cases e⟩
  | term => exact ⟨fun _ _ e => (by cases e), fun _ e => by cases e⟩

theorem Keep.ite {P : α → Prop} {c : Prop} [Decidable c] {m k : M α} (h1 : Kp P m) (h2 : Kp P k) : Kp P (if c then m else k) := by
  split
  · exact h1
  · exact h2

theorem Keep.noexceptIf {P : α → Prop} {b : Bool} {m : M α} (hm : Kp P m) : Kp P (noexceptIf b m) := by
  intro w hw
  have := hm w hw
  unfold Mem.noexceptIf
  cases h : m w with
  | ok a w1 => exact ⟨fun _ _ e => by cases e; exact this.1 a w1 h, fun _ e => by cases e⟩
  | exn w1 =>
    dsimp only
    split
    · exact ⟨fun _ _ e => (by cases e), fun _ e => by cases e⟩
    · exact ⟨fun _ _ e => (by cases e), fun _ e => by cases e; exact this.2 w1 h⟩
  | ub => exact ⟨fun _ _ e => (by cases e), fun _ e => by cases e⟩
  | term => exact ⟨fun _ _ e => (by cases e), fun _ e => by cases e⟩

theorem Keep.onFail {P : α → Prop} {m : M α} {c : M Unit} (hm : Kp P m) (hc : Kp (fun _ => True) c) : Kp P (onFail m c) := by
  intro w hw
  have := hm w hw
  unfold Mem.onFail
  cases h : m w with
  | ok a w1 => exact ⟨fun _ _ e => by cases e; exact this.1 a w1 h, fun _ e => by cases e⟩
  | exn w1 =>
    dsimp only
    have h2 := hc w1 (this.2 w1 h)
    cases h' : c w1 with
    | ok a w2 => exact ⟨fun _ _ e => (by cases e), fun _ e => by cases e; exact (h2.1 a w2 h').1⟩
    | exn w2 => exact ⟨fun _ _ e => (by cases e), fun _ e => by cases e⟩
    | ub => exact ⟨fun _ _ e => (by cases e), fun _ e => by cases e⟩
    | term => exact ⟨fun _ _ e => (by cases e), fun _ e => by cases e⟩
  | ub => exact ⟨fun _ _ e => (by cases e), fun _ e => by cases e⟩
  | term => exact ⟨fun _ _ e => (by cases e), fun _ e => by cases e⟩

theorem Keep.finallyDo {P : α → Prop} {m : M α} {c : M Unit} (hm : Kp P m) (hc : Kp (fun _ => True) c) : Kp P (finallyDo m c) := by
  intro w hw
  have := hm w hw
  unfold Mem.finallyDo
  cases h : m w with
  | ok a w1 =>
    dsimp only
    have h2 := hc w1 (this.1 a w1 h).1
    cases h' : c w1 with
    | ok x w2 => exact ⟨fun _ _ e => by cases e; exact ⟨(h2.1 x w2 h').1, (this.1 a w1 h).2⟩, fun _ e => by cases e⟩
    | exn w2 => exact ⟨fun _ _ e => (by cases e), fun _ e => by cases e; exact h2.2 w2 h'⟩
    | ub => exact ⟨fun _ _ e => (by cases e), fun _ e => by cases e⟩
    | term => exact ⟨fun _ _ e => (by cases e), fun _ e => by cases e⟩
  | exn w1 =>
    dsimp only
    have h2 := hc w1 (this.2 w1 h)
    cases h' : c w1 with
    | ok a w2 => exact ⟨fun _ _ e => (by cases e), fun _ e => by cases e; exact (h2.1 a w2 h').1⟩
    | exn w2 => exact ⟨fun _ _ e => (by cases e), fun _ e => by cases e⟩
    | ub => exact ⟨fun _ _ e => (by cases e), fun _ e => by cases e⟩
    | term => exact ⟨fun _ _ e => (by cases e), fun _ e => by cases e⟩
  | ub => exact ⟨fun _ _ e => (by cases e), fun _ e => by cases e⟩
  | term => exact ⟨fun _ _ e => (by cases e), fun _ e => by cases e⟩

/-! ### Primitives -/

theorem Ro.setAny {w : World} (h : Ro o s0 k0 w) {a : Nat} (ha : a ≠ o) {s : Option AnySt} (hs : ∀ t, s = some t → Aw t.vp) :
    Ro o s0 k0 { w with anys := upd w.anys a s } where
  any := by simp only [upd, if_neg ha.symm]; exact h.any
  mem := h.mem
  others c t hc ht := by
    simp only [upd] at ht
    split at ht
    · exact hs t ht
    · exact h.others c t hc ht

theorem Ro.setBlk {w : World} (h : Ro o s0 k0 w) {b : Nat} (hb : Aw (.blk b)) {k : Option Blk} : Ro o s0 k0 { w with blks := upd w.blks b k } where
  any := h.any
  mem b' hb' := by
    have : b' ≠ b := fun e => hb.2 b' hb' (by rw [e])
    simp only [upd, if_neg this]; exact h.mem b' hb'
  others := h.others

theorem Ro.mono {w w' : World} (h : Ro o s0 k0 w) (h1 : w'.anys = w.anys) (h2 : w'.blks = w.blks) (h3 : w.nextBlk ≤ w'.nextBlk) : Ro o s0 k0 w' where
  any := by rw [h1]; exact h.any
  mem b hb := by rw [h2]; exact ⟨(h.mem b hb).1, Nat.lt_of_lt_of_le (h.mem b hb).2 h3⟩
  others := by rw [h1]; exact h.others

theorem away_data {a : Nat} (h : a ≠ o) : Aw (.data a) := ⟨fun e => h (by cases e; rfl), fun _ _ e => by cases e⟩

theorem Keep.throwPoint : Kp (fun _ => True) (throwPoint cfg) := by
  intro w hw
  unfold Mem.throwPoint
  split
  · exact ⟨fun _ _ e => (by cases e), fun _ e => by cases e; exact hw.mono rfl rfl (Nat.le_refl _)⟩
  · exact ⟨fun _ _ e => by cases e; exact ⟨hw.mono rfl rfl (Nat.le_refl _), trivial⟩, fun _ e => by cases e⟩

theorem Keep.mayThrow {n : Bool} : Kp (fun _ => True) (mayThrow cfg n) := by
  unfold Mem.mayThrow
  split
  · exact .pure trivial
  · exact .throwPoint

theorem Keep.getAny {a : Nat} : Kp (fun s => a ≠ o → Aw s.vp) (getAny a) := by
  intro w hw
  unfold Mem.getAny
  cases ha : w.anys a with
  | none => exact ⟨fun _ _ e => (by cases e), fun _ e => by cases e⟩
  | some s => exact ⟨fun _ _ e => by cases e; exact ⟨hw, fun h => hw.others a s h ha⟩, fun _ e => by cases e⟩

theorem Keep.modifyAny {a : Nat} {f : AnySt → AnySt} (ha : a ≠ o) (hf : ∀ s : AnySt, Aw s.vp → Aw (f s).vp) : Kp (fun _ => True) (modifyAny a f) :=
  Keep.getAny.bind fun s hs w hw =>
    ⟨fun _ _ e => by cases e; exact ⟨hw.setAny ha fun t e => by cases e; exact hf s (hs ha), trivial⟩, fun _ e => by cases e⟩

theorem Keep.setCell {p : Ptr} {c : Option Obj} (hp : Aw p) : Kp (fun _ => True) (setCell p c) := by
  intro w hw
  cases p with
  | data a =>
    simp only [Mem.setCell]
    cases ha : w.anys a with
    | none => exact ⟨fun _ _ e => (by cases e), fun _ e => by cases e⟩
    | some s =>
      have hao : a ≠ o := fun e => hp.1 (by rw [e])
      exact ⟨fun _ _ e => by cases e; exact ⟨hw.setAny hao fun t e => by cases e; exact hw.others a s hao ha, trivial⟩, fun _ e => by cases e⟩
  | blk b =>
    simp only [Mem.setCell]
    cases ha : w.blks b with
    | none => exact ⟨fun _ _ e => (by cases e), fun _ e => by cases e⟩
    | some s => exact ⟨fun _ _ e => by cases e; exact ⟨hw.setBlk hp, trivial⟩, fun _ e => by cases e⟩

theorem Keep.evalArg {arg : Arg} : Kp (fun _ => True) (evalArg arg) := by
  intro w hw
  unfold Mem.evalArg
  split
  · exact ⟨fun _ _ e => by cases e; exact ⟨hw, trivial⟩, fun _ e => by cases e⟩
  · split
    · exact ⟨fun _ _ e => by cases e; exact ⟨hw, trivial⟩, fun _ e => by cases e⟩
    · exact ⟨fun _ _ e => (by cases e), fun _ e => by cases e⟩

theorem Keep.freshObj {t v : Nat} : Kp (fun _ => True) (freshObj t v) := fun _ hw =>
  ⟨fun _ _ e => by cases e; exact ⟨hw.mono rfl rfl (Nat.le_refl _), trivial⟩, fun _ e => by cases e⟩

theorem Keep.countCopy : Kp (fun _ => True) countCopy := fun _ hw =>
  ⟨fun _ _ e => by cases e; exact ⟨hw.mono rfl rfl (Nat.le_refl _), trivial⟩, fun _ e => by cases e⟩

theorem Keep.constructAt {p : Ptr} {t : Nat} {arg : Arg} {n : Bool} (hp : Aw p) : Kp (fun _ => True) (constructAt cfg p t arg n) := by
  intro w hw
  have : Kp (fun _ => True) (do
    let v ← Mem.evalArg arg
    Mem.onFail (Mem.mayThrow cfg n) (Mem.setCell p none)
    let o ← Mem.freshObj t v
    Mem.setCell p (some o)) :=
    Keep.evalArg.bind fun v _ => (Keep.onFail .mayThrow (.setCell hp)).bind fun _ _ => Keep.freshObj.bind fun o _ => .setCell hp
  show (∀ a w', (if storageOk cfg w p t then _ else Mem.ub : M Unit) w = .ok a w' → _) ∧ ∀ w', (if storageOk cfg w p t then _ else Mem.ub : M Unit) w = .exn w' → _
  split
  · exact this w hw
  · exact Keep.ub w hw

theorem Keep.destroyAt {p : Ptr} {t : Nat} (hp : Aw p) : Kp (fun _ => True) (destroyAt p t) := by
  intro w hw
  unfold Mem.destroyAt
  split
  · split
    · exact Keep.setCell hp _ (hw.mono rfl rfl (Nat.le_refl _))
    · exact ⟨fun _ _ e => (by cases e), fun _ e => by cases e⟩
  · exact ⟨fun _ _ e => (by cases e), fun _ e => by cases e⟩

theorem Keep.allocate {al n : Nat} : Kp (fun b => Aw (.blk b)) (allocate cfg al n) := by
  refine Keep.throwPoint.bind fun _ _ w hw => ⟨fun b w' e => ?_, fun _ e => by cases e⟩
  cases e
  have hb : Aw (.blk w.nextBlk) := ⟨fun e => (by cases e), fun b hb e => by cases e; exact absurd (hw.mem _ hb).2 (by omega)⟩
  exact ⟨(hw.setBlk hb (k := some ⟨n, al, none⟩)).mono rfl rfl (Nat.le_succ _), hb⟩

theorem Keep.deallocate {al n : Nat} {p : Ptr} (hp : Aw p) : Kp (fun _ => True) (deallocate cfg al p n) := by
  intro w hw
  cases p with
  | data a => exact ⟨fun _ _ e => (by cases e), fun _ e => by cases e⟩
  | blk b =>
    simp only [Mem.deallocate]
    split
    · split
      · exact ⟨fun _ _ e => by cases e; exact ⟨(hw.setBlk hp (k := none)).mono rfl rfl (Nat.le_refl _), trivial⟩, fun _ e => by cases e⟩
      · exact ⟨fun _ _ e => (by cases e), fun _ e => by cases e⟩
    · exact ⟨fun _ _ e => (by cases e), fun _ e => by cases e⟩

theorem Keep.readSize {a : Nat} : Kp (fun _ => True) (readSize a) := by
  intro w hw
  unfold Mem.readSize
  split
  · split
    · exact ⟨fun _ _ e => by cases e; exact ⟨hw, trivial⟩, fun _ e => by cases e⟩
    · exact ⟨fun _ _ e => (by cases e), fun _ e => by cases e⟩
  · exact ⟨fun _ _ e => (by cases e), fun _ e => by cases e⟩

theorem Keep.writeSize {a n : Nat} (ha : a ≠ o) : Kp (fun _ => True) (writeSize cfg a n) := by
  intro w hw
  unfold Mem.writeSize
  split
  · rename_i s hs
    split
    · exact ⟨fun _ _ e => by cases e; exact ⟨hw.setAny ha fun t e => by cases e; exact hw.others a s ha hs, trivial⟩, fun _ e => by cases e⟩
    · exact ⟨fun _ _ e => (by cases e), fun _ e => by cases e⟩
  · exact ⟨fun _ _ e => (by cases e), fun _ e => by cases e⟩

theorem Keep.dropSlot {a : Nat} (ha : a ≠ o) : Kp (fun _ => True) (dropSlot a) := fun _ hw =>
  ⟨fun _ _ e => by cases e; exact ⟨hw.setAny ha fun _ e => (by cases e), trivial⟩, fun _ e => by cases e⟩

theorem Keep.readObj {p : Ptr} {t : Nat} : Kp (fun _ => True) (readObj p t) := by
  intro w hw
  unfold Mem.readObj
  split
  · split
    · exact ⟨fun _ _ e => by cases e; exact ⟨hw, trivial⟩, fun _ e => by cases e⟩
    · exact ⟨fun _ _ e => (by cases e), fun _ e => by cases e⟩
  · exact ⟨fun _ _ e => (by cases e), fun _ e => by cases e⟩

theorem Keep.construct {a : Nat} {ms : List Method} {al : Nat} {body : M Unit} (ha : a ≠ o) (hb : Kp (fun _ => True) body) :
    Kp (fun _ => True) (construct a ms al body) := by
  intro w hw
  show (∀ x w', (if (w.anys a).isSome then Mem.ub else _ : M Unit) w = .ok x w' → _) ∧ ∀ w', (if (w.anys a).isSome then Mem.ub else _ : M Unit) w = .exn w' → _
  split
  · exact Keep.ub w hw
  · exact (Keep.bind (P := fun _ => True) (m := Mem.setAny a _)
      (fun w hw => ⟨fun _ _ e => by cases e; exact ⟨hw.setAny ha fun t e => by cases e; exact away_data ha, trivial⟩, fun _ e => by cases e⟩)
      fun _ _ => Keep.onFail hb (.dropSlot ha)) w hw

/-! ### The functions of the library -/

theorem Keep.slotTy {s : AnySt} {m : Method} : Kp (fun _ => True) (slotTy s m) := by
  unfold Mem.slotTy
  split
  · exact .ub
  · split
    · exact .ub
    · exact .ite (.pure trivial) .ub

theorem Keep.getMoveFn {s : AnySt} : Kp (fun _ => True) (getMoveFn s) := by
  unfold Mem.getMoveFn
  split
  · exact .slotTy
  · split
    · exact .slotTy
    · exact .ub

theorem Keep.subtablePtr {l l' : List Method} {v : VtPtr} : Kp (fun _ => True) (subtablePtr l l' v) := by
  unfold Mem.subtablePtr
  split
  · exact .pure trivial
  · split
    · exact .pure trivial
    · exact .ub

theorem Keep.destroyValue {a : Nat} (ha : a ≠ o) : Kp (fun _ => True) (destroyValue cfg a) := by
  unfold Mem.destroyValue
  refine Keep.getAny.bind fun s hs => .ite (.pure trivial) (Keep.slotTy.bind fun t _ => ?_)
  dsimp only
  split
  · exact .modifyAny ha (by intro _ h; exact h)
  · exact (Keep.destroyAt (hs ha)).bind fun _ _ => .modifyAny ha (by intro _ h; exact h)

theorem Keep.deallocateMemory {a : Nat} (ha : a ≠ o) : Kp (fun _ => True) (deallocateMemory cfg a) := by
  unfold Mem.deallocateMemory
  exact Keep.getAny.bind fun s hs => .ite .ub (Keep.readSize.bind fun n _ => (Keep.deallocate (hs ha)).bind fun _ _ => .modifyAny ha (by intro _ _; exact away_data ha))

theorem Keep.reset {a : Nat} (ha : a ≠ o) : Kp (fun _ => True) (reset cfg a) := by
  unfold Mem.reset
  exact (Keep.destroyValue ha).bind fun _ _ => Keep.getAny.bind fun s hs => .ite (.deallocateMemory ha) (.pure trivial)

theorem Keep.constructValue {a t : Nat} {arg : Arg} {n : Bool} (ha : a ≠ o) : Kp (fun _ => True) (constructValue cfg a t arg n) := by
  unfold Mem.constructValue
  exact Keep.getAny.bind fun s hs => (Keep.constructAt (hs ha)).bind fun _ _ => .modifyAny ha (by intro _ h; exact h)

theorem Keep.emplaceInEmpty {a t : Nat} {b : Bool} {arg : Arg} {n : Bool} (ha : a ≠ o) : Kp (fun _ => True) (emplaceInEmpty cfg a t b arg n) := by
  unfold Mem.emplaceInEmpty
  exact .ite (.constructValue ha) (Keep.getAny.bind fun s hs => Keep.allocate.bind fun b hb => (Keep.modifyAny ha (by intro _ _; exact hb)).bind fun _ _ =>
    (Keep.writeSize ha).bind fun _ _ => .ite (.constructValue ha) (.onFail (.constructValue ha) (Keep.getAny.bind fun s hs =>
      (Keep.deallocate (hs ha)).bind fun _ _ => .modifyAny ha (by intro _ _; exact away_data ha))))

theorem Keep.emplaceDecayed {a t : Nat} {arg : Arg} {n : Bool} (ha : a ≠ o) : Kp (fun _ => True) (emplaceDecayed cfg a t arg n) := by
  unfold Mem.emplaceDecayed
  exact .noexceptIf ((Keep.destroyValue ha).bind fun _ _ => Keep.getAny.bind fun s hs => .ite (.emplaceInEmpty ha) (Keep.readSize.bind fun n _ =>
    .ite ((Keep.deallocateMemory ha).bind fun _ _ => .emplaceInEmpty ha) (.constructValue ha)))

theorem Keep.emplace {a t : Nat} {arg : Arg} {n : Bool} (ha : a ≠ o) : Kp (fun _ => True) (emplace cfg a t arg n) := .noexceptIf (.emplaceDecayed ha)

theorem Keep.relocate {t : Nat} {src dest : Ptr} (hs : Aw src) (hd : Aw dest) : Kp (fun _ => True) (relocate cfg t src dest) := by
  refine .noexceptIf ?_
  intro w hw
  show (∀ x w', (match cellAt w src with | none => Mem.ub | some o => _ : M Unit) w = .ok x w' → _) ∧
    ∀ w', (match cellAt w src with | none => Mem.ub | some o => _ : M Unit) w = .exn w' → _
  cases hc : cellAt w src with
  | none => exact Keep.ub w hw
  | some ob =>
    dsimp only
    exact (Keep.ite (.ite (.constructAt hd) ((Keep.constructAt hd).bind fun _ _ => .destroyAt hs)) .ub) w hw

theorem Keep.moveValueFrom {r : Bool} {a c : Nat} (ha : a ≠ o) (hc : c ≠ o) : Kp (fun _ => True) (moveValueFrom cfg r a c) := by
  unfold Mem.moveValueFrom
  refine .noexceptIf (Keep.getAny.bind fun s hs => .ite .ub (Keep.getAny.bind fun t ht => ?_))
  have tail : ∀ {v : VtPtr}, Kp (fun _ => True) (do
      let v' ← Mem.subtablePtr s.ms t.ms v
      Mem.modifyAny a (fun s => { s with vt := some v' })
      Mem.modifyAny c (fun t => { t with vt := none })) := fun {v} =>
    Keep.subtablePtr.bind fun _ _ => (Keep.modifyAny ha (by intro _ h; exact h)).bind fun _ _ => .modifyAny hc (by intro _ h; exact h)
  split
  · exact .pure trivial
  · rename_i v hv
    dsimp only
    split
    · exact (Keep.modifyAny hc (by intro _ _; exact away_data hc)).bind fun _ _ => (Keep.modifyAny ha (by intro _ _; exact ht hc)).bind fun _ _ =>
        Keep.readSize.bind fun _ _ => (Keep.writeSize ha).bind fun _ _ => tail
    · split
      · exact Keep.getMoveFn.bind fun _ _ => (Keep.relocate (ht hc) (hs ha)).bind fun _ _ => tail
      · split
        · exact (Keep.modifyAny hc (by intro _ _; exact away_data hc)).bind fun _ _ => (Keep.modifyAny ha (by intro _ _; exact ht hc)).bind fun _ _ =>
            Keep.readSize.bind fun _ _ => (Keep.writeSize ha).bind fun _ _ => tail
        · exact Keep.readSize.bind fun _ _ => Keep.allocate.bind fun b hb => (Keep.modifyAny ha (by intro _ _; exact hb)).bind fun _ _ =>
            (Keep.writeSize ha).bind fun _ _ => (Keep.onFail (Keep.getMoveFn.bind fun _ _ => .relocate (ht hc) hb)
              (Keep.getAny.bind fun s hs => Keep.readSize.bind fun _ _ => (Keep.deallocate (hs ha)).bind fun _ _ =>
                .modifyAny ha (by intro _ _; exact away_data ha))).bind fun _ _ => tail

theorem Keep.copyFn {t : Nat} {src : Ptr} {a : Nat} {dest : Ptr} {al : Nat} (ha : a ≠ o) (hd : Aw dest) : Kp Aw (copyFn cfg t src a dest al) := by
  intro w hw
  show (∀ x w', (match cellAt w src with | none => Mem.ub | some o => _ : M Ptr) w = .ok x w' → _) ∧
    ∀ w', (match cellAt w src with | none => Mem.ub | some o => _ : M Ptr) w = .exn w' → _
  cases hc : cellAt w src with
  | none => exact Keep.ub w hw
  | some ob =>
    dsimp only
    refine (Keep.ite (Keep.countCopy.bind fun _ _ => ?_) .ub : Keep o s0 k0 Aw _) w hw
    refine .ite ((Keep.constructAt hd).bind fun _ _ => .pure hd) (.ite (Keep.allocate.bind fun b hb => (Keep.constructAt hb).bind fun _ _ =>
      (Keep.writeSize ha).bind fun _ _ => .pure hb) (.ite ((Keep.constructAt hd).bind fun _ _ => .pure hd) (Keep.allocate.bind fun b hb => ?_)))
    split
    · exact (Keep.constructAt hb).bind fun _ _ => (Keep.writeSize ha).bind fun _ _ => .pure hb
    · exact (Keep.onFail (.constructAt hb) (.deallocate hb)).bind fun _ _ => (Keep.writeSize ha).bind fun _ _ => .pure hb

theorem Keep.copyCtor {a c : Nat} {ms : List Method} (ha : a ≠ o) : Kp (fun _ => True) (copyCtor cfg a ms c) := by
  unfold Mem.copyCtor
  refine Keep.getAny.bind fun t _ => .construct ha ?_
  split
  · exact .pure trivial
  · exact Keep.getAny.bind fun s hs => Keep.slotTy.bind fun _ _ => (Keep.copyFn ha (hs ha)).bind fun p hp =>
      (Keep.modifyAny ha (by intro _ _; exact hp)).bind fun _ _ => Keep.subtablePtr.bind fun _ _ => .modifyAny ha (by intro _ h; exact h)

theorem Keep.destructor {a : Nat} (ha : a ≠ o) : Kp (fun _ => True) (destructor cfg a) := .noexceptIf ((Keep.reset ha).bind fun _ _ => .dropSlot ha)

theorem Keep.moveAssign {a c : Nat} (ha : a ≠ o) (hc : c ≠ o) : Kp (fun _ => True) (moveAssign cfg a c) := by
  unfold Mem.moveAssign
  refine .noexceptIf (.ite (.pure trivial) (.ite ((Keep.reset ha).bind fun _ _ => .moveValueFrom ha hc) (.ite ?_ ?_)))
  · refine (Keep.reset ha).bind fun _ _ => Keep.getAny.bind fun s hs => Keep.getAny.bind fun t ht => ?_
    dsimp only
    split
    · exact (Keep.modifyAny ha (by intro _ h; exact h)).bind fun _ _ => .moveValueFrom ha hc
    · exact .moveValueFrom ha hc
  · refine (Keep.destroyValue ha).bind fun _ _ => Keep.getAny.bind fun s hs => Keep.getAny.bind fun t ht => .ite ?_
      ((Keep.reset ha).bind fun _ _ => .moveValueFrom ha hc)
    dsimp only
    have tail : ∀ r : Bool, Kp (fun _ => True) (if r = true then do
          let ty ← Mem.getMoveFn t
          Mem.relocate cfg ty t.vp s.vp
          Mem.modifyAny a fun s => { s with vt := t.vt }
          Mem.modifyAny c fun t => { t with vt := none }
        else
          if memAlloc a s = true then do
            Mem.deallocateMemory cfg a
            Mem.moveValueFrom cfg false a c
          else Mem.moveValueFrom cfg false a c) := fun r =>
      .ite (Keep.getMoveFn.bind fun _ _ => (Keep.relocate (ht hc) (hs ha)).bind fun _ _ => (Keep.modifyAny ha (by intro _ h; exact h)).bind fun _ _ =>
        .modifyAny hc (by intro _ h; exact h)) (.ite ((Keep.deallocateMemory ha).bind fun _ _ => .moveValueFrom ha hc) (.moveValueFrom ha hc))
    split
    · exact Keep.readSize.bind fun n _ => Keep.readSize.bind fun k _ => tail (decide (n ≥ k))
    · exact tail false

theorem Keep.copyAssign {a c tmp : Nat} (ha : a ≠ o) (ht : tmp ≠ o) : Kp (fun _ => True) (copyAssign cfg a c tmp) := by
  unfold Mem.copyAssign
  refine Keep.getAny.bind fun t _ => (Keep.copyCtor ht).bind fun _ _ => .finallyDo ?_ (.destructor ht)
  split
  · refine Keep.getAny.bind fun s hs => Keep.getAny.bind fun t _ => ?_
    dsimp only
    split
    · exact (Keep.reset ha).bind fun _ _ => (Keep.modifyAny ha (by intro _ h; exact h)).bind fun _ _ => .moveAssign ha ht
    · exact .moveAssign ha ht
  · exact .moveAssign ha ht

theorem Keep.refTo {c : Nat} {ms : List Method} : Kp (fun _ => True) (refTo c ms) := by
  unfold Mem.refTo
  refine Keep.getAny.bind fun t _ => ?_
  split
  · exact .ub
  · exact Keep.subtablePtr.bind fun _ _ => .pure trivial

theorem Keep.materialize {a : Nat} {ms : List Method} {al : Nat} {r : VtPtr × Ptr} (ha : a ≠ o) : Kp (fun _ => True) (materialize cfg a ms al r) := by
  unfold Mem.materialize
  exact (Keep.construct ha (.pure trivial)).bind fun _ _ => .onFail ((Keep.modifyAny ha (by intro _ h; exact h)).bind fun _ _ => Keep.getAny.bind fun s hs =>
    Keep.slotTy.bind fun _ _ => (Keep.copyFn ha (hs ha)).bind fun p hp => .modifyAny ha (by intro _ _; exact hp)) (.destructor ha)

theorem Keep.descTy {s : AnySt} : Kp (fun _ => True) (descTy s) := by
  unfold Mem.descTy
  split
  · exact .ub
  · exact .slotTy

theorem Keep.anyCastPtr {a t : Nat} : Kp (fun r => ∀ p, r = some p → a ≠ o → Aw p) (anyCastPtr a t) := by
  unfold Mem.anyCastPtr Mem.typeDescriptor
  refine Keep.bind (P := fun _ => True) (Keep.getAny.bind fun s _ => .ite (.pure trivial) (Keep.descTy.bind fun _ _ => .pure trivial)) fun d _ => ?_
  exact .ite (Keep.getAny.bind fun s hs => .pure (fun p e ha => by cases e; exact hs ha)) (.pure fun p e => by cases e)

theorem Keep.writeObj {p : Ptr} {t v : Nat} (hp : Aw p) : Kp (fun _ => True) (writeObj p t v) := Keep.readObj.bind fun _ _ => .setCell hp

theorem Keep.anyCastCopy {a t : Nat} : Kp (fun _ => True) (anyCastCopy cfg a t) := by
  unfold Mem.anyCastCopy
  refine Keep.anyCastPtr.bind fun p _ => ?_
  split
  · exact .throwExn
  · exact Keep.readObj.bind fun _ _ => Keep.mayThrow.bind fun _ _ => .pure trivial

theorem Keep.anyCastMove {a t : Nat} (ha : a ≠ o) : Kp (fun _ => True) (anyCastMove cfg a t) := by
  unfold Mem.anyCastMove
  refine Keep.anyCastPtr.bind fun p hp => ?_
  split
  · exact .throwExn
  · exact Keep.readObj.bind fun _ _ => Keep.mayThrow.bind fun _ _ => (Keep.writeObj (hp _ rfl ha)).bind fun _ _ => .pure trivial

theorem Keep.invokeUser {a m x : Nat} (ha : cfg.kind m = .mutRef → a ≠ o) : Kp (fun _ => True) (invokeUser cfg a m x) := by
  unfold Mem.invokeUser
  refine Keep.getAny.bind fun s hs => Keep.slotTy.bind fun t _ => Keep.readObj.bind fun ob _ => ?_
  split
  · exact Keep.mayThrow.bind fun _ _ => .pure trivial
  · rename_i h
    exact (Keep.onFail .mayThrow (.writeObj (hs (ha h)))).bind fun _ _ => (Keep.writeObj (hs (ha h))).bind fun _ _ => .pure trivial
  · exact Keep.mayThrow.bind fun _ _ => Keep.mayThrow.bind fun _ _ => .pure trivial

theorem Keep.argOf {s : ArgSrc} : Kp (fun _ => True) (argOf s) := by
  cases s
  · exact .pure trivial
  · exact Keep.getAny.bind fun _ _ => .pure trivial

theorem Keep.replaceWithBytes {a n : Nat} (ha : a ≠ o) : Kp (fun _ => True) (replaceWithBytes cfg a n) := by
  unfold Mem.replaceWithBytes
  refine (Keep.destroyValue ha).bind fun _ _ => Keep.getAny.bind fun s _ => ?_
  split
  · exact Keep.readSize.bind fun n _ => .ite (.pure trivial) (Keep.allocate.bind fun b hb =>
      (Keep.deallocateMemory ha).bind fun _ _ => (Keep.modifyAny ha (by intro _ _; exact hb)).bind fun _ _ => .writeSize ha)
  · exact (Keep.pure (P := fun _ => True) trivial).bind fun n _ => .ite (.pure trivial) (Keep.allocate.bind fun b hb =>
      (Keep.modifyAny ha (by intro _ _; exact hb)).bind fun _ _ => .writeSize ha)

theorem Keep.moveCtor {a c : Nat} (ha : a ≠ o) (hc : c ≠ o) : Kp (fun _ => True) (moveCtor cfg a c) :=
  .noexceptIf (Keep.getAny.bind fun _ _ => .construct ha (.moveValueFrom ha hc))

theorem Keep.swapAny {a b tmp : Nat} (ha : a ≠ o) (hb : b ≠ o) (ht : tmp ≠ o) : Kp (fun _ => True) (swapAny cfg a b tmp) :=
  (Keep.moveCtor ht ha).bind fun _ _ => .finallyDo ((Keep.moveAssign ha hb).bind fun _ _ => .moveAssign hb ht) (.destructor ht)

/-- An operation leaves alone what it is not passed as a non-const object. -/
theorem Keep.exec {op : Op} (h : o ∉ op.writes cfg) : Kp (fun _ => True) (exec cfg op) := by
  cases op <;> simp only [Op.writes, List.mem_cons, List.not_mem_nil, or_false, not_or] at h <;> unfold Mem.exec
  case allocCtor => exact .construct (Ne.symm h) (.pure trivial)
  case valueCtor => exact Keep.argOf.bind fun _ _ => .noexceptIf (.construct (Ne.symm h) (.emplaceInEmpty (Ne.symm h)))
  case forceCtor => exact Keep.argOf.bind fun _ _ => .noexceptIf (.construct (Ne.symm h) (.emplaceInEmpty (Ne.symm h)))
  case copyCtor => exact .copyCtor (Ne.symm h)
  case moveCtor => exact .moveCtor (Ne.symm h.1) (Ne.symm h.2)
  case transMoveCtor => exact .noexceptIf (.construct (Ne.symm h.1) (.moveValueFrom (Ne.symm h.1) (Ne.symm h.2)))
  case dtor => exact .destructor (Ne.symm h)
  case copyAssign => exact .copyAssign (Ne.symm h.1) (Ne.symm h.2)
  case moveAssign => exact .moveAssign (Ne.symm h.1) (Ne.symm h.2)
  case emplace => exact Keep.argOf.bind fun _ _ => .emplace (Ne.symm h)
  case reset => exact .reset (Ne.symm h)
  case destroyValue => exact .destroyValue (Ne.symm h)
  case replaceWithBytes => exact .replaceWithBytes (Ne.symm h)
  case mutate =>
    refine Keep.anyCastPtr.bind fun r hr => ?_
    split
    · exact .pure trivial
    · exact .writeObj (hr _ rfl (Ne.symm h))
  case castCopy => exact Keep.anyCastCopy.bind fun _ _ => .pure trivial
  case castMove => exact (Keep.anyCastMove (Ne.symm h)).bind fun _ _ => .pure trivial
  case invoke a m x =>
    refine (Keep.invokeUser fun hk e => ?_).bind fun _ _ => .pure trivial
    rw [hk] at h
    exact h (by rw [e]; exact List.mem_singleton_self _)
  case swap => exact .swapAny (Ne.symm h.1) (Ne.symm h.2.1) (Ne.symm h.2.2)
  case materialize => exact Keep.refTo.bind fun _ _ => .materialize (Ne.symm h)

end AnyAny.Mem
