import Verif.Lemmas.AnyMemRun
/-
Programs all of whose types fit the buffer: `NA m Q`: started in a world without allocated memory, `m` leaves such a world, and its result
satisfies `Q`.
-/
namespace AnyAny.Mem

variable {cfg : Cfg} {α β : Type}

/-- Nothing was ever allocated; every any uses its buffer and contains only types that fit. -/
structure Inl (cfg : Cfg) (w : World) : Prop where
  next : w.nextBlk = 0
  blks : ∀ b, w.blks b = none
  vp : ∀ a s, w.anys a = some s → s.vp = .data a
  vt : ∀ a s v, w.anys a = some s → s.vt = some v → fits cfg v.ty = true

def NARes (cfg : Cfg) (Q : α → Prop) : Res α → Prop
  | .ok a w => Inl cfg w ∧ Q a
  | .exn w => Inl cfg w
  | _ => True

def NA (cfg : Cfg) (m : M α) (Q : α → Prop) : Prop := ∀ w, Inl cfg w → NARes cfg Q (m w)

abbrev NAU (cfg : Cfg) (m : M α) : Prop := NA cfg m fun _ => True

theorem Inl.same {w w' : World} (h : Inl cfg w) (h1 : w'.anys = w.anys) (h2 : w'.blks = w.blks) (h3 : w'.nextBlk = w.nextBlk) : Inl cfg w' :=
  ⟨h3.trans h.next, fun b => by rw [h2]; exact h.blks b, fun a s e => h.vp a s (by rw [← h1]; exact e), fun a s v e => h.vt a s v (by rw [← h1]; exact e)⟩

theorem Inl.set {w : World} (h : Inl cfg w) (a : Nat) (s : AnySt) (h1 : s.vp = .data a) (h2 : ∀ v, s.vt = some v → fits cfg v.ty = true) :
    Inl cfg { w with anys := upd w.anys a (some s) } := by
  refine ⟨h.next, h.blks, fun c t e => ?_, fun c t v e => ?_⟩
  all_goals
    simp only [upd] at e
    split at e
    · rename_i hc
      injection e with e
      subst e hc
      first | exact h1 | exact h2 v
    · first | exact h.vp c t e | exact h.vt c t v e

theorem NA.pure {Q : α → Prop} (a : α) (h : Q a) : NA cfg (pure a : M α) Q := fun _ hw => ⟨hw, h⟩
theorem NA.ub {Q : α → Prop} : NA cfg (ub : M α) Q := fun _ _ => trivial
theorem NA.throwExn {Q : α → Prop} : NA cfg (throwExn : M α) Q := fun _ h => h

theorem NA.weaken {m : M α} {Q R : α → Prop} (h : NA cfg m Q) (hq : ∀ a, Q a → R a) : NA cfg m R := by
  intro w hw
  have := h w hw
  cases e : m w with
  | ok a w' => rw [e] at this; exact ⟨this.1, hq a this.2⟩
  | exn w' => rw [e] at this; exact this
  | ub => trivial
  | term => trivial

theorem NA.bind {m : M α} {k : α → M β} {Q : α → Prop} {R : β → Prop} (hm : NA cfg m Q) (hk : ∀ a, Q a → NA cfg (k a) R) :
    NA cfg (m >>= k) R := by
  intro w hw
  have := hm w hw
  show NARes cfg R (M.bind m k w)
  unfold M.bind
  cases e : m w with
  | ok a w' => rw [e] at this; exact hk a this.2 w' this.1
  | exn w' => rw [e] at this; exact this
  | ub => trivial
  | term => trivial

theorem NA.noexceptIf {b : Bool} {m : M α} {Q : α → Prop} (hm : NA cfg m Q) : NA cfg (noexceptIf b m) Q := by
  intro w hw
  have := hm w hw
  unfold Mem.noexceptIf
  cases e : m w with
  | ok a w' => rw [e] at this; exact this
  | exn w' =>
    rw [e] at this
    cases b
    · exact this
    · trivial
  | ub => trivial
  | term => trivial

theorem NA.onFail {m : M α} {c : M Unit} {Q : α → Prop} (hm : NA cfg m Q) (hc : NAU cfg c) : NA cfg (onFail m c) Q := by
  intro w hw
  have := hm w hw
  unfold Mem.onFail
  cases e : m w with
  | ok a w' => rw [e] at this; exact this
  | exn w' =>
    rw [e] at this
    have h2 := hc w' this
    dsimp only
    cases e2 : c w' with
    | ok a w'' => rw [e2] at h2; exact h2.1
    | exn w'' => trivial
    | ub => trivial
    | term => trivial
  | ub => trivial
  | term => trivial

theorem NA.finallyDo {m : M α} {c : M Unit} {Q : α → Prop} (hm : NA cfg m Q) (hc : NAU cfg c) : NA cfg (finallyDo m c) Q := by
  intro w hw
  have := hm w hw
  unfold Mem.finallyDo
  cases e : m w with
  | ok a w' =>
    rw [e] at this
    have h2 := hc w' this.1
    dsimp only
    cases e2 : c w' with
    | ok b w'' => rw [e2] at h2; exact ⟨h2.1, this.2⟩
    | exn w'' => rw [e2] at h2; exact h2
    | ub => trivial
    | term => trivial
  | exn w' =>
    rw [e] at this
    have h2 := hc w' this
    dsimp only
    cases e2 : c w' with
    | ok b w'' => rw [e2] at h2; exact h2.1
    | exn w'' => trivial
    | ub => trivial
    | term => trivial
  | ub => trivial
  | term => trivial

/-! ### Primitives -/

/-- What is known of an any of such a world. -/
def InlAny (cfg : Cfg) (a : Nat) (s : AnySt) : Prop := s.vp = .data a ∧ ∀ v, s.vt = some v → fits cfg v.ty = true

theorem InlAny.mem {a : Nat} {s : AnySt} (h : InlAny cfg a s) : memAlloc a s = false := by simp [memAlloc, h.1]

theorem NA.getAny {a : Nat} : NA cfg (getAny a) (InlAny cfg a) := by
  intro w hw
  unfold Mem.getAny
  cases e : w.anys a with
  | none => trivial
  | some s => exact ⟨hw, hw.vp a s e, fun v => hw.vt a s v e⟩

theorem NA.getW : NA cfg getW (Inl cfg) := fun _ hw => ⟨hw, hw⟩

theorem NA.setAny {a : Nat} {s : AnySt} (h : InlAny cfg a s) : NAU cfg (setAny a s) := fun _ hw => ⟨hw.set a s h.1 h.2, trivial⟩

theorem NA.modifyAny {a : Nat} {f : AnySt → AnySt} (h : ∀ s, InlAny cfg a s → InlAny cfg a (f s)) : NAU cfg (modifyAny a f) :=
  NA.getAny.bind fun s hs => .setAny (h s hs)

theorem NA.modVt {a : Nat} {v : VtPtr} (h : fits cfg v.ty = true) : NAU cfg (Mem.modifyAny a fun s => { s with vt := some v }) :=
  NA.modifyAny (f := fun s => { s with vt := some v }) fun s hs => ⟨hs.1, fun v' e => by injection e with e; rw [← e]; exact h⟩
theorem NA.modNull {a : Nat} : NAU cfg (Mem.modifyAny a fun s => { s with vt := none }) :=
  NA.modifyAny (f := fun s => { s with vt := none }) fun s hs => ⟨hs.1, fun v' e => nomatch e⟩
theorem NA.modVp {a : Nat} {p : Ptr} (h : p = .data a) : NAU cfg (Mem.modifyAny a fun s => { s with vp := p }) :=
  NA.modifyAny (f := fun s => { s with vp := p }) fun s hs => ⟨h, hs.2⟩
theorem NA.modAl {a l : Nat} : NAU cfg (Mem.modifyAny a fun s => { s with al := l }) :=
  NA.modifyAny (f := fun s => { s with al := l }) fun s hs => ⟨hs.1, hs.2⟩

theorem NA.setCell {p : Ptr} {c : Option Obj} : NAU cfg (setCell p c) := by
  intro w hw
  unfold Mem.setCell
  cases p with
  | data a =>
    dsimp only
    cases e : w.anys a with
    | none => trivial
    | some s => exact ⟨hw.set a { s with buf := .ofCell c } (hw.vp a s e) (fun v => hw.vt a s v e), trivial⟩
  | blk b => dsimp only; rw [hw.blks b]; trivial

theorem NA.throwPoint : NAU cfg (throwPoint cfg) := by
  intro w hw
  unfold Mem.throwPoint
  split
  · exact hw.same rfl rfl rfl
  · exact ⟨hw.same rfl rfl rfl, trivial⟩

theorem NA.mayThrow {b : Bool} : NAU cfg (mayThrow cfg b) := by
  cases b
  · exact .throwPoint
  · exact .pure _ trivial

theorem NA.evalArg {arg : Arg} : NAU cfg (evalArg arg) := by
  intro w hw
  unfold Mem.evalArg
  cases arg with
  | lit v => exact ⟨hw, trivial⟩
  | ref p =>
    dsimp only
    cases cellAt w p with
    | none => trivial
    | some o => exact ⟨hw, trivial⟩

theorem NA.freshObj {t v : Nat} : NAU cfg (freshObj t v) := fun _ hw => ⟨hw.same rfl rfl rfl, trivial⟩
theorem NA.countCopy : NAU cfg countCopy := fun _ hw => ⟨hw.same rfl rfl rfl, trivial⟩

theorem NA.constructAt {p : Ptr} {t : Nat} {arg : Arg} {n : Bool} : NAU cfg (constructAt cfg p t arg n) := by
  unfold Mem.constructAt
  refine NA.getW.bind fun w _ => ?_
  split
  · exact NA.evalArg.bind fun _ _ => (NA.onFail .mayThrow .setCell).bind fun _ _ => NA.freshObj.bind fun _ _ => .setCell
  · exact .ub

theorem NA.destroyAt {p : Ptr} {t : Nat} : NAU cfg (destroyAt p t) := by
  intro w hw
  unfold Mem.destroyAt
  cases cellAt w p with
  | none => trivial
  | some o =>
    dsimp only
    split
    · exact NA.setCell _ (hw.same rfl rfl rfl)
    · trivial

theorem NA.readSize {a : Nat} : NAU cfg (readSize a) := by
  intro w hw
  unfold Mem.readSize
  cases w.anys a with
  | none => trivial
  | some s =>
    dsimp only
    cases s.buf with
    | size n => exact ⟨hw, trivial⟩
    | raw => trivial
    | obj o => trivial

theorem NA.slotTy {s : AnySt} {m : Method} {a : Nat} (h : InlAny cfg a s) : NA cfg (slotTy s m) fun t => fits cfg t = true := by
  unfold Mem.slotTy
  cases e : s.vt with
  | none => exact .ub
  | some v =>
    dsimp only
    cases TypeList.numberOfFirst m s.ms with
    | none => exact .ub
    | some i =>
      dsimp only
      split
      · exact .pure _ (h.2 v e)
      · exact .ub

theorem NA.getMoveFn {s : AnySt} {a : Nat} (h : InlAny cfg a s) : NA cfg (getMoveFn s) fun t => fits cfg t = true := by
  unfold Mem.getMoveFn
  split
  · exact .slotTy h
  · split
    · exact .slotTy h
    · exact .ub

theorem NA.subtablePtr {m1 m2 : List Method} {v : VtPtr} (h : fits cfg v.ty = true) : NA cfg (subtablePtr m1 m2 v) fun v' => fits cfg v'.ty = true := by
  unfold Mem.subtablePtr
  split
  · exact .pure _ h
  · split
    · exact .pure _ h
    · exact .ub

theorem NA.dropSlot {a : Nat} : NAU cfg (dropSlot a) := by
  intro w hw
  refine ⟨⟨hw.next, hw.blks, fun c t e => ?_, fun c t v e => ?_⟩, trivial⟩
  all_goals
    simp only [upd] at e
    split at e
    · cases e
    · first | exact hw.vp c t e | exact hw.vt c t v e

theorem NA.readObj {p : Ptr} {t : Nat} : NAU cfg (readObj p t) := by
  intro w hw
  unfold Mem.readObj
  cases cellAt w p with
  | none => trivial
  | some o =>
    dsimp only
    split
    · exact ⟨hw, trivial⟩
    · trivial

theorem NA.writeObj {p : Ptr} {t v : Nat} : NAU cfg (writeObj p t v) := NA.readObj.bind fun _ _ => .setCell

/-! ### The functions of the library -/

theorem NA.destroyValue {a : Nat} : NAU cfg (destroyValue cfg a) := by
  unfold Mem.destroyValue
  refine NA.getAny.bind fun s hs => ?_
  split
  · exact .pure _ trivial
  · refine (NA.slotTy hs).bind fun t _ => ?_
    dsimp only
    split
    · exact .modNull
    · exact NA.destroyAt.bind fun _ _ => .modNull

theorem NA.reset {a : Nat} : NAU cfg (reset cfg a) := by
  unfold Mem.reset
  refine NA.destroyValue.bind fun _ _ => NA.getAny.bind fun s hs => ?_
  rw [hs.mem]
  exact .pure _ trivial

theorem NA.destructor {a : Nat} : NAU cfg (destructor cfg a) := .noexceptIf (NA.reset.bind fun _ _ => .dropSlot)

theorem NA.constructValue {a t : Nat} {arg : Arg} {n : Bool} (hf : fits cfg t = true) : NAU cfg (constructValue cfg a t arg n) := by
  unfold Mem.constructValue
  exact NA.getAny.bind fun s hs => NA.constructAt.bind fun _ _ =>
    .modifyAny (f := fun s => { s with vt := some ⟨t, s.ms, 0⟩ }) fun s h => ⟨h.1, fun v e => by injection e with e; rw [← e]; exact hf⟩

theorem NA.emplaceInEmpty {a t : Nat} {arg : Arg} {n : Bool} (hf : fits cfg t = true) : NAU cfg (emplaceInEmpty cfg a t false arg n) := by
  unfold Mem.emplaceInEmpty
  rw [hf]
  exact .constructValue hf

theorem NA.emplace {a t : Nat} {arg : Arg} {n : Bool} (hf : fits cfg t = true) : NAU cfg (emplace cfg a t arg n) := by
  unfold Mem.emplace Mem.emplaceDecayed
  refine .noexceptIf (.noexceptIf (NA.destroyValue.bind fun _ _ => NA.getAny.bind fun s hs => ?_))
  rw [hs.mem]
  exact .emplaceInEmpty hf

theorem NA.replaceWithBytes {a n : Nat} (h : n ≤ cfg.soos) : NAU cfg (replaceWithBytes cfg a n) := by
  unfold Mem.replaceWithBytes
  refine NA.destroyValue.bind fun _ _ => NA.getAny.bind fun s hs => ?_
  rw [hs.mem]
  refine NA.bind (Q := fun c => c = cfg.soos) (.pure _ rfl) fun c hc => ?_
  subst hc
  dsimp only
  rw [if_pos h]
  exact .pure _ trivial

theorem NA.relocate {t : Nat} {src dest : Ptr} : NAU cfg (relocate cfg t src dest) := by
  refine .noexceptIf (NA.getW.bind fun w _ => ?_)
  split
  · exact .ub
  · split
    · split
      · exact .constructAt
      · exact NA.constructAt.bind fun _ _ => .destroyAt
    · exact .ub

theorem soos_pos_of_fits {t : Nat} (h : fits cfg t = true) : cfg.soos ≠ 0 := by
  simp only [fits, Bool.and_eq_true, decide_eq_true_eq] at h
  have := (cfg.ty t).sizePos
  omega

theorem NA.moveValueFrom {r : Bool} {a o : Nat} : NAU cfg (moveValueFrom cfg r a o) := by
  unfold Mem.moveValueFrom
  refine .noexceptIf (NA.getAny.bind fun s hs => ?_)
  split
  · exact .ub
  · refine NA.getAny.bind fun t ht => ?_
    split
    · exact .pure _ trivial
    · rename_i v hv
      have hf := ht.2 v hv
      rw [if_neg (soos_pos_of_fits hf), ht.mem]
      refine (NA.getMoveFn ht).bind fun _ _ => NA.relocate.bind fun _ _ => ?_
      exact (NA.subtablePtr hf).bind fun v' hv' => (NA.modVt hv').bind fun _ _ =>
        .modNull

theorem NA.copyFn {t : Nat} {src : Ptr} {a : Nat} {dest : Ptr} {al : Nat} (hf : fits cfg t = true) :
    NA cfg (copyFn cfg t src a dest al) fun p => p = dest := by
  unfold Mem.copyFn
  refine NA.getW.bind fun w _ => ?_
  split
  · exact .ub
  · split
    · refine NA.countCopy.bind fun _ _ => ?_
      rw [hf]
      cases (cfg.ty t).trivCopy
      · exact NA.constructAt.bind fun _ _ => .pure _ rfl
      · exact NA.constructAt.bind fun _ _ => .pure _ rfl
    · exact .ub

theorem NA.construct {a : Nat} {ms : List Method} {al : Nat} {body : M Unit} (hb : NAU cfg body) : NAU cfg (construct a ms al body) := by
  unfold Mem.construct
  refine NA.getW.bind fun w _ => ?_
  split
  · exact .ub
  · exact (NA.setAny ⟨rfl, fun v e => by cases e⟩).bind fun _ _ => .onFail hb .dropSlot

theorem NA.copyCtor {a o : Nat} {ms : List Method} : NAU cfg (copyCtor cfg a ms o) := by
  unfold Mem.copyCtor
  refine NA.getAny.bind fun t ht => .construct ?_
  split
  · exact .pure _ trivial
  · rename_i v hv
    refine NA.getAny.bind fun s hs => (NA.slotTy ht).bind fun ty hty => (NA.copyFn hty).bind fun p hp => ?_
    refine (NA.modVp (hp.trans hs.1)).bind fun _ _ => ?_
    exact (NA.subtablePtr (ht.2 v hv)).bind fun v' hv' => .modVt hv'

theorem NA.moveCtor {a o : Nat} : NAU cfg (moveCtor cfg a o) := .noexceptIf (NA.getAny.bind fun _ _ => .construct .moveValueFrom)

theorem NA.moveAssign {a o : Nat} : NAU cfg (moveAssign cfg a o) := by
  unfold Mem.moveAssign
  refine .noexceptIf ?_
  split
  · exact .pure _ trivial
  · split
    · exact NA.reset.bind fun _ _ => .moveValueFrom
    · split
      · refine NA.reset.bind fun _ _ => NA.getAny.bind fun s hs => NA.getAny.bind fun t ht => ?_
        dsimp only
        split
        · exact NA.modAl.bind fun _ _ => .moveValueFrom
        · exact .moveValueFrom
      · refine NA.destroyValue.bind fun _ _ => NA.getAny.bind fun s hs => NA.getAny.bind fun t ht => ?_
        split
        · rw [hs.mem, ht.mem]
          simp only [Bool.and_false, Bool.false_eq_true, if_false]
          exact .moveValueFrom
        · exact NA.reset.bind fun _ _ => .moveValueFrom

theorem NA.copyAssign {a o tmp : Nat} : NAU cfg (copyAssign cfg a o tmp) := by
  unfold Mem.copyAssign
  refine NA.getAny.bind fun t ht => NA.copyCtor.bind fun _ _ => .finallyDo ?_ .destructor
  dsimp only
  split
  · refine NA.getAny.bind fun s hs => NA.getAny.bind fun t ht => ?_
    split
    · exact NA.reset.bind fun _ _ => NA.modAl.bind fun _ _ => .moveAssign
    · exact .moveAssign
  · exact .moveAssign

theorem NA.swapAny {a b tmp : Nat} : NAU cfg (swapAny cfg a b tmp) :=
  NA.moveCtor.bind fun _ _ => .finallyDo (NA.moveAssign.bind fun _ _ => .moveAssign) .destructor

theorem NA.refTo {o : Nat} {ms : List Method} : NA cfg (refTo o ms) fun r => fits cfg r.1.ty = true := by
  unfold Mem.refTo
  refine NA.getAny.bind fun t ht => ?_
  split
  · exact .ub
  · rename_i v hv
    exact (NA.subtablePtr (ht.2 v hv)).bind fun v' hv' => .pure _ hv'

theorem NA.materialize {a : Nat} {ms : List Method} {al : Nat} {r : VtPtr × Ptr} (hr : fits cfg r.1.ty = true) :
    NAU cfg (materialize cfg a ms al r) := by
  unfold Mem.materialize
  refine (NA.construct (.pure _ trivial)).bind fun _ _ => .onFail ?_ .destructor
  refine (NA.modVt hr).bind fun _ _ => NA.getAny.bind fun s hs => ?_
  refine (NA.slotTy hs).bind fun ty hty => (NA.copyFn hty).bind fun p hp => ?_
  exact .modVp (hp.trans hs.1)

theorem NA.descTy {s : AnySt} {a : Nat} (h : InlAny cfg a s) : NA cfg (descTy s) fun t => fits cfg t = true := by
  unfold Mem.descTy
  split
  · exact .ub
  · exact .slotTy h

theorem NA.anyCastPtr {a t : Nat} : NAU cfg (anyCastPtr a t) := by
  unfold Mem.anyCastPtr Mem.typeDescriptor
  refine NA.bind (Q := fun _ => True) (NA.getAny.bind fun s hs => ?_) fun d _ => ?_
  · split
    · exact .pure _ trivial
    · exact (NA.descTy hs).bind fun _ _ => .pure _ trivial
  · split
    · exact NA.getAny.bind fun s _ => .pure _ trivial
    · exact .pure _ trivial

theorem NA.invokeUser {a m x : Nat} : NAU cfg (invokeUser cfg a m x) := by
  unfold Mem.invokeUser
  refine NA.getAny.bind fun s hs => (NA.slotTy hs).bind fun t _ => NA.readObj.bind fun o _ => ?_
  split
  · exact NA.mayThrow.bind fun _ _ => .pure _ trivial
  · exact (NA.onFail .mayThrow .writeObj).bind fun _ _ => NA.writeObj.bind fun _ _ => .pure _ trivial
  · exact NA.mayThrow.bind fun _ _ => NA.mayThrow.bind fun _ _ => .pure _ trivial

theorem NA.argOf {s : ArgSrc} : NAU cfg (argOf s) := by
  cases s
  · exact .pure _ trivial
  · exact NA.getAny.bind fun _ _ => .pure _ trivial

end AnyAny.Mem
