import Verif.Lemmas.AnyMemLeaf3
namespace AnyAny.Mem
open AnyAny.TypeList
variable {cfg : Cfg}

/-- Copy the object at `src` into the any at `a` (fresh storage), and set its vtable. -/
def copyInto (cfg : Cfg) (a ty : Nat) (src dest : Ptr) (al : Nat) (msTo msFrom : List Method)
    (v : VtPtr) : M Unit := do
  let p ← copyFn cfg ty src a dest al
  modifyAny a (fun s => { s with vp := p })
  let v' ← subtablePtr msTo msFrom v
  modifyAny a (fun s => { s with vt := some v' })

/-- Result of copying into an empty any without memory. -/
def copied (cfg : Cfg) (σ : Abs) (a : Nat) (s : Snap) (ob : Obj) : Abs :=
  if fits cfg ob.ty then
    { σ.set a { s with obj := some ⟨σ.no, ob.ty, ob.val⟩ } with no := σ.no + 1, cp := σ.cp + 1 }
  else
    { σ.set a { s with mem := some (σ.nb, (cfg.ty ob.ty).size), obj := some ⟨σ.no, ob.ty, ob.val⟩ } with
      nb := σ.nb + 1, no := σ.no + 1, cp := σ.cp + 1 }

theorem WF.copies {w : World} (W : WF cfg w) (c : Nat) : WF cfg { w with copies := c } :=
  W.ghost w.tick c

theorem copyInto_spec {w : World} {σ : Abs} {a o : Nat} {s t : Snap} {st tt : AnySt} {v : VtPtr}
    {ob : Obj} (R : Rep cfg w σ) (hne : a ≠ o)
    (hs : σ.snaps a = some s) (ht : σ.snaps o = some t) (ho : s.obj = none) (hm : s.mem = none)
    (hto : t.obj = some ob) (halign : (cfg.ty ob.ty).align ≤ cfg.allocAlign)
    (hal : cfg.copyNeedsAlloc = false → cfg.alwaysEq = true)
    (hi : s.ms <:+: t.ms) (hst : w.anys a = some st) (htt : w.anys o = some tt) (hv : tt.vt = some v) :
    (∃ w', copyInto cfg a ob.ty tt.vp st.vp st.al st.ms tt.ms v w = .ok () w' ∧
      Rep cfg w' (copied cfg σ a s ob)) ∨
    (∃ w' nb', copyInto cfg a ob.ty tt.vp st.vp st.al st.ms tt.ms v w = .exn w' ∧
      Rep cfg w' { σ with nb := nb', cp := σ.cp + 1 }) := by
  obtain ⟨st', D⟩ := R.det hs
  have : st' = st := by have := D.get; rw [hst] at this; injection this with this; exact this.symm
  subst this
  obtain ⟨tt', E⟩ := R.det ht
  have : tt' = tt := by have := E.get; rw [htt] at this; injection this with this; exact this.symm
  subst this
  have W := R.wf
  have ha := D.get
  have hoa := E.get
  have hv0 := D.objNone ho
  have hms := D.ok.destroyIn
  have hd := D.memNone hm
  have hfree := D.ok.empty hv0
  rw [hd] at hfree
  simp only [cellAt, ha, Option.bind_some] at hfree
  have hnone : content w a = none := by rw [D.cont, ho]
  obtain ⟨v0, hv1, hcell, hty, hvt, hlt, hborn, hdt, _, hsz⟩ := E.objSome ob hto
  rw [hv] at hv1; injection hv1 with hv1; subst hv1
  have hi' : st'.ms <:+: tt'.ms := by rw [← D.ms, ← E.ms]; exact hi
  obtain ⟨v', hsub, hty', hvt'⟩ := VtOk.subtable hvt hi' w
  have hsubw := subtable_any hsub
  have hfresh := W.beyondObj w.nextObj (Nat.le_refl _)
  have hobj : σ.no = w.nextObj := R.no.symm
  have hset := Abs.set_self hs
  have hset' : σ = ⟨upd σ.snaps a (some s), σ.nb, σ.no, σ.cp⟩ := hset.symm
  by_cases hf : fits cfg ob.ty = true
  · -- small
    have hstor : storageOk cfg { w with copies := w.copies + 1 } st'.vp ob.ty = true := by
      have := storageOk_of D ho (t := ob.ty) ⟨fun _ => hf, by simp [hm]⟩
      rw [← this]; cases st'.vp <;> rfl
    have harg : evalArg (.ref tt'.vp) { w with copies := w.copies + 1 } = .ok ob.val { w with copies := w.copies + 1 } := by
      have : cellAt { w with copies := w.copies + 1 } tt'.vp = some ob := by rw [← hcell]; cases tt'.vp <;> rfl
      simp [evalArg, this]
    have key : ∃ nt, (∀ r w', constructAt cfg st'.vp ob.ty (.ref tt'.vp) nt { w with copies := w.copies + 1 } = r →
        (r = .ok () w' → copyFn cfg ob.ty tt'.vp a st'.vp st'.al w = .ok st'.vp w') ∧
        (r = .exn w' → copyFn cfg ob.ty tt'.vp a st'.vp st'.al w = .exn w')) := by
      by_cases htc : (cfg.ty ob.ty).trivCopy = true
      · refine ⟨true, ?_⟩
        intro r w' hr
        constructor <;> intro h <;> simp [copyFn, hcell, countCopy, htc, hf, hr, h]
      · refine ⟨(cfg.ty ob.ty).nothrowCopy, ?_⟩
        intro r w' hr
        constructor <;> intro h <;> simp [copyFn, hcell, countCopy, htc, hf, hr, h]
    obtain ⟨nt, key⟩ := key
    rcases constructAt_eval nt hstor harg with ⟨k, he, _⟩ | ⟨_, k, he, _⟩
    · refine Or.inl ?_
      have hcf := (key _ _ he).1 rfl
      let w' : World := { w with copies := w.copies + 1, tick := k, nextObj := w.nextObj + 1, born := upd w.born w.nextObj ob.ty, anys := upd w.anys a (some { st' with buf := .obj ⟨w.nextObj, ob.ty, ob.val⟩, vt := some v' }) }
      have hcn : content w' a = some ⟨w.nextObj, ob.ty, ob.val⟩ := by
        simp [content, w', hd, cellAt, Buf.cell]
      refine ⟨w', ?_, ?_⟩
      · rw [hd] at hcf
        simp [copyInto, hd, hcf, bornAt, putCell, ha, modifyAny, getAny, hsubw, Buf.ofCell, w']
      · refine R.change1 (a := a) (s' := { s with obj := some ⟨σ.no, ob.ty, ob.val⟩ }) ?_ ?_ ?_
        · have hwn : w'.nextBlk = w.nextBlk := rfl
          have hwo : w'.nextObj = w.nextObj + 1 := rfl
          have hwb : ∀ b, w'.blks b = w.blks b := fun _ => rfl
          have hwd : ∀ i, w'.dtors i = w.dtors i := fun _ => rfl
          have hwf : ∀ b, w'.frees b = w.frees b := fun _ => rfl
          have hwbn : ∀ i, w'.born i = if i = w.nextObj then ob.ty else w.born i := fun _ => rfl
          have hwa : ∀ c, w'.anys c = if c = a then some { st' with buf := .obj ⟨w.nextObj, ob.ty, ob.val⟩, vt := some v' } else w.anys c := fun _ => rfl
          clear_value w'
          change_tac W
          rintro c s rfl hs
          rw [hwa] at hs
          simp at hs; subst hs
          refine ⟨hms, Or.inl hd, ?_, by simp⟩
          intro v2 hv2; simp at hv2; subst hv2
          refine ⟨⟨w.nextObj, ob.ty, ob.val⟩, ?_, by simp [hty, hty'], hvt', by simp; omega, by simp [hwbn], by simp [hwd, hfresh], fun _ => hf, ?_⟩
          · simp [hd, cellAt, hwa, Buf.cell]
          · simp [hd]
        · simp only [snap, memOf, hcn]; simp [w', hd, D.ms, D.al, hm, hobj]
        · simp [w', copied, hf, R.nb, R.no, R.cp, Abs.set]
    · refine Or.inr ?_
      have hcf := (key _ _ he).2 rfl
      refine ⟨{ w with copies := w.copies + 1, tick := k, anys := upd w.anys a (some { st' with buf := .raw }) }, σ.nb, ?_, ?_⟩
      · rw [hd] at hcf
        simp [copyInto, hd, hcf, putCell, ha, Buf.ofCell]
      · refine R.change1 (a := a) (s' := s) ?_ ?_ ?_
        · have hcn : content { w with copies := w.copies + 1, tick := k, anys := upd w.anys a (some { st' with buf := .raw }) } a = none := by
            simp [content, hv0]
          change_tac W
          rintro c s rfl hs
          simp at hs; subst hs
          exact ⟨hms, Or.inl hd, by simp [hv0], by simp [hd, cellAt, Buf.cell, cellFree]⟩
        · simp [snap, memOf, content, hd, hv0]
          exact Snap.mk_eq D.ms D.al hm ho
        · simp only [R.nb, R.cp, R.no]
          rw [hset']; simp
  · -- big
    have hal0 : allocEq cfg (if cfg.copyNeedsAlloc then st'.al else cfg.defaultAlloc) st'.al = true := by
      split
      · exact allocEq_refl _
      · rename_i h; simp [allocEq, hal (by simpa using h)]
    generalize hq : (if cfg.copyNeedsAlloc then st'.al else cfg.defaultAlloc) = al0 at hal0
    have hf' : fits cfg ob.ty = false := by simpa using hf
    by_cases hflt : cfg.faults w.tick = true
    · refine Or.inr ⟨{ w with copies := w.copies + 1, tick := w.tick + 1 }, σ.nb, ?_, ?_⟩
      · by_cases htc : (cfg.ty ob.ty).trivCopy = true <;>
          simp [copyInto, copyFn, hcell, countCopy, htc, hf', allocate, throwPoint, hflt]
      · exact ⟨W.ghost _ _, R.snaps, R.nb, R.no, by simp [R.cp]⟩
    · let w1 : World := { w with copies := w.copies + 1, tick := w.tick + 1, nextBlk := w.nextBlk + 1, blks := upd w.blks w.nextBlk (some ⟨(cfg.ty ob.ty).size, al0, none⟩) }
      have hcell1 : cellAt w1 tt'.vp = some ob := by
        rw [← hcell]
        cases hp : tt'.vp with
        | data d => rfl
        | blk b =>
          obtain ⟨k, hk, _⟩ := vp_blk W hoa hp
          have := blk_lt W hk
          simp only [cellAt, w1, upd]; rw [if_neg (by omega)]
      have hstor : storageOk cfg w1 (.blk w.nextBlk) ob.ty = true := by
        simp [storageOk, w1, cellFree, halign]
      have harg : evalArg (.ref tt'.vp) w1 = .ok ob.val w1 := by simp [evalArg, hcell1]
      have key : ∃ nt, (∀ r w', constructAt cfg (.blk w.nextBlk) ob.ty (.ref tt'.vp) nt w1 = r →
          (r = .ok () w' → copyFn cfg ob.ty tt'.vp a st'.vp st'.al w =
            (do writeSize cfg a (cfg.ty ob.ty).size; pure (.blk w.nextBlk) : M Ptr) w') ∧
          (r = .exn w' → nt = false → copyFn cfg ob.ty tt'.vp a st'.vp st'.al w =
            match deallocate cfg al0 (.blk w.nextBlk) (cfg.ty ob.ty).size w' with
            | .ok _ w'' => .exn w''
            | .exn _ => .term
            | .ub => .ub
            | .term => .term)) := by
        by_cases htc : (cfg.ty ob.ty).trivCopy = true
        · refine ⟨true, ?_⟩
          intro r w' hr
          constructor
          · intro h; simp [copyFn, hcell, countCopy, htc, hf', allocate, throwPoint, hflt, hq, w1] at hr ⊢
            simp [hr, h]
          · intro _ h; simp at h
        · by_cases hnc : (cfg.ty ob.ty).nothrowCopy = true
          · refine ⟨true, ?_⟩
            intro r w' hr
            constructor
            · intro h; simp [copyFn, hcell, countCopy, htc, hf', allocate, throwPoint, hflt, hq, hnc, w1] at hr ⊢
              simp [hr, h]
            · intro _ h; simp at h
          · refine ⟨false, ?_⟩
            intro r w' hr
            constructor
            · intro h; simp [copyFn, hcell, countCopy, htc, hf', allocate, throwPoint, hflt, hq, hnc, w1] at hr ⊢
              simp [onFail, hr, h]
            · intro h _; simp [copyFn, hcell, countCopy, htc, hf', allocate, throwPoint, hflt, hq, hnc, w1] at hr ⊢
              simp only [onFail, hr, h]
              cases deallocate cfg al0 (.blk w.nextBlk) (cfg.ty ob.ty).size w' <;> rfl
      obtain ⟨nt, key⟩ := key
      rcases constructAt_eval nt hstor harg with ⟨k, he, _⟩ | ⟨hnt, k, he, _⟩
      · refine Or.inl ?_
        have hcf := (key _ _ he).1 rfl
        let w' : World := { w with copies := w.copies + 1, tick := k, nextBlk := w.nextBlk + 1, nextObj := w.nextObj + 1, born := upd w.born w.nextObj ob.ty, blks := upd w.blks w.nextBlk (some ⟨(cfg.ty ob.ty).size, al0, some ⟨w.nextObj, ob.ty, ob.val⟩⟩), anys := upd w.anys a (some { st' with vp := .blk w.nextBlk, buf := .size (cfg.ty ob.ty).size, vt := some v' }) }
        have hcn : content w' a = some ⟨w.nextObj, ob.ty, ob.val⟩ := by
          simp [content, w', cellAt]
        refine ⟨w', ?_, ?_⟩
        · simp [copyInto, hcf, bornAt, putCell, ha, modifyAny, getAny, hsubw, writeSize, hfree, w', w1]
        · refine R.change1 (a := a) (s' := { s with mem := some (σ.nb, (cfg.ty ob.ty).size), obj := some ⟨σ.no, ob.ty, ob.val⟩ }) ?_ ?_ ?_
          · have hwn : w'.nextBlk = w.nextBlk + 1 := rfl
            have hwo : w'.nextObj = w.nextObj + 1 := rfl
            have hwb : ∀ b, w'.blks b = if b = w.nextBlk then some ⟨(cfg.ty ob.ty).size, al0, some ⟨w.nextObj, ob.ty, ob.val⟩⟩ else w.blks b := fun _ => rfl
            have hwd : ∀ i, w'.dtors i = w.dtors i := fun _ => rfl
            have hwf : ∀ b, w'.frees b = w.frees b := fun _ => rfl
            have hwbn : ∀ i, w'.born i = if i = w.nextObj then ob.ty else w.born i := fun _ => rfl
            have hwa : ∀ c, w'.anys c = if c = a then some { st' with vp := .blk w.nextBlk, buf := .size (cfg.ty ob.ty).size, vt := some v' } else w.anys c := fun _ => rfl
            clear_value w'
            change_tac W
            rintro c s rfl hs
            rw [hwa] at hs
            simp at hs; subst hs
            refine ⟨hms, Or.inr ⟨w.nextBlk, _, rfl, by rw [hwb, if_pos rfl], rfl, hal0⟩, ?_, by simp⟩
            intro v2 hv2; simp at hv2; subst hv2
            refine ⟨⟨w.nextObj, ob.ty, ob.val⟩, ?_, by simp [hty, hty'], hvt', by simp; omega, by simp [hwbn], by simp [hwd, hfresh], by simp, ?_⟩
            · simp [cellAt, hwb]
            · intro b2 k2 hb2 hk2
              simp only [Ptr.blk.injEq] at hb2; subst hb2
              rw [hwb, if_pos rfl] at hk2; injection hk2 with hk2; subst hk2; simp
          · simp only [snap, memOf, hcn]; simp [w', D.ms, D.al, hobj, R.nb]
          · simp [w', copied, hf, R.nb, R.no, R.cp, Abs.set]
      · refine Or.inr ?_
        have hcf := (key _ _ he).2 rfl hnt
        refine ⟨{ w with copies := w.copies + 1, tick := k, nextBlk := w.nextBlk + 1, blks := upd w.blks w.nextBlk none, frees := upd w.frees w.nextBlk (w.frees w.nextBlk + 1) }, σ.nb + 1, ?_, ?_⟩
        · simp [copyInto, hcf, putCell, deallocate, w1, allocEq_refl, cellFree]
        · refine R.change1 (a := a) (s' := s) ?_ ?_ ?_
          · have hcn : content { w with copies := w.copies + 1, tick := k, nextBlk := w.nextBlk + 1, blks := upd w.blks w.nextBlk none, frees := upd w.frees w.nextBlk (w.frees w.nextBlk + 1) } a = none := by
              simp [content, hv0, ha]
            change_tac W
            rintro c s rfl hs
            simp [ha] at hs; subst hs
            exact ⟨hms, Or.inl hd, by simp [hv0], by simp [hd, cellAt, ha, hfree]⟩
          · simp [snap, memOf, content, hd, hv0, ha]
            exact Snap.mk_eq D.ms D.al hm ho
          · simp only [R.nb, R.cp, R.no]
            rw [hset']; simp

/-- A fresh slot: a default-constructed any. -/
theorem newSlot_spec {w : World} {σ : Abs} {a al : Nat} {ms : List Method} (R : Rep cfg w σ)
    (hs : σ.snaps a = none) (hd : .destroy ∈ ms) :
    Rep cfg { w with anys := upd w.anys a (some ⟨ms, none, .data a, .raw, al⟩) }
      (σ.set a ⟨ms, al, none, none⟩) := by
  have W := R.wf
  have ha : w.anys a = none := by
    rw [← R.snaps] at hs
    cases h : w.anys a with
    | none => rfl
    | some s => simp [snap, h] at hs
  have hc0 : content w a = none := by simp [content, ha]
  refine R.change1 (a := a) (s' := ⟨ms, al, none, none⟩) ?_ ?_ ?_
  · have hcn : content { w with anys := upd w.anys a (some ⟨ms, none, .data a, .raw, al⟩) } a = none := by
      simp [content]
    change_tac W
    rintro c s rfl hs
    simp at hs; subst hs
    exact ⟨hd, Or.inl rfl, by simp, by simp [cellAt, Buf.cell, cellFree]⟩
  · simp [snap, memOf, content]
  · simp [Abs.set, R.nb, R.no, R.cp]

def Abs.del (σ : Abs) (a : Nat) : Abs := { σ with snaps := upd σ.snaps a none }

/-- A slot with an empty any that owns no memory disappears. -/
theorem dropSlot_spec {w : World} {σ : Abs} {a : Nat} {s : Snap} (R : Rep cfg w σ)
    (hs : σ.snaps a = some s) (ho : s.obj = none) (hm : s.mem = none) :
    Rep cfg { w with anys := upd w.anys a none } (σ.del a) := by
  obtain ⟨st, D⟩ := R.det hs
  have W := R.wf
  have ha := D.get
  have hd := D.memNone hm
  have hc0 : content w a = none := by rw [D.cont, ho]
  have hcn : content { w with anys := upd w.anys a none } a = none := by simp [content]
  have C : Change cfg (· = a) w { w with anys := upd w.anys a none } := by
    change_tac W
    rintro c s rfl hs
    simp at hs
  refine ⟨C.wf W, ?_, R.nb, R.no, R.cp⟩
  funext c
  by_cases hc : c = a
  · subst hc; simp [snap, Abs.del]
  · rw [C.snap_eq W hc, R.snaps]; simp [upd, hc, Abs.del]

/-- Assigning a new allocator to an any without memory. -/
theorem setAl_spec {w : World} {σ : Abs} {a al : Nat} {s : Snap} (R : Rep cfg w σ)
    (hs : σ.snaps a = some s) (hm : s.mem = none) (ho : s.obj = none) :
    ∃ w', modifyAny a (fun s => { s with al := al }) w = .ok () w' ∧ Rep cfg w' (σ.set a { s with al := al }) := by
  obtain ⟨st, D⟩ := R.det hs
  have W := R.wf
  have ha := D.get
  have hd := D.memNone hm
  have hms := D.ok.destroyIn
  have hv0 := D.objNone ho
  have hc0 : content w a = none := by rw [D.cont, ho]
  have hfree := D.ok.empty hv0
  rw [hd] at hfree
  simp only [cellAt, ha, Option.bind_some] at hfree
  refine ⟨_, modifyAny_some _ ha, ?_⟩
  refine R.change1 (a := a) (s' := { s with al := al }) ?_ ?_ ?_
  · have hcn : content { w with anys := upd w.anys a (some { st with al := al }) } a = none := by
      simp [content, hv0]
    change_tac W
    rintro c s rfl hs
    simp at hs; subst hs
    exact ⟨hms, Or.inl hd, by simp [hv0], by simp [hd, cellAt, hfree]⟩
  · simp [snap, memOf, content, hd, hv0, D.ms, hm, ho]
  · simp [Abs.set, R.nb, R.no, R.cp]

/-- Writing through a reference to the contained object. -/
theorem writeObj_spec {w : World} {σ : Abs} {a x : Nat} {s : Snap} {ob : Obj} (R : Rep cfg w σ)
    (hs : σ.snaps a = some s) (ho : s.obj = some ob) :
    ∃ w', writeObj (s.loc a) ob.ty x w = .ok () w' ∧
      Rep cfg w' (σ.set a { s with obj := some { ob with val := x } }) := by
  obtain ⟨st, D⟩ := R.det hs
  have W := R.wf
  have ha := D.get
  have hms := D.ok.destroyIn
  obtain ⟨v, hv, hcell, hty, hvt, hlt, hborn, hdt, hfit, hsz⟩ := D.objSome ob ho
  have hc0 : content w a = some ob := by rw [D.cont, ho]
  rw [D.loc]
  cases hm : s.mem with
  | none =>
    have hd := D.memNone hm
    rw [hd] at hcell
    refine ⟨{ w with anys := upd w.anys a (some { st with buf := .obj { ob with val := x } }) }, ?_, ?_⟩
    · simp [writeObj, readObj, hd, hcell, setCell, ha, Buf.ofCell]
    · refine R.change1 (a := a) (s' := { s with obj := some { ob with val := x } }) ?_ ?_ ?_
      · have hcn : content { w with anys := upd w.anys a (some { st with buf := .obj { ob with val := x } }) } a = some { ob with val := x } := by
          simp [content, hv, hd, cellAt, Buf.cell]
        change_tac W
        rintro c s rfl hs
        simp at hs; subst hs
        refine ⟨hms, Or.inl hd, ?_, by simp [hv]⟩
        intro v2 hv2
        simp only [hv, Option.some.injEq] at hv2; subst hv2
        exact ⟨{ ob with val := x }, by simp [hd, cellAt, Buf.cell], hty, hvt, hlt, hborn, hdt, hfit, by simp [hd]⟩
      · simp [snap, memOf, content, hd, hv, D.ms, D.al, hm, cellAt, Buf.cell]
      · simp [Abs.set, R.nb, R.no, R.cp, hm]
  | some p =>
    obtain ⟨b, n⟩ := p
    obtain ⟨k, hb, hk, hn, hbuf, hkal⟩ := D.memSome b n hm
    rw [hb] at hcell
    have hfr := W.freed b (blk_lt W hk)
    have hsz' := hsz b k hb hk
    refine ⟨{ w with blks := upd w.blks b (some { k with cell := some { ob with val := x } }) }, ?_, ?_⟩
    · simp [writeObj, readObj, hb, hcell, setCell, hk]
    · refine R.change1 (a := a) (s' := { s with obj := some { ob with val := x } }) ?_ ?_ ?_
      · have hcn : content { w with blks := upd w.blks b (some { k with cell := some { ob with val := x } }) } a = some { ob with val := x } := by
          simp [content, hv, hb, cellAt, ha]
        change_tac W
        rintro c s rfl hs
        simp [ha] at hs; subst hs
        refine ⟨hms, Or.inr ⟨b, { k with cell := some { ob with val := x } }, hb, by simp, by simp [hbuf, hn], hkal⟩, ?_, by simp [hv]⟩
        intro v2 hv2
        simp only [hv, Option.some.injEq] at hv2; subst hv2
        refine ⟨{ ob with val := x }, by simp [hb, cellAt], hty, hvt, hlt, hborn, hdt, by simp [hb], ?_⟩
        intro b2 k2 hb2 hk2
        simp only [hb, Ptr.blk.injEq] at hb2; subst hb2
        simp at hk2; subst hk2; exact hsz'
      · simp [snap, memOf, content, hb, hv, D.ms, D.al, hm, cellAt, ha, hn]
      · simp [Abs.set, R.nb, R.no, R.cp, hm]

/-- Replacing the memory of an empty any (`replace_with_bytes`, when memory was already allocated). -/
theorem swapMem_spec {w : World} {σ : Abs} {a b m n : Nat} {s : Snap} {st : AnySt} (R : Rep cfg w σ)
    (hs : σ.snaps a = some s) (ho : s.obj = none) (hm : s.mem = some (b, m)) (hst : w.anys a = some st) :
    (∃ w', (do
        let b ← allocate cfg st.al n
        deallocateMemory cfg a
        modifyAny a (fun s => { s with vp := .blk b })
        writeSize cfg a n : M Unit) w = .ok () w' ∧
      Rep cfg w' { σ.set a { s with mem := some (σ.nb, n) } with nb := σ.nb + 1 }) ∨
    (∃ w', (do
        let b ← allocate cfg st.al n
        deallocateMemory cfg a
        modifyAny a (fun s => { s with vp := .blk b })
        writeSize cfg a n : M Unit) w = .exn w' ∧ Rep cfg w' σ) := by
  obtain ⟨st', D⟩ := R.det hs
  have : st' = st := by have := D.get; rw [hst] at this; injection this with this; exact this.symm
  subst this
  have W := R.wf
  have ha := D.get
  obtain ⟨k, hb, hk, hn, hbuf, hal⟩ := D.memSome b m hm
  have hv := D.objNone ho
  have hfree := D.ok.empty hv
  have hms := D.ok.destroyIn
  simp only [hb, cellAt, hk, Option.bind_some] at hfree
  have hnone : content w a = none := by rw [D.cont, ho]
  have hlt := blk_lt W hk
  have hne : b ≠ w.nextBlk := by omega
  have hfr := W.freed b hlt
  simp only [hk, Option.isSome_some, if_true] at hfr
  by_cases hf : cfg.faults w.tick = true
  · exact Or.inr ⟨{ w with tick := w.tick + 1 }, by simp [allocate, throwPoint, hf], R.tick _⟩
  · let w' : World := { w with tick := w.tick + 1, nextBlk := w.nextBlk + 1, anys := upd w.anys a (some { st' with vp := .blk w.nextBlk, buf := .size n }), blks := upd (upd w.blks w.nextBlk (some ⟨n, st'.al, none⟩)) b none, frees := upd w.frees b (w.frees b + 1) }
    have hcn : content w' a = none := by simp [content, w', hv]
    have hcf0 : cellFree cfg none = true := rfl
    have hne2 : σ.nb ≠ b := by rw [← R.nb]; exact Ne.symm hne
    refine Or.inl ⟨w', ?_, ?_⟩
    · simp [allocate, throwPoint, hf, deallocateMemory, getAny, ha, hv, memAlloc, hb, readSize, hbuf,
        deallocate, upd_other _ _ _ _ hne, hk, hn, hal, hfree, modifyAny, writeSize, Buf.cell, hcf0, w']
    · refine R.change1 (a := a) (s' := { s with mem := some (σ.nb, n) }) ?_ ?_ ?_
      · have hwn : w'.nextBlk = w.nextBlk + 1 := rfl
        have hwo : w'.nextObj = w.nextObj := rfl
        have hwb : ∀ c, w'.blks c = if c = b then none else if c = w.nextBlk then some ⟨n, st'.al, none⟩ else w.blks c := fun _ => rfl
        have hwd : ∀ i, w'.dtors i = w.dtors i := fun _ => rfl
        have hwf : ∀ c, w'.frees c = if c = b then w.frees b + 1 else w.frees c := fun _ => rfl
        have hwbn : ∀ i, w'.born i = w.born i := fun _ => rfl
        have hwa : ∀ c, w'.anys c = if c = a then some { st' with vp := .blk w.nextBlk, buf := .size n } else w.anys c := fun _ => rfl
        clear_value w'
        change_tac W
        rintro c s rfl hs
        rw [hwa] at hs
        simp at hs; subst hs
        refine ⟨hms, Or.inr ⟨w.nextBlk, ⟨n, st'.al, none⟩, rfl, by rw [hwb, if_neg (Ne.symm hne), if_pos rfl], rfl, allocEq_refl _⟩, by simp [hv], ?_⟩
        simp [cellAt, hwb, Ne.symm hne, cellFree]
      · simp only [snap, memOf, hcn]; simp [w', upd, D.ms, D.al, R.nb, ho, hne2]
      · simp [w', R.nb, R.no, R.cp, Abs.set]

end AnyAny.Mem
