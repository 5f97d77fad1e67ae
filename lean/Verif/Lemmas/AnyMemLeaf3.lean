import Verif.Lemmas.AnyMemLeaf2
namespace AnyAny.Mem
open AnyAny.TypeList
variable {cfg : Cfg}

theorem subtable_any {msTo msFrom : List Method} {v v' : VtPtr} {w : World}
    (h : subtablePtr msTo msFrom v w = .ok v' w) (w2 : World) :
    subtablePtr msTo msFrom v w2 = .ok v' w2 := by
  unfold subtablePtr at h ⊢
  by_cases he : msTo = msFrom
  · simp only [he, ↓reduceIte, pure_apply, Res.ok.injEq, and_true] at h ⊢; exact h
  · simp only [he, ↓reduceIte] at h ⊢
    cases hfs : findSubsequence msTo msFrom with
    | none => simp [hfs] at h
    | some i => simp only [hfs, pure_apply, Res.ok.injEq, and_true] at h ⊢; exact h

theorem cellAt_putCell_ne {w : World} {p q : Ptr} (c : Option Obj) (hne : q ≠ p) :
    cellAt (putCell w p c) q = cellAt w q := by
  cases p with
  | data a =>
    cases hs : w.anys a with
    | none => simp [putCell, hs]
    | some s =>
      cases q with
      | data d =>
        have : d ≠ a := fun h => hne (by rw [h])
        simp [putCell, hs, cellAt, upd, this]
      | blk d => simp [putCell, hs, cellAt]
  | blk b =>
    cases hs : w.blks b with
    | none => simp [putCell, hs]
    | some s =>
      cases q with
      | data d => simp [putCell, hs, cellAt]
      | blk d =>
        have : d ≠ b := fun h => hne (by rw [h])
        simp [putCell, hs, cellAt, upd, this]

theorem cellAt_bornAt_ne {w : World} {p q : Ptr} (t v : Nat) (hne : q ≠ p) :
    cellAt (bornAt w p t v) q = cellAt w q := by
  unfold bornAt
  rw [cellAt_putCell_ne _ hne]
  cases q <;> rfl

theorem setCell_cell {w : World} {p : Ptr} {o : Obj} (h : cellAt w p = some o) (c : Option Obj) (d) :
    setCell p c { w with dtors := d } = .ok () (putCell { w with dtors := d } p c) := by
  cases p with
  | data a =>
    cases hs : w.anys a with
    | none => simp [cellAt, hs] at h
    | some s => simp [setCell, putCell, hs]
  | blk b =>
    cases hs : w.blks b with
    | none => simp [cellAt, hs] at h
    | some s => simp [setCell, putCell, hs]

/-- The object `ob` at `src` is destroyed. -/
def destroyedAt (w : World) (src : Ptr) (ob : Obj) : World :=
  putCell { w with dtors := upd w.dtors ob.id (w.dtors ob.id + 1) } src none

theorem destroyAt_eval {w : World} {p : Ptr} {ob : Obj} (h : cellAt w p = some ob) :
    destroyAt p ob.ty w = .ok () (destroyedAt w p ob) := by
  simp [destroyAt, h, destroyedAt, setCell_cell h]

theorem relocate_eval {w : World} {src dest : Ptr} {ob : Obj} (h : cellAt w src = some ob)
    (hne : src ≠ dest) (hst : storageOk cfg w dest ob.ty = true) :
    ((cfg.ty ob.ty).trivCopy = true ∧ (cfg.ty ob.ty).trivDestr = true ∧
      relocate cfg ob.ty src dest w = .ok () (bornAt w dest ob.ty ob.val)) ∨
    (∃ k, relocate cfg ob.ty src dest w =
      .ok () (destroyedAt (bornAt { w with tick := k } dest ob.ty ob.val) src ob) ∧
      ((cfg.ty ob.ty).nothrowReloc = false → cfg.faults w.tick = false)) ∨
    ((cfg.ty ob.ty).nothrowReloc = false ∧ relocate cfg ob.ty src dest w = .term ∧ cfg.faults w.tick = true) := by
  have harg : evalArg (.ref src) w = .ok ob.val w := by simp [evalArg, h]
  by_cases htr : ((cfg.ty ob.ty).trivCopy && (cfg.ty ob.ty).trivDestr) = true
  · refine Or.inl ?_
    have ⟨h1, h2⟩ : (cfg.ty ob.ty).trivCopy = true ∧ (cfg.ty ob.ty).trivDestr = true := by
      simpa using htr
    refine ⟨h1, h2, ?_⟩
    have hfresh : constructAt cfg dest ob.ty (.ref src) true w = .ok () (bornAt w dest ob.ty ob.val) := by
      have h1 := fun c w' ha hb => setCell_of_storage hst c w' ha hb
      simp [constructAt, hst, harg, onFail, mayThrow, freshObj, bornAt, h1]
    simp [relocate, noexceptIf, h, h1, h2, hfresh]
  · refine Or.inr ?_
    rcases constructAt_eval (cfg.ty ob.ty).nothrowMove hst harg with ⟨k, he, hq⟩ | ⟨hn, k, he, hq⟩
    · refine Or.inl ⟨k, ?_, fun hr => hq (by simp only [TyInfo.nothrowReloc, Bool.or_eq_false_iff] at hr; exact hr.2)⟩
      have hcell : cellAt (bornAt { w with tick := k } dest ob.ty ob.val) src = some ob := by
        rw [cellAt_bornAt_ne _ _ hne]; rw [← h]; cases src <;> rfl
      have hd := destroyAt_eval hcell
      simp only [Bool.not_eq_true] at htr
      simp [relocate, noexceptIf, h, htr, he, hd]
    · refine Or.inr ⟨?_, ?_, hq⟩
      · simp only [Bool.not_eq_true] at htr
        simp [TyInfo.nothrowReloc, htr, hn]
      · simp only [Bool.not_eq_true] at htr
        simp [relocate, noexceptIf, h, htr, he]

/-- Relocate the value of `o` into the storage of `a` and hand over the vtable. -/
def moveObj (cfg : Cfg) (a o ty : Nat) (src dest : Ptr) (msTo msFrom : List Method) (v : VtPtr) :
    M Unit := do
  relocate cfg ty src dest
  let v' ← subtablePtr msTo msFrom v
  modifyAny a (fun s => { s with vt := some v' })
  modifyAny o (fun t => { t with vt := none })

theorem moveObj_spec {w : World} {σ : Abs} {a o : Nat} {s t : Snap} {st tt : AnySt} {v : VtPtr}
    {ob : Obj} (R : Rep cfg w σ) (hne : a ≠ o)
    (hs : σ.snaps a = some s) (ht : σ.snaps o = some t) (ho : s.obj = none)
    (hto : t.obj = some ob) (hsuit : Suits cfg s ob.ty) (hsame : s.mem.isSome = t.mem.isSome)
    (hi : s.ms <:+: t.ms) (hst : w.anys a = some st) (htt : w.anys o = some tt) (hv : tt.vt = some v) :
    (∃ w', moveObj cfg a o ob.ty tt.vp st.vp st.ms tt.ms v w = .ok () w' ∧
      Rep cfg w' { σ.set2 o { t with obj := none } a { s with obj := some ⟨σ.no, ob.ty, ob.val⟩ } with no := σ.no + 1 } ∧
      ((cfg.ty ob.ty).nothrowReloc = false → cfg.faults w.tick = false)) ∨
    ((cfg.ty ob.ty).nothrowReloc = false ∧
      moveObj cfg a o ob.ty tt.vp st.vp st.ms tt.ms v w = .term ∧ cfg.faults w.tick = true) := by
  obtain ⟨st', D⟩ := R.det hs
  have : st' = st := by have := D.get; rw [hst] at this; injection this with this; exact this.symm
  subst this
  obtain ⟨tt', E⟩ := R.det ht
  have : tt' = tt := by have := E.get; rw [htt] at this; injection this with this; exact this.symm
  subst this
  have W := R.wf
  have ha := D.get
  have hoa := E.get
  have hv0 := D.objNone ho
  have hms := D.ok.destroyIn
  have hmso := E.ok.destroyIn
  have hnone : content w a = none := by rw [D.cont, ho]
  obtain ⟨v0, hv1, hcell, hty, hvt, hlt, hborn, hdt, _, hsz⟩ := E.objSome ob hto
  rw [hv] at hv1; injection hv1 with hv1; subst hv1
  have hsome : content w o = some ob := by rw [E.cont, hto]
  have hi' : st'.ms <:+: tt'.ms := by rw [← D.ms, ← E.ms]; exact hi
  obtain ⟨v', hsub, hty', hvt'⟩ := VtOk.subtable hvt hi' w
  have hsubw := subtable_any hsub
  have hstor := storageOk_of D ho hsuit
  have hpne : tt'.vp ≠ st'.vp := by
    intro he
    cases hm : s.mem with
    | none =>
      rw [D.memNone hm] at he
      cases hm2 : t.mem with
      | none => rw [E.memNone hm2] at he; injection he with he; exact hne he.symm
      | some p => simp [hm, hm2] at hsame
    | some p =>
      obtain ⟨b, n⟩ := p
      obtain ⟨k, hb, hk, _⟩ := D.memSome b n hm
      rw [hb] at he
      exact hne (W.blkInj o tt' a st' b hoa ha he hb).symm
  have hfresh := W.beyondObj w.nextObj (Nat.le_refl _)
  have hobj : σ.no = w.nextObj := R.no.symm
  have hdest : ∀ b n k, s.mem = some (b, n) → w.blks b = some k → (cfg.ty ob.ty).size ≤ k.size := by
    intro b n k hb hk
    obtain ⟨k2, hb2, hk2, hn2, _⟩ := D.memSome b n hb
    rw [hk] at hk2; injection hk2 with hk2; subst hk2
    have := (hsuit.2 b n hb).1; omega
  -- the two shapes
  have main : ∀ w1, (w1 = bornAt w st'.vp ob.ty ob.val ∧ (cfg.ty ob.ty).trivDestr = true ∨
        (∃ k, w1 = destroyedAt (bornAt { w with tick := k } st'.vp ob.ty ob.val) tt'.vp ob)) →
      ∃ w', (do
        let v' ← subtablePtr st'.ms tt'.ms v
        modifyAny a (fun s => { s with vt := some v' })
        modifyAny o (fun t => { t with vt := none }) : M Unit) w1 = .ok () w' ∧
      Rep cfg w' { σ.set2 o { t with obj := none } a { s with obj := some ⟨σ.no, ob.ty, ob.val⟩ } with no := σ.no + 1 } := by
    intro w1 hw1
    cases hm : s.mem with
    | none =>
      have hd := D.memNone hm
      have hm2 : t.mem = none := by simpa [hm] using hsame.symm
      have hd2 := E.memNone hm2
      have hfit := hsuit.1 hm
      have hbufo : tt'.buf.cell = some ob := by
        rw [hd2] at hcell; simpa [cellAt, hoa] using hcell
      rcases hw1 with ⟨hw1, htr⟩ | ⟨k, hw1⟩
      · let w' : World := { w with nextObj := w.nextObj + 1, born := upd w.born w.nextObj ob.ty, anys := upd (upd w.anys o (some { tt' with vt := none })) a (some { st' with buf := .obj ⟨w.nextObj, ob.ty, ob.val⟩, vt := some v' }) }
        have hcn : content w' a = some ⟨w.nextObj, ob.ty, ob.val⟩ := by
          simp [content, w', hd, cellAt, Buf.cell]
        have hcn2 : content w' o = none := by
          simp [content, w', upd, Ne.symm hne]
        have hsn : snap w' a = some { s with obj := some ⟨σ.no, ob.ty, ob.val⟩ } := by
          simp only [snap, memOf, hcn]; simp [w', hd, D.ms, D.al, hm, hobj]
        have hsn2 : snap w' o = some { t with obj := none } := by
          simp only [snap, memOf, hcn2]; simp [w', upd, Ne.symm hne, hd2, E.ms, E.al, hm2]
        refine ⟨w', ?_, ?_⟩
        · rw [hw1]
          simp [hsubw, modifyAny, getAny, bornAt, putCell, hd, ha, upd, Ne.symm hne, hoa, w', Buf.ofCell]
          funext c; simp only [upd]; grind
        · refine R.change2 hne ?_ hsn hsn2 ?_
          · have hwn : w'.nextBlk = w.nextBlk := rfl
            have hwo : w'.nextObj = w.nextObj + 1 := rfl
            have hwb : ∀ b, w'.blks b = w.blks b := fun _ => rfl
            have hwd : ∀ i, w'.dtors i = w.dtors i := fun _ => rfl
            have hwf : ∀ b, w'.frees b = w.frees b := fun _ => rfl
            have hwbn : ∀ i, w'.born i = if i = w.nextObj then ob.ty else w.born i := fun _ => rfl
            have hwa : ∀ c, w'.anys c = if c = a then some { st' with buf := .obj ⟨w.nextObj, ob.ty, ob.val⟩, vt := some v' } else if c = o then some { tt' with vt := none } else w.anys c := fun _ => rfl
            clear_value w'
            change_tac W
            rintro c s (rfl | rfl) hs
            · rw [hwa] at hs
              simp at hs; subst hs
              refine ⟨hms, Or.inl hd, ?_, by simp⟩
              intro v2 hv2; simp at hv2; subst hv2
              refine ⟨⟨w.nextObj, ob.ty, ob.val⟩, ?_, by simp [hty, hty'], hvt', by simp; omega, by simp [hwbn], by simp [hwd, hfresh], fun _ => hfit, ?_⟩
              · simp [hd, cellAt, hwa, Buf.cell]
              · simp [hd]
            · rw [hwa] at hs
              simp [Ne.symm hne] at hs; subst hs
              refine ⟨hmso, Or.inl hd2, by simp, ?_⟩
              simp [hd2, cellAt, hwa, Ne.symm hne, hbufo, cellFree, Obj.needsDtor, htr]
          · simp [w', R.nb, R.no, R.cp, Abs.set2, hm, hm2]
      · let w' : World := { w with tick := k, nextObj := w.nextObj + 1, born := upd w.born w.nextObj ob.ty, dtors := upd w.dtors ob.id (w.dtors ob.id + 1), anys := upd (upd w.anys o (some { tt' with vt := none, buf := .raw })) a (some { st' with buf := .obj ⟨w.nextObj, ob.ty, ob.val⟩, vt := some v' }) }
        have hcn : content w' a = some ⟨w.nextObj, ob.ty, ob.val⟩ := by
          simp [content, w', hd, cellAt, Buf.cell]
        have hcn2 : content w' o = none := by
          simp [content, w', upd, Ne.symm hne]
        have hsn : snap w' a = some { s with obj := some ⟨σ.no, ob.ty, ob.val⟩ } := by
          simp only [snap, memOf, hcn]; simp [w', hd, D.ms, D.al, hm, hobj]
        have hsn2 : snap w' o = some { t with obj := none } := by
          simp only [snap, memOf, hcn2]; simp [w', upd, Ne.symm hne, hd2, E.ms, E.al, hm2]
        refine ⟨w', ?_, ?_⟩
        · rw [hw1]
          simp [hsubw, modifyAny, getAny, bornAt, destroyedAt, putCell, hd, hd2, ha, upd, Ne.symm hne, hne, hoa, w', Buf.ofCell]
          funext c; simp only [upd]; grind
        · refine R.change2 hne ?_ hsn hsn2 ?_
          · have hwn : w'.nextBlk = w.nextBlk := rfl
            have hwo : w'.nextObj = w.nextObj + 1 := rfl
            have hwb : ∀ b, w'.blks b = w.blks b := fun _ => rfl
            have hwd : ∀ i, w'.dtors i = if i = ob.id then w.dtors ob.id + 1 else w.dtors i := fun _ => rfl
            have hwf : ∀ b, w'.frees b = w.frees b := fun _ => rfl
            have hwbn : ∀ i, w'.born i = if i = w.nextObj then ob.ty else w.born i := fun _ => rfl
            have hwa : ∀ c, w'.anys c = if c = a then some { st' with buf := .obj ⟨w.nextObj, ob.ty, ob.val⟩, vt := some v' } else if c = o then some { tt' with vt := none, buf := .raw } else w.anys c := fun _ => rfl
            clear_value w'
            change_tac W
            rintro c s (rfl | rfl) hs
            · rw [hwa] at hs
              simp at hs; subst hs
              refine ⟨hms, Or.inl hd, ?_, by simp⟩
              intro v2 hv2; simp at hv2; subst hv2
              refine ⟨⟨w.nextObj, ob.ty, ob.val⟩, ?_, by simp [hty, hty'], hvt', by simp; omega, by simp [hwbn], ?_, fun _ => hfit, ?_⟩
              · simp [hd, cellAt, hwa, Buf.cell]
              · simp only [hwd]; rw [if_neg (by omega)]; exact hfresh
              · simp [hd]
            · rw [hwa] at hs
              simp [Ne.symm hne] at hs; subst hs
              refine ⟨hmso, Or.inl hd2, by simp, ?_⟩
              simp [hd2, cellAt, hwa, Ne.symm hne, Buf.cell, cellFree]
          · simp [w', R.nb, R.no, R.cp, Abs.set2, hm, hm2]
    | some p =>
      obtain ⟨b, n⟩ := p
      obtain ⟨k1, hb, hk, hn, hbuf, hkal⟩ := D.memSome b n hm
      obtain ⟨⟨b2, n2⟩, hm2⟩ : ∃ p, t.mem = some p := by
        cases hh : t.mem with
        | none => simp [hm, hh] at hsame
        | some p => exact ⟨p, rfl⟩
      obtain ⟨k2, hb2, hk2, hn2, hbuf2, hkal2⟩ := E.memSome b2 n2 hm2
      have hbne : b ≠ b2 := by
        intro h; subst h; exact hpne (by rw [hb, hb2])
      have hfr := W.freed b (blk_lt W hk)
      have hfr2 := W.freed b2 (blk_lt W hk2)
      have hblt := blk_lt W hk
      have hblt2 := blk_lt W hk2
      have hsz1 := hdest b n k1 hm hk
      have hcello : k2.cell = some ob := by
        rw [hb2] at hcell; simpa [cellAt, hk2] using hcell
      rcases hw1 with ⟨hw1, htr⟩ | ⟨k, hw1⟩
      · let w' : World := { w with nextObj := w.nextObj + 1, born := upd w.born w.nextObj ob.ty, blks := upd w.blks b (some { k1 with cell := some ⟨w.nextObj, ob.ty, ob.val⟩ }), anys := upd (upd w.anys o (some { tt' with vt := none })) a (some { st' with vt := some v' }) }
        have hcn : content w' a = some ⟨w.nextObj, ob.ty, ob.val⟩ := by
          simp [content, w', hb, cellAt]
        have hcn2 : content w' o = none := by
          simp [content, w', upd, Ne.symm hne]
        have hsn : snap w' a = some { s with obj := some ⟨σ.no, ob.ty, ob.val⟩ } := by
          simp only [snap, memOf, hcn]; simp [w', hb, D.ms, D.al, hm, hobj, hn]
        have hsn2 : snap w' o = some { t with obj := none } := by
          simp only [snap, memOf, hcn2]; simp [w', upd, Ne.symm hne, hb2, E.ms, E.al, hm2, Ne.symm hbne, hk2, hn2]
        refine ⟨w', ?_, ?_⟩
        · rw [hw1]
          simp [hsubw, modifyAny, getAny, bornAt, putCell, hb, hk, ha, upd, Ne.symm hne, hoa, w']
          funext c; simp only [upd]; grind
        · refine R.change2 hne ?_ hsn hsn2 ?_
          · have hwn : w'.nextBlk = w.nextBlk := rfl
            have hwo : w'.nextObj = w.nextObj + 1 := rfl
            have hwb : ∀ c, w'.blks c = if c = b then some { k1 with cell := some ⟨w.nextObj, ob.ty, ob.val⟩ } else w.blks c := fun _ => rfl
            have hwd : ∀ i, w'.dtors i = w.dtors i := fun _ => rfl
            have hwf : ∀ b, w'.frees b = w.frees b := fun _ => rfl
            have hwbn : ∀ i, w'.born i = if i = w.nextObj then ob.ty else w.born i := fun _ => rfl
            have hwa : ∀ c, w'.anys c = if c = a then some { st' with vt := some v' } else if c = o then some { tt' with vt := none } else w.anys c := fun _ => rfl
            clear_value w'
            change_tac W
            rintro c s (rfl | rfl) hs
            · rw [hwa] at hs
              simp at hs; subst hs
              refine ⟨hms, Or.inr ⟨b, { k1 with cell := some ⟨w.nextObj, ob.ty, ob.val⟩ }, hb, by rw [hwb, if_pos rfl], by simp [hbuf, hn], hkal⟩, ?_, by simp⟩
              intro v2 hv2; simp at hv2; subst hv2
              refine ⟨⟨w.nextObj, ob.ty, ob.val⟩, ?_, by simp [hty, hty'], hvt', by simp; omega, by simp [hwbn], by simp [hwd, hfresh], by simp [hb], ?_⟩
              · simp [hb, cellAt, hwb]
              · intro b' k' hb' hk'
                simp only [hb, Ptr.blk.injEq] at hb'; subst hb'
                rw [hwb, if_pos rfl] at hk'; injection hk' with hk'; subst hk'; exact hsz1
            · rw [hwa] at hs
              simp [Ne.symm hne] at hs; subst hs
              refine ⟨hmso, Or.inr ⟨b2, k2, hb2, by rw [hwb, if_neg (Ne.symm hbne)]; exact hk2, by simp [hbuf2, hn2], hkal2⟩, by simp, ?_⟩
              simp [hb2, cellAt, hwb, Ne.symm hbne, hk2, hcello, cellFree, Obj.needsDtor, htr]
          · simp [w', R.nb, R.no, R.cp, Abs.set2, hm]
      · let w' : World := { w with tick := k, nextObj := w.nextObj + 1, born := upd w.born w.nextObj ob.ty, dtors := upd w.dtors ob.id (w.dtors ob.id + 1), blks := upd (upd w.blks b (some { k1 with cell := some ⟨w.nextObj, ob.ty, ob.val⟩ })) b2 (some { k2 with cell := none }), anys := upd (upd w.anys o (some { tt' with vt := none })) a (some { st' with vt := some v' }) }
        have hcn : content w' a = some ⟨w.nextObj, ob.ty, ob.val⟩ := by
          simp [content, w', hb, cellAt, upd, hbne]
        have hcn2 : content w' o = none := by
          simp [content, w', upd, Ne.symm hne]
        have hsn : snap w' a = some { s with obj := some ⟨σ.no, ob.ty, ob.val⟩ } := by
          simp only [snap, memOf, hcn]; simp [w', hb, D.ms, D.al, hm, hobj, hn, upd, hbne]
        have hsn2 : snap w' o = some { t with obj := none } := by
          simp only [snap, memOf, hcn2]; simp [w', upd, Ne.symm hne, hb2, E.ms, E.al, hm2, hn2]
        refine ⟨w', ?_, ?_⟩
        · rw [hw1]
          simp [hsubw, modifyAny, getAny, bornAt, destroyedAt, putCell, hb, hb2, hk, hk2, ha, upd, Ne.symm hne, Ne.symm hbne, hoa, w']
          funext c; simp only [upd]; grind
        · refine R.change2 hne ?_ hsn hsn2 ?_
          · have hwn : w'.nextBlk = w.nextBlk := rfl
            have hwo : w'.nextObj = w.nextObj + 1 := rfl
            have hwb : ∀ c, w'.blks c = if c = b2 then some { k2 with cell := none } else if c = b then some { k1 with cell := some ⟨w.nextObj, ob.ty, ob.val⟩ } else w.blks c := fun _ => rfl
            have hwd : ∀ i, w'.dtors i = if i = ob.id then w.dtors ob.id + 1 else w.dtors i := fun _ => rfl
            have hwf : ∀ b, w'.frees b = w.frees b := fun _ => rfl
            have hwbn : ∀ i, w'.born i = if i = w.nextObj then ob.ty else w.born i := fun _ => rfl
            have hwa : ∀ c, w'.anys c = if c = a then some { st' with vt := some v' } else if c = o then some { tt' with vt := none } else w.anys c := fun _ => rfl
            clear_value w'
            change_tac W
            rintro c s (rfl | rfl) hs
            · rw [hwa] at hs
              simp at hs; subst hs
              refine ⟨hms, Or.inr ⟨b, { k1 with cell := some ⟨w.nextObj, ob.ty, ob.val⟩ }, hb, by rw [hwb, if_neg hbne, if_pos rfl], by simp [hbuf, hn], hkal⟩, ?_, by simp⟩
              intro v2 hv2; simp at hv2; subst hv2
              refine ⟨⟨w.nextObj, ob.ty, ob.val⟩, ?_, by simp [hty, hty'], hvt', by simp; omega, by simp [hwbn], ?_, by simp [hb], ?_⟩
              · simp [hb, cellAt, hwb, hbne]
              · simp only [hwd]; rw [if_neg (by omega)]; exact hfresh
              · intro b' k' hb' hk'
                simp only [hb, Ptr.blk.injEq] at hb'; subst hb'
                rw [hwb, if_neg hbne, if_pos rfl] at hk'; injection hk' with hk'; subst hk'; exact hsz1
            · rw [hwa] at hs
              simp [Ne.symm hne] at hs; subst hs
              refine ⟨hmso, Or.inr ⟨b2, { k2 with cell := none }, hb2, by rw [hwb, if_pos rfl], by simp [hbuf2, hn2], hkal2⟩, by simp, ?_⟩
              simp [hb2, cellAt, hwb, cellFree]
          · simp [w', R.nb, R.no, R.cp, Abs.set2, hm]
  rcases relocate_eval hcell hpne hstor with ⟨h1, h2, he⟩ | ⟨k, he, hq⟩ | ⟨h1, he, hq⟩
  · refine Or.inl ?_
    obtain ⟨w', hw', hR⟩ := main _ (Or.inl ⟨rfl, h2⟩)
    refine ⟨w', ?_, hR, by simp [TyInfo.nothrowReloc, h1, h2]⟩
    rw [← hw']
    unfold moveObj
    rw [bind_apply, he]
  · refine Or.inl ?_
    obtain ⟨w', hw', hR⟩ := main _ (Or.inr ⟨k, rfl⟩)
    refine ⟨w', ?_, hR, hq⟩
    rw [← hw']
    unfold moveObj
    rw [bind_apply, he]
  · refine Or.inr ⟨h1, ?_, hq⟩
    unfold moveObj
    rw [bind_apply, he]

end AnyAny.Mem
