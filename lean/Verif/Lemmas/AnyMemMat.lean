import Verif.Lemmas.AnyMemOps5
/-
`materialize`: the vtable pointer is set before the value is copied. Copying does not look at the
vtable pointer of the destination, so both orders give the same result.
-/
namespace AnyAny.Mem
open AnyAny.TypeList
variable {cfg : Cfg}

def setVt (a : Nat) (v : Option VtPtr) (w : World) : World :=
  { w with anys := fun c => if c = a then (w.anys c).map (fun s => { s with vt := v }) else w.anys c }

def Res.mapW {α} (f : World → World) : Res α → Res α
  | .ok x w => .ok x (f w)
  | .exn w => .exn (f w)
  | .ub => .ub
  | .term => .term

/-- `m` ignores and keeps the vtable pointer of any `a`. -/
def Comm {α} (f : World → World) (m : M α) : Prop := ∀ w, m (f w) = (m w).mapW f

theorem Comm.pure {α} {f : World → World} (x : α) : Comm f (Pure.pure x : M α) := fun _ => rfl
theorem Comm.ub {α} {f : World → World} : Comm f (AnyAny.Mem.ub : M α) := fun _ => rfl
theorem Comm.bind {α β} {f : World → World} {m : M α} {k : α → M β} (hm : Comm f m) (hk : ∀ x, Comm f (k x)) :
    Comm f (m >>= k) := by
  intro w
  simp only [bind_apply, hm w]
  cases h : m w with
  | ok x w1 => simp only [Res.mapW]; exact hk x w1
  | exn w1 => rfl
  | ub => rfl
  | term => rfl
theorem Comm.ite {α} {f : World → World} {c : Prop} [Decidable c] {x y : M α} (hx : Comm f x) (hy : Comm f y) :
    Comm f (if c then x else y) := by split <;> assumption
theorem Comm.onFail {α} {f : World → World} {m : M α} {c : M Unit} (hm : Comm f m) (hc : Comm f c) : Comm f (onFail m c) := by
  intro w
  simp only [AnyAny.Mem.onFail, hm w]
  cases h : m w with
  | exn w1 =>
    simp only [Res.mapW, hc w1]
    cases h' : c w1 <;> rfl
  | ok x w1 => rfl
  | ub => rfl
  | term => rfl
variable {a : Nat} {v : Option VtPtr}

theorem setVt_anys (w : World) (c : Nat) :
    (setVt a v w).anys c = if c = a then (w.anys c).map (fun s => { s with vt := v }) else w.anys c := rfl

theorem cellAt_setVt (w : World) (p : Ptr) : cellAt (setVt a v w) p = cellAt w p := by
  cases p with
  | data c =>
    simp only [cellAt, setVt_anys]
    split
    · cases w.anys c <;> rfl
    · rfl
  | blk b => rfl

theorem storageOk_setVt (w : World) (p : Ptr) (t : Nat) : storageOk cfg (setVt a v w) p t = storageOk cfg w p t := by
  cases p with
  | data c =>
    simp only [storageOk, setVt_anys]
    by_cases h : c = a
    · simp only [h, if_true]; cases w.anys a <;> rfl
    · simp only [h, if_false]
  | blk b => rfl

theorem comm_throwPoint : Comm (setVt a v) (throwPoint cfg) := by
  intro w
  have h : (setVt a v w).tick = w.tick := rfl
  simp only [throwPoint, h]
  cases cfg.faults w.tick <;> rfl
theorem comm_mayThrow (b : Bool) : Comm (setVt a v) (mayThrow cfg b) := by
  unfold mayThrow; exact .ite (.pure _) comm_throwPoint
theorem comm_setCell (p : Ptr) (c : Option Obj) : Comm (setVt a v) (setCell p c) := by
  intro w
  cases p with
  | data d =>
    simp only [setCell, setVt_anys]
    by_cases h : d = a
    · subst h
      cases hw : w.anys d with
      | none => simp [Res.mapW]
      | some s =>
        simp only [if_true, Option.map_some, Res.mapW]
        congr 1
        simp only [setVt]
        congr 1
        funext x
        simp only [upd]; split <;> simp_all
    · simp only [h, if_false]
      cases hw : w.anys d with
      | none => simp [Res.mapW]
      | some s =>
        simp only [Res.mapW]
        congr 1
        simp only [setVt]
        congr 1
        funext x
        simp only [upd]
        by_cases hx : x = d
        · subst hx; simp [h]
        · by_cases hxa : x = a
          · subst hxa; simp [hx]
          · simp [hx, hxa]
  | blk b =>
    simp only [setCell]
    have : (setVt a v w).blks = w.blks := rfl
    rw [this]
    cases w.blks b <;> rfl
theorem comm_evalArg (x : Arg) : Comm (setVt a v) (evalArg x) := by
  intro w
  cases x with
  | lit n => rfl
  | ref p =>
    simp only [evalArg, cellAt_setVt]
    cases cellAt w p <;> rfl
theorem comm_freshObj (t x : Nat) : Comm (setVt a v) (freshObj t x) := fun _ => rfl
theorem comm_countCopy : Comm (setVt a v) countCopy := fun _ => rfl
theorem comm_allocate (al n : Nat) : Comm (setVt a v) (allocate cfg al n) :=
  .bind comm_throwPoint fun _ => fun _ => rfl
theorem comm_deallocate (al : Nat) (p : Ptr) (n : Nat) : Comm (setVt a v) (deallocate cfg al p n) := by
  intro w
  cases p with
  | data d => rfl
  | blk b =>
    simp only [deallocate]
    have : (setVt a v w).blks = w.blks := rfl
    rw [this]
    cases w.blks b with
    | none => rfl
    | some k => simp only []; split <;> rfl
theorem comm_writeSize (d n : Nat) : Comm (setVt a v) (writeSize cfg d n) := by
  intro w
  simp only [writeSize, setVt_anys]
  by_cases h : d = a
  · subst h
    cases hw : w.anys d with
    | none => simp [Res.mapW]
    | some s =>
      simp only [if_true, Option.map_some]
      split
      · simp only [Res.mapW]
        congr 1
        simp only [setVt]
        congr 1
        funext x
        simp only [upd]; split <;> simp_all
      · rfl
  · simp only [h, if_false]
    cases hw : w.anys d with
    | none => simp [Res.mapW]
    | some s =>
      simp only []
      split
      · simp only [Res.mapW]
        congr 1
        simp only [setVt]
        congr 1
        funext x
        simp only [upd]
        by_cases hx : x = d
        · subst hx; simp [h]
        · by_cases hxa : x = a
          · subst hxa; simp [hx]
          · simp [hx, hxa]
      · rfl

theorem comm_constructAt (p : Ptr) (t : Nat) (x : Arg) (n : Bool) : Comm (setVt a v) (constructAt cfg p t x n) := by
  intro w
  have key : Comm (setVt a v) (do
      let v ← evalArg x
      onFail (mayThrow cfg n) (setCell p none)
      let o ← freshObj t v
      setCell p (some o) : M Unit) :=
    .bind (comm_evalArg x) fun _ => .bind (.onFail (comm_mayThrow n) (comm_setCell _ _)) fun _ =>
      .bind (comm_freshObj _ _) fun _ => comm_setCell _ _
  simp only [constructAt, bind_apply, getW, storageOk_setVt]
  split
  · simpa only [bind_apply] using key w
  · rfl

theorem comm_copyFn (t : Nat) (src : Ptr) (d : Nat) (dest : Ptr) (al : Nat) :
    Comm (setVt a v) (copyFn cfg t src d dest al) := by
  intro w
  simp only [copyFn, bind_apply, getW, cellAt_setVt]
  cases hc : cellAt w src with
  | none => rfl
  | some o =>
    simp only []
    by_cases ho : o.ty = t
    · simp only [ho, if_true]
      refine Comm.bind (f := setVt a v) comm_countCopy (fun _ => ?_) w
      refine .ite (.bind (comm_constructAt _ _ _ _) fun _ => .pure _) (.ite ?_ (.ite ?_ ?_))
      · exact .bind (comm_allocate _ _) fun _ => .bind (comm_constructAt _ _ _ _) fun _ => .bind (comm_writeSize _ _) fun _ => .pure _
      · exact .bind (comm_constructAt _ _ _ _) fun _ => .pure _
      · exact .bind (comm_allocate _ _) fun _ => .ite
          (.bind (comm_constructAt _ _ _ _) fun _ => .bind (comm_writeSize _ _) fun _ => .pure _)
          (.bind (.onFail (comm_constructAt _ _ _ _) (comm_deallocate _ _ _)) fun _ => .bind (comm_writeSize _ _) fun _ => .pure _)
    · simp only [ho, if_false]; rfl

/-- A world where the any `a` has no vtable is recovered by clearing it. -/
theorem setVt_setVt (u : Option VtPtr) (w : World) : setVt a u (setVt a v w) = setVt a u w := by
  simp only [setVt]
  congr 1
  funext c
  split
  · cases w.anys c <;> simp
  · rfl

theorem setVt_self {w : World} {s : AnySt} (h : w.anys a = some s) : setVt a s.vt w = w := by
  simp only [setVt]
  cases w
  congr 1
  funext c
  simp only [] at h ⊢
  split
  · subst c; rw [h]; rfl
  · rfl

theorem modifyVt {w : World} {s : AnySt} (h : w.anys a = some s) (u : Option VtPtr) :
    modifyAny a (fun s => { s with vt := u }) w = .ok () (setVt a u w) := by
  simp only [modifyAny, bind_apply, getAny_some h, setAny, setVt]
  congr 2
  funext c
  simp only [upd]
  split
  · subst c; rw [h]; rfl
  · rfl

/-- When copying throws, something that may throw did. -/
theorem copyFn_exn {w w' : World} {t d : Nat} {src dest : Ptr} {al : Nat} (h : copyFn cfg t src d dest al w = .exn w') :
    copyThrows cfg w.tick t = true := by
  have nt : ∀ p x w w', constructAt cfg p t x true w ≠ .exn w' := by
    intro p x w w' h
    simp only [constructAt, bind_apply, getW, mayThrow, if_true] at h
    split at h
    · simp only [bind_apply] at h
      cases hx : evalArg x w with
      | ok y w1 =>
        have hw : w1 = w := by cases x <;> simp only [evalArg] at hx <;> (repeat' split at hx) <;> cases hx <;> rfl
        rw [hx] at h
        simp only [onFail, pure_apply, freshObj] at h
        cases p <;> simp only [setCell] at h <;> split at h <;> cases h
      | exn w1 => cases x <;> simp only [evalArg] at hx <;> (repeat' split at hx) <;> cases hx
      | ub => rw [hx] at h; cases h
      | term => rw [hx] at h; cases h
    · cases h
  have yt : ∀ p x w w', constructAt cfg p t x false w = .exn w' → cfg.faults w.tick = true := by
    intro p x w w' h
    simp only [constructAt, bind_apply, getW, mayThrow] at h
    split at h
    · simp only [bind_apply] at h
      cases hx : evalArg x w with
      | ok y w1 =>
        have hw : w1 = w := by cases x <;> simp only [evalArg] at hx <;> (repeat' split at hx) <;> cases hx <;> rfl
        subst hw
        apply Classical.byContradiction; intro hf
        rw [hx] at h
        simp only [onFail, throwPoint, Bool.false_eq_true, if_false, hf, freshObj] at h
        cases p <;> simp only [setCell] at h <;> split at h <;> cases h
      | exn w1 => cases x <;> simp only [evalArg] at hx <;> (repeat' split at hx) <;> cases hx
      | ub => rw [hx] at h; cases h
      | term => rw [hx] at h; cases h
    · cases h
  have ws : ∀ n w w', writeSize cfg d n w ≠ .exn w' := by
    intro n w w' h
    unfold writeSize at h; (repeat' split at h) <;> cases h
  simp only [copyFn, bind_apply, getW] at h
  generalize (if cfg.copyNeedsAlloc = true then al else cfg.defaultAlloc) = al' at h
  cases hc : cellAt w src with
  | none => rw [hc] at h; cases h
  | some o =>
    rw [hc] at h
    simp only [] at h
    split at h
    · simp only [bind_apply, countCopy] at h
      unfold copyThrows
      by_cases htc : (cfg.ty t).trivCopy = true <;> by_cases hf : fits cfg t = true
      · simp only [htc, hf, Bool.and_self, if_true] at h
        cases hk : constructAt cfg dest t (.ref src) true { w with copies := w.copies + 1 } with
        | exn w1 => exact absurd hk (nt _ _ _ _)
        | ok _ w1 => simp [hk] at h
        | ub => simp [hk] at h
        | term => simp [hk] at h
      · simp only [hf, if_false, Bool.false_eq_true]
        by_cases hfl : cfg.faults w.tick = true
        · simp [hfl]
        · exfalso
          simp only [htc, hf, Bool.and_false, Bool.false_eq_true, if_false, if_true, bind_apply, allocate, throwPoint, hfl] at h
          split at h
          · split at h
            · simp at h
            · rename_i hh; exact ws _ _ _ hh
            · cases h
            · cases h
          · rename_i hh; exact nt _ _ _ _ hh
          · cases h
          · cases h
      · simp only [htc, hf, Bool.false_and, Bool.false_eq_true, if_false, if_true, bind_apply] at h
        cases hn : (cfg.ty t).nothrowCopy with
        | true =>
          rw [hn] at h
          split at h
          · simp at h
          · rename_i hh; exact absurd hh (nt _ _ _ _)
          · cases h
          · cases h
        | false =>
          rw [hn] at h
          split at h
          · simp at h
          · rename_i hh; have := yt _ _ _ _ hh; simp [hf, htc, this]
          · cases h
          · cases h
      · simp only [hf, if_false, Bool.false_eq_true]
        by_cases hfl : cfg.faults w.tick = true
        · simp [hfl]
        · simp only [htc, hf, Bool.false_and, Bool.false_eq_true, if_false, bind_apply, allocate, throwPoint, hfl] at h
          cases hn : (cfg.ty t).nothrowCopy with
          | true =>
            exfalso
            rw [hn] at h
            simp only [if_true, bind_apply] at h
            split at h
            · split at h
              · simp at h
              · rename_i hh; exact ws _ _ _ hh
              · cases h
              · cases h
            · rename_i hh; exact nt _ _ _ _ hh
            · cases h
            · cases h
          | false =>
            rw [hn] at h
            simp only [Bool.false_eq_true, if_false, bind_apply] at h
            split at h
            · split at h
              · simp at h
              · rename_i hh; exact absurd hh (ws _ _ _)
              · cases h
              · cases h
            · rename_i hh
              unfold onFail at hh
              split at hh
              · rename_i hk
                have := yt _ _ _ _ hk
                simp only [] at this
                simp [htc, this]
              · rename_i hk; exact absurd hh (hk _)
            · cases h
            · cases h
    · cases h

def matBody (cfg : Cfg) (a : Nat) (r : VtPtr × Ptr) : M Unit := do
  modifyAny a (fun s => { s with vt := some r.1 })
  let s ← getAny a
  let ty ← slotTy s (.copy 0)
  let p ← copyFn cfg ty r.2 a s.vp s.al
  modifyAny a (fun s => { s with vp := p })

theorem refTo_spec {w : World} {σ : Abs} {o : Nat} {ms : List Method} {t : Snap} {ob : Obj}
    (R : Rep cfg w σ) (ht : σ.snaps o = some t) (hto : t.obj = some ob) (hi : ms <:+: t.ms) :
    ∃ tt v v', w.anys o = some tt ∧ tt.vt = some v ∧ refTo o ms w = .ok (v', tt.vp) w ∧
      (∀ w', subtablePtr ms tt.ms v w' = .ok v' w') ∧ v'.ty = ob.ty ∧ VtOk ms v' := by
  obtain ⟨tt, E⟩ := R.det ht
  obtain ⟨v, hv, hcell, hty, hok, _⟩ := E.objSome _ hto
  obtain ⟨v', hsub, hty', hvt'⟩ := VtOk.subtable hok (by rw [← E.ms]; exact hi) w
  have hsubw := subtable_any hsub
  refine ⟨tt, v, v', E.get, hv, ?_, hsubw, by rw [hty', ← hty], hvt'⟩
  simp [refTo, getAny_some E.get, hv, hsubw]

theorem materialize_spec {w : World} {σ : Abs} {a o al : Nat} {ms : List Method} {t : Snap} {ob : Obj} (C : CfgOk cfg)
    (R : Rep cfg w σ) (hs : σ.snaps a = none) (ht : σ.snaps o = some t) (hd : .destroy ∈ ms)
    (hcp : .copy 0 ∈ ms) (hi : ms <:+: t.ms) (hto : t.obj = some ob) {r : VtPtr × Ptr} (hr : refTo o ms w = .ok r w)
    (hnt : (cfg.ty ob.ty).trivDestr = true ∨ copyThrows cfg w.tick ob.ty = false) :
    (∃ w', materialize cfg a ms al r w = .ok () w' ∧
      Rep cfg w' (copied cfg σ a ⟨ms, al, none, none⟩ ob)) ∨
    (copyThrows cfg w.tick ob.ty = true ∧
      ∃ w' nb', materialize cfg a ms al r w = .exn w' ∧ Rep cfg w' { σ with nb := nb', cp := σ.cp + 1 }) := by
  have hne : a ≠ o := by rintro rfl; simp [hs] at ht
  obtain ⟨tt, v, v', htt, hv, hr', hsub, hvty, hvok⟩ := refTo_spec R ht hto hi
  rw [hr] at hr'
  cases hr'
  obtain ⟨w0, h0, R0⟩ := allocCtor_spec (al := al) R hs hd
  have hs0 := Abs.set_snaps σ a ⟨ms, al, none, none⟩
  have ht0 : (σ.set a ⟨ms, al, none, none⟩).snaps o = some t := by
    rw [Abs.set_other _ _ (Ne.symm hne)]; exact ht
  obtain ⟨st, D⟩ := R0.det hs0
  obtain ⟨w0', h0', _, hoth, _⟩ := construct_unfold (al := al) R hs hd
  have htick : w0.tick = w.tick ∧ ∀ c, c ≠ a → w0.anys c = w.anys c := by
    have := h0
    simp only [allocCtor, construct, bind_apply, getW, onFail, setAny, pure_apply] at this
    split at this
    · cases this
    · cases this; exact ⟨rfl, fun c hc => upd_other _ _ _ _ hc⟩
  have htt0 : w0.anys o = some tt := by rw [htick.2 o (Ne.symm hne)]; exact htt
  have hstms : st.ms = ms := D.ms.symm
  have hvt : st.vt = none := D.objNone rfl
  have hget1 : (setVt a (some v') w0).anys a = some { st with vt := some v' } := by
    simp [setVt_anys, D.get]
  have hslot : ∀ w', slotTy { st with vt := some v' } (.copy 0) w' = .ok ob.ty w' := by
    intro w'
    rw [← hvty]
    exact slotTy_ok (s := { st with vt := some v' }) rfl (by rw [hstms]; exact hvok) (by rw [hstms]; exact hcp) w'
  have body : matBody cfg a (v', tt.vp) w0 =
      (match copyFn cfg ob.ty tt.vp a st.vp st.al w0 with
      | .ok p w1 => modifyAny a (fun s => { s with vp := p }) (setVt a (some v') w1)
      | .exn w1 => .exn (setVt a (some v') w1)
      | .ub => .ub
      | .term => .term) := by
    simp only [matBody, bind_apply, modifyVt D.get, getAny_some hget1, hslot]
    rw [comm_copyFn]
    cases copyFn cfg ob.ty tt.vp a st.vp st.al w0 <;> rfl
  have hm : materialize cfg a ms al (v', tt.vp) w = onFail (matBody cfg a (v', tt.vp)) (destructor cfg a) w0 := by
    show (allocCtor a ms al >>= fun _ => onFail (matBody cfg a (v', tt.vp)) (destructor cfg a)) w = _
    rw [bind_apply, h0]
  rw [hm]
  simp only [onFail, body]
  rcases copyInto_spec R0 hne hs0 ht0 rfl rfl hto (C.align _) C.copyAlloc hi D.get htt0 hv with ⟨w', h', R'⟩ | ⟨w', nb', h', R'⟩
  · refine Or.inl ⟨w', ?_, by rw [copied_set] at R'; exact R'⟩
    simp only [copyInto, bind_apply] at h'
    cases hk : copyFn cfg ob.ty tt.vp a st.vp st.al w0 with
    | ok p w1 =>
      rw [hk] at h'
      simp only [] at h' ⊢
      cases hg : w1.anys a with
      | none => simp [modifyAny, getAny, hg] at h'
      | some s1 =>
        simp only [modifyAny, bind_apply, getAny_some hg, setAny, hstms, hsub] at h'
        have hg2 : (setVt a (some v') w1).anys a = some { s1 with vt := some v' } := by simp [setVt_anys, hg]
        simp only [modifyAny, bind_apply, getAny_some hg2, setAny]
        rw [← h']
        simp only [getAny, upd_same]
        congr 1
        simp only [setVt]
        congr 1
        funext c
        simp only [upd]; split <;> rfl
    | exn w1 => rw [hk] at h'; cases h'
    | ub => rw [hk] at h'; cases h'
    | term => rw [hk] at h'; cases h'
  · simp only [copyInto, bind_apply] at h'
    cases hk : copyFn cfg ob.ty tt.vp a st.vp st.al w0 with
    | ok p w1 =>
      exfalso
      rw [hk] at h'
      simp only [] at h'
      cases hg : w1.anys a with
      | none => simp [modifyAny, getAny, hg] at h'
      | some s1 =>
        simp only [modifyAny, bind_apply, getAny_some hg, setAny, hstms, hsub] at h'
        simp only [getAny, upd_same] at h'
        cases h'
    | ub => rw [hk] at h'; cases h'
    | term => rw [hk] at h'; cases h'
    | exn w1 =>
      rw [hk] at h'
      have hww : w1 = w' := by simpa using h'
      subst hww
      have hth := copyFn_exn hk
      rw [htick.1] at hth
      have htr : (cfg.ty ob.ty).trivDestr = true := by
        rcases hnt with h | h
        · exact h
        · rw [hth] at h; cases h
      have hs1 : ({ σ.set a ⟨ms, al, none, none⟩ with nb := nb', cp := σ.cp + 1 } : Abs).snaps a = some ⟨ms, al, none, none⟩ := hs0
      have R1 : Rep cfg w1 { σ.set a ⟨ms, al, none, none⟩ with nb := nb', cp := σ.cp + 1 } := R'
      obtain ⟨s1, D1⟩ := R1.det hs1
      obtain ⟨w2, h2, R2⟩ := destructor_spec R1 hs1
      refine Or.inr ⟨hth, w2, nb', ?_, ?_⟩
      · have hv1 : s1.vt = none := D1.objNone rfl
        have hg2 : (setVt a (some v') w1).anys a = some { s1 with vt := some v' } := by simp [setVt_anys, D1.get]
        have hsl : ∀ w', slotTy { s1 with vt := some v' } .destroy w' = .ok ob.ty w' := by
          intro w'
          rw [← hvty]
          have : s1.ms = ms := D1.ms.symm
          exact slotTy_ok (s := { s1 with vt := some v' }) rfl (by rw [this]; exact hvok) (by rw [this]; exact hd) w'
        have hdv : destroyValue cfg a (setVt a (some v') w1) = .ok () w1 := by
          have e : setVt a none w1 = w1 := by rw [← hv1]; exact setVt_self D1.get
          simp only [destroyValue, bind_apply, getAny_some hg2, Option.isNone_some, Bool.false_eq_true, if_false, hsl,
            htr, if_true, pure_apply, modifyVt hg2]
          rw [setVt_setVt, e]
        have hdv1 : destroyValue cfg a w1 = .ok () w1 := by
          simp [destroyValue, getAny_some D1.get, hv1]
        have : destructor cfg a (setVt a (some v') w1) = destructor cfg a w1 := by
          simp only [destructor, noexceptIf, reset, bind_apply, hdv, hdv1]
        simp [this, h2]
      · have e : ({ σ.set a ⟨ms, al, none, none⟩ with nb := nb', cp := σ.cp + 1 } : Abs).del a = { σ with nb := nb', cp := σ.cp + 1 } := by
          have := Abs.del_set (σ := { σ with nb := nb', cp := σ.cp + 1 }) (s := ⟨ms, al, none, none⟩) hs
          exact this
        rw [e] at R2; exact R2

theorem constructAt_ok {w w' : World} {p : Ptr} {t : Nat} {x : Arg} (h : constructAt cfg p t x false w = .ok () w') :
    cfg.faults w.tick = false := by
  simp only [constructAt, bind_apply, getW, mayThrow] at h
  split at h
  · simp only [bind_apply] at h
    cases hx : evalArg x w with
    | ok y w1 =>
      have hw : w1 = w := by cases x <;> simp only [evalArg] at hx <;> (repeat' split at hx) <;> cases hx <;> rfl
      subst hw
      cases hf : cfg.faults w1.tick with
      | false => rfl
      | true =>
        rw [hx] at h
        simp only [onFail, throwPoint, Bool.false_eq_true, if_false, hf, if_true] at h
        cases hs : setCell p none { w1 with tick := w1.tick + 1 } <;> rw [hs] at h <;> cases h
    | exn w1 => rw [hx] at h; cases h
    | ub => rw [hx] at h; cases h
    | term => rw [hx] at h; cases h
  · cases h

/-- When copying returns, nothing that may throw did. -/
theorem copyFn_ok {w w' : World} {t d : Nat} {src dest p : Ptr} {al : Nat} (h : copyFn cfg t src d dest al w = .ok p w') :
    copyThrows cfg w.tick t = false := by
  simp only [copyFn, bind_apply, getW] at h
  generalize (if cfg.copyNeedsAlloc = true then al else cfg.defaultAlloc) = al' at h
  cases hc : cellAt w src with
  | none => rw [hc] at h; cases h
  | some o =>
    rw [hc] at h
    simp only [] at h
    split at h
    · simp only [bind_apply, countCopy] at h
      unfold copyThrows
      by_cases htc : (cfg.ty t).trivCopy = true <;> by_cases hf : fits cfg t = true
      · simp [htc, hf]
      · simp only [Bool.not_eq_true] at hf
        simp only [hf, if_false, Bool.false_eq_true, htc, Bool.not_true, Bool.false_and, Bool.or_false]
        cases hfl : cfg.faults w.tick with
        | false => rfl
        | true => simp [htc, hf, allocate, throwPoint, hfl] at h
      · simp only [Bool.not_eq_true] at htc
        simp only [htc, hf, Bool.false_and, Bool.false_eq_true, if_false, if_true, bind_apply] at h
        cases hn : (cfg.ty t).nothrowCopy with
        | true => simp [hf]
        | false =>
          rw [hn] at h
          cases hk : constructAt cfg dest t (.ref src) false { w with copies := w.copies + 1 } with
          | ok _ w1 => have := constructAt_ok hk; simp only [] at this; simp [hf, this]
          | exn _ => simp [hk] at h
          | ub => simp [hk] at h
          | term => simp [hk] at h
      · simp only [Bool.not_eq_true] at htc hf
        cases hfl : cfg.faults w.tick with
        | true => simp [htc, hf, allocate, throwPoint, hfl] at h
        | false =>
          simp only [hf, Bool.false_eq_true, if_false, htc, Bool.not_false, Bool.true_and, Bool.false_or]
          cases hn : (cfg.ty t).nothrowCopy with
          | true => simp
          | false =>
            simp only [htc, hf, hn, Bool.false_and, Bool.false_eq_true, if_false, bind_apply, allocate, throwPoint, hfl, onFail] at h
            generalize hw : ({ w with copies := w.copies + 1, tick := w.tick + 1, nextBlk := _, blks := _ } : World) = w2 at h
            have ht : w2.tick = w.tick + 1 := by rw [← hw]
            cases hk : constructAt cfg (.blk w.nextBlk) t (.ref src) false w2 with
            | ok _ w1 => rw [← ht]; simp [constructAt_ok hk]
            | exn w1 =>
              simp only [hk] at h
              cases hdd : deallocate cfg al' (.blk w.nextBlk) (cfg.ty t).size w1 <;> rw [hdd] at h <;> cases h
            | ub => simp [hk] at h
            | term => simp [hk] at h
    · cases h

/-- When copying throws and the type needs destruction, `materialize` destroys an object that was never
constructed. -/
theorem materialize_ub {w : World} {σ : Abs} {a o al : Nat} {ms : List Method} {t : Snap} {ob : Obj} (C : CfgOk cfg)
    (R : Rep cfg w σ) (hs : σ.snaps a = none) (ht : σ.snaps o = some t) (hd : .destroy ∈ ms)
    (hcp : .copy 0 ∈ ms) (hi : ms <:+: t.ms) (hto : t.obj = some ob) {r : VtPtr × Ptr} (hr : refTo o ms w = .ok r w)
    (hnt : (cfg.ty ob.ty).trivDestr = false) (hct : copyThrows cfg w.tick ob.ty = true) :
    materialize cfg a ms al r w = .ub := by
  have hne : a ≠ o := by rintro rfl; simp [hs] at ht
  obtain ⟨tt, v, v', htt, hv, hr', hsub, hvty, hvok⟩ := refTo_spec R ht hto hi
  rw [hr] at hr'
  cases hr'
  obtain ⟨w0, h0, R0⟩ := allocCtor_spec (al := al) R hs hd
  have hs0 := Abs.set_snaps σ a ⟨ms, al, none, none⟩
  have ht0 : (σ.set a ⟨ms, al, none, none⟩).snaps o = some t := by
    rw [Abs.set_other _ _ (Ne.symm hne)]; exact ht
  obtain ⟨st, D⟩ := R0.det hs0
  have htick : w0.tick = w.tick ∧ ∀ c, c ≠ a → w0.anys c = w.anys c := by
    have := h0
    simp only [allocCtor, construct, bind_apply, getW, onFail, setAny, pure_apply] at this
    split at this
    · cases this
    · cases this; exact ⟨rfl, fun c hc => upd_other _ _ _ _ hc⟩
  have htt0 : w0.anys o = some tt := by rw [htick.2 o (Ne.symm hne)]; exact htt
  have hstms : st.ms = ms := D.ms.symm
  have hget1 : (setVt a (some v') w0).anys a = some { st with vt := some v' } := by
    simp [setVt_anys, D.get]
  have hslot : ∀ w', slotTy { st with vt := some v' } (.copy 0) w' = .ok ob.ty w' := by
    intro w'
    rw [← hvty]
    exact slotTy_ok (s := { st with vt := some v' }) rfl (by rw [hstms]; exact hvok) (by rw [hstms]; exact hcp) w'
  have body : matBody cfg a (v', tt.vp) w0 =
      (match copyFn cfg ob.ty tt.vp a st.vp st.al w0 with
      | .ok p w1 => modifyAny a (fun s => { s with vp := p }) (setVt a (some v') w1)
      | .exn w1 => .exn (setVt a (some v') w1)
      | .ub => .ub
      | .term => .term) := by
    simp only [matBody, bind_apply, modifyVt D.get, getAny_some hget1, hslot]
    rw [comm_copyFn]
    cases copyFn cfg ob.ty tt.vp a st.vp st.al w0 <;> rfl
  have hm : materialize cfg a ms al (v', tt.vp) w = onFail (matBody cfg a (v', tt.vp)) (destructor cfg a) w0 := by
    show (allocCtor a ms al >>= fun _ => onFail (matBody cfg a (v', tt.vp)) (destructor cfg a)) w = _
    rw [bind_apply, h0]
  rw [hm]
  simp only [onFail, body]
  have hbody : ∀ {w'}, copyInto cfg a ob.ty tt.vp st.vp st.al st.ms tt.ms v w0 = .ok () w' → False := by
    intro w' h'
    simp only [copyInto, bind_apply] at h'
    cases hk : copyFn cfg ob.ty tt.vp a st.vp st.al w0 with
    | ok p w1 => have := copyFn_ok hk; rw [htick.1, hct] at this; cases this
    | exn w1 => rw [hk] at h'; cases h'
    | ub => rw [hk] at h'; cases h'
    | term => rw [hk] at h'; cases h'
  rcases copyInto_spec R0 hne hs0 ht0 rfl rfl hto (C.align _) C.copyAlloc hi D.get htt0 hv with ⟨w', h', R'⟩ | ⟨w', nb', h', R'⟩
  · exact (hbody h').elim
  · simp only [copyInto, bind_apply] at h'
    cases hk : copyFn cfg ob.ty tt.vp a st.vp st.al w0 with
    | ok p w1 => have := copyFn_ok hk; rw [htick.1, hct] at this; cases this
    | ub => rfl
    | term => rw [hk] at h'; cases h'
    | exn w1 =>
      rw [hk] at h'
      have hww : w1 = w' := by simpa using h'
      subst hww
      have hs1 : ({ σ.set a ⟨ms, al, none, none⟩ with nb := nb', cp := σ.cp + 1 } : Abs).snaps a = some ⟨ms, al, none, none⟩ := hs0
      have R1 : Rep cfg w1 { σ.set a ⟨ms, al, none, none⟩ with nb := nb', cp := σ.cp + 1 } := R'
      obtain ⟨s1, D1⟩ := R1.det hs1
      have hg2 : (setVt a (some v') w1).anys a = some { s1 with vt := some v' } := by simp [setVt_anys, D1.get]
      have hsl : ∀ w', slotTy { s1 with vt := some v' } .destroy w' = .ok ob.ty w' := by
        intro w'
        rw [← hvty]
        have : s1.ms = ms := D1.ms.symm
        exact slotTy_ok (s := { s1 with vt := some v' }) rfl (by rw [this]; exact hvok) (by rw [this]; exact hd) w'
      have hfree := D1.ok.empty (D1.objNone rfl)
      have hda : destroyAt s1.vp ob.ty (setVt a (some v') w1) = .ub := by
        simp only [destroyAt, cellAt_setVt]
        cases hcell : cellAt w1 s1.vp with
        | none => rfl
        | some ob1 =>
          rw [hcell] at hfree
          simp only [cellFree, Obj.needsDtor, Bool.not_not] at hfree
          have : ob1.ty ≠ ob.ty := by intro h; rw [h, hnt] at hfree; cases hfree
          simp only [this, if_false]
      simp [destructor, noexceptIf, reset, destroyValue, getAny_some hg2, hsl, hnt, hda]

end AnyAny.Mem
