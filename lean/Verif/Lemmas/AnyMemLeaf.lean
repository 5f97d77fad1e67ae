import Verif.Lemmas.AnyMemBase
namespace AnyAny.Mem
open AnyAny.TypeList
variable {cfg : Cfg}

/-- Abstract state: snapshots of all any objects and counters. -/
structure Abs where
  snaps : Nat → Option Snap
  /-- next block = number of allocations so far -/
  nb : Nat
  /-- next object identity -/
  no : Nat
  /-- copies made -/
  cp : Nat

/-- World `w` is well-formed and looks like `σ`. -/
structure Rep (cfg : Cfg) (w : World) (σ : Abs) : Prop where
  wf : WF cfg w
  snaps : snap w = σ.snaps
  nb : w.nextBlk = σ.nb
  no : w.nextObj = σ.no
  cp : w.copies = σ.cp

def Abs.set (σ : Abs) (a : Nat) (s : Snap) : Abs := { σ with snaps := upd σ.snaps a (some s) }

theorem numberOfFirst_getElem {m : Method} {ms : List Method} {i : Nat}
    (h : numberOfFirst m ms = some i) : ms[i]? = some m := by
  have := (numberOfImpl_some m ms 0 i).1 h
  exact this.2.1

theorem slotTy_ok {s : AnySt} {v : VtPtr} {m : Method} (hv : s.vt = some v) (ho : VtOk s.ms v)
    (hm : m ∈ s.ms) (w : World) : slotTy s m w = .ok v.ty w := by
  unfold slotTy
  cases hn : numberOfFirst m s.ms with
  | none => exact absurd hm ((numberOfImpl_none m s.ms 0).1 hn)
  | some i =>
    have hi := (numberOfFirst_getElem hn)
    have : v.table[v.off + i]? = some m := by
      obtain ⟨t, ht⟩ := ho
      rw [← List.getElem?_drop, ← ht, List.getElem?_append_left]
      · exact hi
      · exact (List.getElem?_eq_some_iff.1 hi).1
    simp [hv, this]

theorem Abs.set_self {σ : Abs} {a : Nat} {s : Snap} (h : σ.snaps a = some s) : σ.set a s = σ := by
  obtain ⟨σs, _, _, _⟩ := σ
  simp only [Abs.set, Abs.mk.injEq, and_true]
  funext c; simp only [upd_apply]; split
  · subst_vars; exact h.symm
  · rfl

theorem Rep.change1 {w w' : World} {σ σ' : Abs} {a : Nat} {s' : Snap} (R : Rep cfg w σ)
    (C : Change cfg (· = a) w w') (hs : snap w' a = some s')
    (hσ : σ' = ⟨upd σ.snaps a (some s'), w'.nextBlk, w'.nextObj, w'.copies⟩) :
    Rep cfg w' σ' := by
  subst hσ
  refine ⟨C.wf R.wf, ?_, rfl, rfl, rfl⟩
  funext c
  by_cases hc : c = a
  · subst hc; simp [hs]
  · rw [C.snap_eq R.wf hc, R.snaps]; simp [upd, hc]

theorem Rep.change2 {w w' : World} {σ σ' : Abs} {a o : Nat} {s' t' : Snap} (R : Rep cfg w σ)
    (hne : a ≠ o) (C : Change cfg (fun c => c = a ∨ c = o) w w') (hs : snap w' a = some s')
    (ht : snap w' o = some t')
    (hσ : σ' = ⟨upd (upd σ.snaps o (some t')) a (some s'), w'.nextBlk, w'.nextObj, w'.copies⟩) :
    Rep cfg w' σ' := by
  subst hσ
  refine ⟨C.wf R.wf, ?_, rfl, rfl, rfl⟩
  funext c
  by_cases hc : c = a
  · subst hc; simp [hs]
  · by_cases hc' : c = o
    · subst hc'; simp [upd, hc, ht]
    · rw [C.snap_eq R.wf (by simp [hc, hc']), R.snaps]; simp [upd, hc, hc']

/-- Closes the routine obligations of `Change`; the obligation about the changed any objects
themselves comes first. -/
macro "change_tac" W:term : tactic => `(tactic|
  (have hfreed := ($W).freed; have hbeyondBlk := ($W).beyondBlk
   have hdestroyed := ($W).destroyed; have hbeyondObj := ($W).beyondObj
   have honce := ($W).once
   refine Change.mk ?_ ?_ ?_ ?_ ?_ ?_ ?ok ?_ ?_ ?_ ?_ ?_ ?_ ?_ ?_ ?_
   · grind [upd]
   · grind [upd]
   · grind [upd]
   · grind [upd]
   · grind [upd]
   · grind [upd]
   rotate_left
   · grind [upd]
   · grind [upd]
   · first | grind [upd] | (simp only [content, upd]; grind [cellAt, Buf.cell])
   · first | grind [upd] | (simp only [content, upd]; grind [cellAt, Buf.cell])
   · grind [upd, vp_blk]
   · grind [upd]
   · first | grind [upd] | (simp only [content, upd]; grind [cellAt, Buf.cell])
   · grind [upd]
   · clear hfreed hbeyondBlk hdestroyed; grind [upd]))

theorem destroyValue_spec {w : World} {σ : Abs} {a : Nat} {s : Snap} (R : Rep cfg w σ)
    (hs : σ.snaps a = some s) :
    ∃ w', destroyValue cfg a w = .ok () w' ∧ Rep cfg w' (σ.set a { s with obj := none }) ∧
      w'.tick = w.tick := by
  have hs0 := hs
  rw [← R.snaps] at hs
  cases ha : w.anys a with
  | none => simp [snap, ha] at hs
  | some st =>
    have A := R.wf.any a st ha
    simp only [snap, ha, Option.map_some, Option.some.injEq] at hs
    cases hv : st.vt with
    | none =>
      refine ⟨w, by simp [destroyValue, getAny_some ha, hv], ?_, rfl⟩
      rw [Abs.set_self]
      · exact R
      · rw [hs0, ← hs]; simp [content, ha, hv]
    | some v =>
      obtain ⟨o, h1, h2, h3, h4, h5, h6, h7, h8⟩ := A.full v hv
      have hsl := slotTy_ok hv h3 A.destroyIn w
      have W := R.wf
      have hc : content w a = some o := by simp [content, ha, hv, h1]
      obtain ⟨w', he, C, hn⟩ : ∃ w', destroyValue cfg a w = .ok () w' ∧ Change cfg (· = a) w w' ∧
          snap w' a = some { s with obj := none } ∧ w'.nextBlk = w.nextBlk ∧ w'.nextObj = w.nextObj ∧
          w'.copies = w.copies ∧ w'.tick = w.tick := by
        by_cases htr : (cfg.ty v.ty).trivDestr = true
        · refine ⟨{ w with anys := upd w.anys a (some { st with vt := none }) }, ?_, ?_, ?_⟩
          · simp [destroyValue, getAny_some ha, hv, hsl, htr, modifyAny]
          · change_tac W
            rintro c s rfl hs
            simp at hs; subst hs
            refine ⟨A.destroyIn, A.shape, by simp, ?_⟩
            intro _
            have : cellAt w st.vp = cellAt { w with anys := upd w.anys c (some { st with vt := none }) } st.vp := by
              rcases A.shape with hd | ⟨b, k, hd, _⟩ <;> simp [hd, cellAt, ha]
            rw [← this, h1]; simp [cellFree, Obj.needsDtor, h2, htr]
          · subst hs; simp [snap, memOf, content, ha]
        · rcases A.shape with hd | ⟨b, k, hb, hk, hbuf, hal⟩
          · refine ⟨{ w with anys := upd w.anys a (some { st with vt := none, buf := .raw }), dtors := upd w.dtors o.id (w.dtors o.id + 1) }, ?_, ?_, ?_⟩
            · rw [hd] at h1
              simp [destroyValue, getAny_some ha, hv, hsl, htr, modifyAny, destroyAt, h1, h2, hd, setCell, ha, getAny, Buf.ofCell]
            · change_tac W
              rintro c s rfl hs
              simp at hs; subst hs
              exact ⟨A.destroyIn, Or.inl hd, by simp, by simp [hd, cellAt, cellFree, Buf.cell]⟩
            · subst hs; simp [snap, memOf, content, ha, hd]
          · refine ⟨{ w with anys := upd w.anys a (some { st with vt := none }), blks := upd w.blks b (some { k with cell := none }), dtors := upd w.dtors o.id (w.dtors o.id + 1) }, ?_, ?_, ?_⟩
            · rw [hb] at h1
              simp [destroyValue, getAny_some ha, hv, hsl, htr, modifyAny, destroyAt, h1, h2, hb, setCell, ha, getAny, hk]
            · change_tac W
              rintro c s rfl hs
              simp at hs; subst hs
              exact ⟨A.destroyIn, Or.inr ⟨b, { k with cell := none }, hb, by simp, hbuf, hal⟩, by simp, by simp [hb, cellAt, cellFree]⟩
            · subst hs; simp [snap, memOf, content, ha, hb, hk]
      refine ⟨w', he, ?_, hn.2.2.2.2⟩
      refine R.change1 C hn.1 ?_
      rw [hn.2.1, hn.2.2.1, hn.2.2.2.1, R.nb, R.no, R.cp]
      rfl

/-- Details of an any object with snapshot `s`. -/
structure Det (cfg : Cfg) (w : World) (a : Nat) (s : Snap) (st : AnySt) : Prop where
  get : w.anys a = some st
  ok : AnyOk cfg w a st
  ms : s.ms = st.ms
  al : s.al = st.al
  memNone : s.mem = none → st.vp = .data a
  memSome : ∀ b n, s.mem = some (b, n) → ∃ k, st.vp = .blk b ∧ w.blks b = some k ∧ k.size = n ∧
    st.buf = .size n ∧ allocEq cfg k.al st.al = true
  objNone : s.obj = none → st.vt = none
  objSome : ∀ o, s.obj = some o → ∃ v, st.vt = some v ∧ cellAt w st.vp = some o ∧ o.ty = v.ty ∧
    VtOk st.ms v ∧ o.id < w.nextObj ∧ w.born o.id = o.ty ∧ w.dtors o.id = 0 ∧
    (st.vp = .data a → fits cfg o.ty = true) ∧
    (∀ b k, st.vp = .blk b → w.blks b = some k → (cfg.ty o.ty).size ≤ k.size)
  loc : s.loc a = st.vp
  cont : content w a = s.obj
  mem : memOf w a = s.mem

theorem Rep.det {w : World} {σ : Abs} {a : Nat} {s : Snap} (R : Rep cfg w σ)
    (hs : σ.snaps a = some s) : ∃ st, Det cfg w a s st := by
  rw [← R.snaps] at hs
  cases ha : w.anys a with
  | none => simp [snap, ha] at hs
  | some st =>
    have A := R.wf.any a st ha
    simp only [snap, ha, Option.map_some, Option.some.injEq] at hs
    subst hs
    have hsh := A.shape
    have hfull := A.full
    refine ⟨st, ⟨ha, A, rfl, rfl, ?_, ?_, ?_, ?_, ?_, rfl, rfl⟩⟩
    · rcases A.shape with h | ⟨b, k, h1, h2, h3⟩
      · intro _; exact h
      · simp [memOf, ha, h1, h2]
    · intro b n hb
      rcases A.shape with h | ⟨b', k, h1, h2, h3, h4⟩
      · simp [memOf, ha, h] at hb
      · simp only [memOf, ha, h1, h2, Option.bind_some, Option.map_some, Option.some.injEq,
          Prod.mk.injEq] at hb
        obtain ⟨rfl, rfl⟩ := hb
        exact ⟨k, h1, h2, rfl, h3, h4⟩
    · intro h
      simp only [content, ha, Option.bind_some] at h
      cases hv : st.vt with
      | none => rfl
      | some v =>
        obtain ⟨o, h1, _⟩ := A.full v hv
        simp [hv, h1] at h
    · intro o ho
      obtain ⟨s', v, h1, h2, h3⟩ := content_full R.wf ho
      rw [ha] at h1; injection h1 with h1; subst h1
      exact ⟨v, h2, h3⟩
    · rcases A.shape with h | ⟨b, k, h1, h2, h3⟩
      · simp [Snap.loc, memOf, ha, h]
      · simp [Snap.loc, memOf, ha, h1, h2]

/-- Reading the object through its address. -/
theorem Rep.cell {w : World} {σ : Abs} {a : Nat} {s : Snap} {o : Obj} (R : Rep cfg w σ)
    (hs : σ.snaps a = some s) (ho : s.obj = some o) : cellAt w (s.loc a) = some o := by
  obtain ⟨st, D⟩ := R.det hs
  obtain ⟨v, _, h, _⟩ := D.objSome o ho
  rw [D.loc]; exact h

/-- The stored object fits its storage. -/
theorem Rep.fit {w : World} {σ : Abs} {a : Nat} {s : Snap} {o : Obj} (R : Rep cfg w σ)
    (hs : σ.snaps a = some s) (ho : s.obj = some o) :
    (s.mem = none → fits cfg o.ty = true) ∧ (∀ b n, s.mem = some (b, n) → (cfg.ty o.ty).size ≤ n) := by
  obtain ⟨st, D⟩ := R.det hs
  obtain ⟨v, _, _, _, _, _, _, _, h7, h8⟩ := D.objSome o ho
  refine ⟨fun h => h7 (D.memNone h), fun b n h => ?_⟩
  obtain ⟨k, h1, h2, h3, _⟩ := D.memSome b n h
  have := h8 b k h1 h2; omega

theorem Rep.memInj {w : World} {σ : Abs} {a c b n m : Nat} {s t : Snap} (R : Rep cfg w σ)
    (hs : σ.snaps a = some s) (ht : σ.snaps c = some t) (h1 : s.mem = some (b, n))
    (h2 : t.mem = some (b, m)) : a = c := by
  obtain ⟨st, D⟩ := R.det hs
  obtain ⟨tt, E⟩ := R.det ht
  obtain ⟨k, hk, _⟩ := D.memSome b n h1
  obtain ⟨k', hk', _⟩ := E.memSome b m h2
  exact R.wf.blkInj a st c tt b D.get E.get hk hk'

theorem Rep.destroyIn {w : World} {σ : Abs} {a : Nat} {s : Snap} (R : Rep cfg w σ)
    (hs : σ.snaps a = some s) : Method.destroy ∈ s.ms := by
  obtain ⟨st, D⟩ := R.det hs
  rw [D.ms]; exact D.ok.destroyIn

theorem Rep.memAlloc {w : World} {a : Nat} {s : Snap} {st : AnySt}
    (D : Det cfg w a s st) : memAlloc a st = s.mem.isSome := by
  unfold Mem.memAlloc
  cases hm : s.mem with
  | none => simp [D.memNone hm]
  | some p =>
    obtain ⟨b, n⟩ := p
    obtain ⟨k, h, _⟩ := D.memSome b n hm
    simp [h]

theorem Det.vtIsSome {w : World} {a : Nat} {s : Snap} {st : AnySt}
    (D : Det cfg w a s st) : st.vt.isSome = s.obj.isSome := by
  cases hm : s.obj with
  | none => simp [D.objNone hm]
  | some o => obtain ⟨v, h, _⟩ := D.objSome o hm; simp [h]

/-- The clean-up action of `scope_failure` in `emplace_in_empty`: the memory is released. -/
theorem release_spec {w : World} {σ : Abs} {a b n : Nat} {s : Snap} (R : Rep cfg w σ)
    (hs : σ.snaps a = some s) (ho : s.obj = none) (hm : s.mem = some (b, n)) :
    ∃ w', ((do
        let s ← getAny a
        deallocate cfg s.al s.vp n
        modifyAny a (fun s => { s with vp := .data a })) : M Unit) w = .ok () w' ∧
      Rep cfg w' (σ.set a { s with mem := none }) ∧ w'.tick = w.tick := by
  obtain ⟨st, D⟩ := R.det hs
  have W := R.wf
  have ha := D.get
  obtain ⟨k, hb, hk, hn, hbuf, hal⟩ := D.memSome b n hm
  have hv := D.objNone ho
  have hfree := D.ok.empty hv
  have hms := D.ok.destroyIn
  simp only [hb, cellAt, hk, Option.bind_some] at hfree
  have hnone : content w a = none := by rw [D.cont, ho]
  have hlt := blk_lt W hk
  have hfr := W.freed b hlt
  simp only [hk, Option.isSome_some, if_true] at hfr
  let w' : World := { w with anys := upd w.anys a (some { st with vp := .data a }), blks := upd w.blks b none, frees := upd w.frees b (w.frees b + 1) }
  have C : Change cfg (· = a) w w' := by
    simp only [w']
    change_tac W
    rintro c s rfl hs
    simp at hs; subst hs
    exact ⟨hms, Or.inl rfl, by simp [hv], by simp [cellAt, hbuf, Buf.cell, cellFree]⟩
  have hsn : snap w' a = some { s with mem := none } := by
    simp [snap, memOf, content, hv, D.ms, D.al, ho, w']
  refine ⟨w', ?_, ?_, rfl⟩
  · simp [getAny_some ha, hb, deallocate, hk, hn, hal, hfree, modifyAny, getAny, w', ha]
  · exact R.change1 C hsn (by simp [Abs.set, w', R.nb, R.no, R.cp])

theorem readSize_det {w : World} {a b n : Nat} {s : Snap} {st : AnySt} (D : Det cfg w a s st)
    (hm : s.mem = some (b, n)) : readSize a w = .ok n w := by
  obtain ⟨k, hb, hk, hn, hbuf, hal⟩ := D.memSome b n hm
  simp [readSize, D.get, hbuf]

theorem deallocateMemory_spec {w : World} {σ : Abs} {a b n : Nat} {s : Snap} (R : Rep cfg w σ)
    (hs : σ.snaps a = some s) (ho : s.obj = none) (hm : s.mem = some (b, n)) :
    ∃ w', deallocateMemory cfg a w = .ok () w' ∧ Rep cfg w' (σ.set a { s with mem := none }) ∧
      w'.tick = w.tick := by
  obtain ⟨w', he, h⟩ := release_spec R hs ho hm
  refine ⟨w', ?_, h⟩
  obtain ⟨st, D⟩ := R.det hs
  rw [← he]
  simp [deallocateMemory, getAny_some D.get, D.objNone ho, Rep.memAlloc D, hm, readSize_det D hm]

/-- Storage of any `a` (snapshot `s`, empty) is suitable for a `t`. -/
def Suits (cfg : Cfg) (s : Snap) (t : Nat) : Prop :=
  (s.mem = none → fits cfg t = true) ∧
  (∀ b n, s.mem = some (b, n) → (cfg.ty t).size ≤ n ∧ (cfg.ty t).align ≤ cfg.allocAlign)

theorem storageOk_of {w : World} {a t : Nat} {s : Snap} {st : AnySt} (D : Det cfg w a s st)
    (ho : s.obj = none) (hf : Suits cfg s t) : storageOk cfg w st.vp t = true := by
  have hfree := D.ok.empty (D.objNone ho)
  cases hm : s.mem with
  | none =>
    have := hf.1 hm
    simp only [fits, Bool.and_eq_true, decide_eq_true_eq] at this
    have hd := D.memNone hm
    rw [hd] at hfree
    simp only [cellAt, D.get, Option.bind_some] at hfree
    simp [storageOk, hd, D.get, hfree, this]
  | some p =>
    obtain ⟨b, n⟩ := p
    obtain ⟨k, hb, hk, hn, hbuf, hal⟩ := D.memSome b n hm
    have := hf.2 b n hm
    rw [hb] at hfree
    simp only [cellAt, hk, Option.bind_some] at hfree
    simp [storageOk, hb, hk, hfree, hn, this]

/-- The world after storing `c` at `p`. -/
def putCell (w : World) (p : Ptr) (c : Option Obj) : World :=
  match p with
  | .data a =>
    match w.anys a with
    | some s => { w with anys := upd w.anys a (some { s with buf := .ofCell c }) }
    | none => w
  | .blk b =>
    match w.blks b with
    | some k => { w with blks := upd w.blks b (some { k with cell := c }) }
    | none => w

theorem setCell_of_storage {w : World} {p : Ptr} {t : Nat} (h : storageOk cfg w p t = true)
    (c : Option Obj) (w' : World) (ha : w'.anys = w.anys) (hb : w'.blks = w.blks) :
    setCell p c w' = .ok () (putCell w' p c) := by
  cases p with
  | data a =>
    cases hs : w.anys a with
    | none => simp [storageOk, hs] at h
    | some s => simp [setCell, putCell, ha, hs]
  | blk b =>
    cases hs : w.blks b with
    | none => simp [storageOk, hs] at h
    | some s => simp [setCell, putCell, hb, hs]

/-- The world after a fresh object was constructed at `p`. -/
def bornAt (w : World) (p : Ptr) (t v : Nat) : World :=
  putCell { w with nextObj := w.nextObj + 1, born := upd w.born w.nextObj t } p (some ⟨w.nextObj, t, v⟩)

theorem constructAt_eval {w : World} {p : Ptr} {t v : Nat} {arg : Arg} (nothrow : Bool)
    (h : storageOk cfg w p t = true) (hv : evalArg arg w = .ok v w) :
    (∃ k, constructAt cfg p t arg nothrow w = .ok () (bornAt { w with tick := k } p t v) ∧
      (nothrow = false → cfg.faults w.tick = false)) ∨
    (nothrow = false ∧ ∃ k, constructAt cfg p t arg nothrow w = .exn (putCell { w with tick := k } p none) ∧
      cfg.faults w.tick = true) := by
  have h1 := fun c w' ha hb => setCell_of_storage h c w' ha hb
  cases nothrow with
  | true =>
    refine Or.inl ⟨w.tick, ?_, by simp⟩
    simp [constructAt, h, hv, onFail, mayThrow, freshObj, bornAt, h1]
  | false =>
    by_cases hf : cfg.faults w.tick = true
    · refine Or.inr ⟨rfl, w.tick + 1, ?_, hf⟩
      simp [constructAt, h, hv, onFail, mayThrow, throwPoint, hf, h1]
    · refine Or.inl ⟨w.tick + 1, ?_, fun _ => by simpa using hf⟩
      simp [constructAt, h, hv, onFail, mayThrow, throwPoint, hf, freshObj, bornAt, h1]

theorem Snap.mk_eq {s : Snap} {x : List Method} {y : Nat} {m : Option (Nat × Nat)} {o : Option Obj}
    (h1 : s.ms = x) (h2 : s.al = y) (h3 : s.mem = m) (h4 : s.obj = o) : (⟨x, y, m, o⟩ : Snap) = s := by
  subst h1 h2 h3 h4; rfl

/-- Constructing a value in an empty any. -/
theorem constructValue_spec {w : World} {σ : Abs} {a t v : Nat} {arg : Arg} {s : Snap}
    (nothrow : Bool) (R : Rep cfg w σ)
    (hs : σ.snaps a = some s) (ho : s.obj = none) (hf : Suits cfg s t)
    (harg : evalArg arg w = .ok v w) :
    (∃ w', constructValue cfg a t arg nothrow w = .ok () w' ∧
      Rep cfg w' { σ.set a { s with obj := some ⟨σ.no, t, v⟩ } with no := σ.no + 1 }) ∨
    (nothrow = false ∧ ∃ w', constructValue cfg a t arg nothrow w = .exn w' ∧ Rep cfg w' σ) := by
  obtain ⟨st, D⟩ := R.det hs
  have W := R.wf
  have ha := D.get
  have hv := D.objNone ho
  have hms := D.ok.destroyIn
  have hst := storageOk_of D ho hf
  have hno := R.no
  have hnone : content w a = none := by rw [D.cont, ho]
  have hobj : σ.no = w.nextObj := R.no.symm
  rcases constructAt_eval nothrow hst harg with ⟨k, he, _⟩ | ⟨hn, k, he, _⟩
  · refine Or.inl ?_
    cases hm : s.mem with
    | none =>
      have hd := D.memNone hm
      have hfit := hf.1 hm
      refine ⟨{ w with anys := upd w.anys a (some { st with buf := .obj ⟨w.nextObj, t, v⟩, vt := some ⟨t, st.ms, 0⟩ }), nextObj := w.nextObj + 1, born := upd w.born w.nextObj t, tick := k }, ?_, ?_⟩
      · rw [hd] at he
        simp [constructValue, getAny_some ha, he, modifyAny, bornAt, putCell, hd, ha, getAny, Buf.ofCell]
      · refine R.change1 (a := a) (s' := { s with obj := some ⟨σ.no, t, v⟩ }) ?_ ?_ ?_
        · have hcn : content { w with anys := upd w.anys a (some { st with buf := .obj ⟨w.nextObj, t, v⟩, vt := some ⟨t, st.ms, 0⟩ }), nextObj := w.nextObj + 1, born := upd w.born w.nextObj t, tick := k } a = some ⟨w.nextObj, t, v⟩ := by
            simp [content, cellAt, Buf.cell, hd]
          change_tac W
          rintro c s rfl hs
          simp at hs; subst hs
          refine ⟨hms, Or.inl hd, ?_, by simp⟩
          simp [hd, cellAt, Buf.cell, VtOk]
          exact ⟨W.beyondObj _ (Nat.le_refl _), hfit⟩
        · simp [snap, memOf, content, hd, cellAt, Buf.cell, D.ms, D.al, hm, hobj]
        · simp [Abs.set, R.nb, R.cp, R.no, hm]
    | some p =>
      obtain ⟨b, n⟩ := p
      obtain ⟨k', hb, hk, hn, hbuf, hal⟩ := D.memSome b n hm
      have hfit := hf.2 b n hm
      have hfr := W.freed b (blk_lt W hk)
      refine ⟨{ w with anys := upd w.anys a (some { st with vt := some ⟨t, st.ms, 0⟩ }), blks := upd w.blks b (some { k' with cell := some ⟨w.nextObj, t, v⟩ }), nextObj := w.nextObj + 1, born := upd w.born w.nextObj t, tick := k }, ?_, ?_⟩
      · rw [hb] at he
        simp [constructValue, getAny_some ha, he, modifyAny, bornAt, putCell, hb, hk, ha, getAny]
      · refine R.change1 (a := a) (s' := { s with obj := some ⟨σ.no, t, v⟩ }) ?_ ?_ ?_
        · have hcn : content { w with anys := upd w.anys a (some { st with vt := some ⟨t, st.ms, 0⟩ }), blks := upd w.blks b (some { k' with cell := some ⟨w.nextObj, t, v⟩ }), nextObj := w.nextObj + 1, born := upd w.born w.nextObj t, tick := k } a = some ⟨w.nextObj, t, v⟩ := by
            simp [content, cellAt, Buf.cell, hb]
          change_tac W
          rintro c s rfl hs
          simp at hs; subst hs
          refine ⟨hms, Or.inr ⟨b, { k' with cell := some ⟨w.nextObj, t, v⟩ }, hb, by simp, by simp [hbuf, hn], hal⟩, ?_, by simp⟩
          simp [hb, cellAt, VtOk]
          refine ⟨W.beyondObj _ (Nat.le_refl _), ?_⟩
          rintro _ _ rfl hk2
          simp at hk2; subst hk2; simp; omega
        · simp [snap, memOf, content, hb, cellAt, D.ms, D.al, hm, hobj, hn]
        · simp [Abs.set, R.nb, R.cp, R.no, hm]
  · refine Or.inr ⟨hn, ?_⟩
    have hset := Abs.set_self hs
    have hset' : σ = ⟨upd σ.snaps a (some s), σ.nb, σ.no, σ.cp⟩ := hset.symm
    cases hm : s.mem with
    | none =>
      have hd := D.memNone hm
      refine ⟨{ w with anys := upd w.anys a (some { st with buf := .raw }), tick := k }, ?_, ?_⟩
      · rw [hd] at he
        simp [constructValue, getAny_some ha, he, putCell, hd, ha, Buf.ofCell]
      · refine R.change1 (a := a) (s' := s) ?_ ?_ ?_
        · change_tac W
          rintro c s rfl hs
          simp at hs; subst hs
          exact ⟨hms, Or.inl hd, by simp [hv], by simp [hd, cellAt, Buf.cell, cellFree]⟩
        · simp [snap, memOf, content, hd, hv]
          exact Snap.mk_eq D.ms D.al hm ho
        · rw [R.nb, R.cp, R.no]; exact hset'
    | some p =>
      obtain ⟨b, n⟩ := p
      obtain ⟨k', hb, hk, hn, hbuf, hal⟩ := D.memSome b n hm
      have hfr := W.freed b (blk_lt W hk)
      refine ⟨{ w with blks := upd w.blks b (some { k' with cell := none }), tick := k }, ?_, ?_⟩
      · rw [hb] at he
        simp [constructValue, getAny_some ha, he, putCell, hb, hk]
      · refine R.change1 (a := a) (s' := s) ?_ ?_ ?_
        · change_tac W
          rintro c s rfl hs
          simp [ha] at hs; subst hs
          exact ⟨hms, Or.inr ⟨b, { k' with cell := none }, hb, by simp, by simp [hbuf, hn], hal⟩, by simp [hv], by simp [hb, cellAt, cellFree]⟩
        · simp [snap, memOf, content, hb, hv, ha, hn]
          exact Snap.mk_eq D.ms D.al hm ho
        · rw [R.nb, R.cp, R.no]; exact hset'

end AnyAny.Mem
