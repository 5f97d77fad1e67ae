import Verif.Lemmas.AnyMemLeaf
namespace AnyAny.Mem
open AnyAny.TypeList
variable {cfg : Cfg}

theorem bind_assoc' {α β γ} (m : M α) (f : α → M β) (g : β → M γ) :
    (m >>= f) >>= g = m >>= fun x => f x >>= g := by
  funext w; simp only [bind_apply]; cases m w <;> rfl

theorem pure_bind' {α β} (a : α) (f : α → M β) : (pure a : M α) >>= f = f a := rfl

theorem allocEq_trans {x y z : Nat} (h1 : allocEq cfg x y = true) (h2 : allocEq cfg y z = true) :
    allocEq cfg x z = true := by
  simp only [allocEq, Bool.or_eq_true, beq_iff_eq] at *
  rcases h1 with h1 | h1
  · exact Or.inl h1
  · rcases h2 with h2 | h2
    · exact Or.inl h2
    · exact Or.inr (h1.trans h2)

theorem allocEq_refl (x : Nat) : allocEq cfg x x = true := by simp [allocEq]

theorem allocEq_symm {x y : Nat} (h1 : allocEq cfg x y = true) : allocEq cfg y x = true := by
  simp only [allocEq, Bool.or_eq_true, beq_iff_eq] at *
  rcases h1 with h1 | h1
  · exact Or.inl h1
  · exact Or.inr h1.symm

def Abs.set2 (σ : Abs) (o : Nat) (t : Snap) (a : Nat) (s : Snap) : Abs :=
  { σ with snaps := upd (upd σ.snaps o (some t)) a (some s) }

theorem WF.ghost {w : World} (W : WF cfg w) (k c : Nat) : WF cfg { w with tick := k, copies := c } :=
  ⟨fun a s h => let A := W.any a s h; ⟨A.destroyIn, A.shape, A.full, A.empty⟩, W.blkInj, W.objInj,
    W.owned, W.freed, W.beyondBlk, W.destroyed, W.beyondObj, W.once⟩

theorem Rep.tick {w : World} {σ : Abs} (R : Rep cfg w σ) (k : Nat) : Rep cfg { w with tick := k } σ :=
  ⟨R.wf.ghost k w.copies, R.snaps, R.nb, R.no, R.cp⟩

/-- Allocate `n` bytes with allocator `al` and attach them to the any at `a`. -/
def acquire (cfg : Cfg) (al a n : Nat) : M Unit := do
  let b ← allocate cfg al n
  modifyAny a (fun s => { s with vp := .blk b })
  writeSize cfg a n

theorem acquire_spec {w : World} {σ : Abs} {a n al : Nat} {s : Snap} (R : Rep cfg w σ)
    (hs : σ.snaps a = some s) (ho : s.obj = none) (hm : s.mem = none)
    (hal : allocEq cfg al s.al = true) :
    (∃ w', acquire cfg al a n w = .ok () w' ∧
      Rep cfg w' { σ.set a { s with mem := some (σ.nb, n) } with nb := σ.nb + 1 } ∧
      cfg.faults w.tick = false ∧ w'.tick = w.tick + 1) ∨
    (∃ w', acquire cfg al a n w = .exn w' ∧ Rep cfg w' σ ∧ w'.anys = w.anys ∧ w'.blks = w.blks ∧ cfg.faults w.tick = true) := by
  obtain ⟨st, D⟩ := R.det hs
  have W := R.wf
  have ha := D.get
  have hv := D.objNone ho
  have hms := D.ok.destroyIn
  have hd := D.memNone hm
  have hfree := D.ok.empty hv
  rw [hd] at hfree
  simp only [cellAt, ha, Option.bind_some] at hfree
  have hnone : content w a = none := by rw [D.cont, ho]
  by_cases hf : cfg.faults w.tick = true
  · refine Or.inr ⟨{ w with tick := w.tick + 1 }, by simp [acquire, allocate, throwPoint, hf], ?_, rfl, rfl, hf⟩
    exact R.tick _
  · refine Or.inl ⟨{ w with tick := w.tick + 1, nextBlk := w.nextBlk + 1, blks := upd w.blks w.nextBlk (some ⟨n, al, none⟩), anys := upd w.anys a (some { st with vp := .blk w.nextBlk, buf := .size n }) }, ?_, ?_, by simpa using hf, rfl⟩
    · simp [acquire, allocate, throwPoint, hf, modifyAny, getAny, ha, writeSize, hfree]
    · have hal' : allocEq cfg al st.al = true := by rw [← D.al]; exact hal
      refine R.change1 (a := a) (s' := { s with mem := some (σ.nb, n) }) ?_ ?_ ?_
      · change_tac W
        rintro c s rfl hs
        simp at hs; subst hs
        exact ⟨hms, Or.inr ⟨w.nextBlk, ⟨n, al, none⟩, rfl, by simp, rfl, hal'⟩, by simp [hv],
          by simp [cellAt, cellFree]⟩
      · simp [snap, memOf, content, hv, R.nb]
        simp [D.ms, D.al, ho]
      · simp [Abs.set, R.nb, R.cp, R.no]

theorem VtOk.subtable {msTo msFrom : List Method} {v : VtPtr} (h : VtOk msFrom v)
    (hi : msTo <:+: msFrom) (w : World) :
    ∃ v', subtablePtr msTo msFrom v w = .ok v' w ∧ v'.ty = v.ty ∧ VtOk msTo v' := by
  unfold subtablePtr
  by_cases he : msTo = msFrom
  · subst he; exact ⟨v, by simp, rfl, h⟩
  · have h1 : hasSubsequence msTo msFrom = true := (hasSubsequence_iff _ _).2 ((occurs_infix _ _).2 hi)
    cases hf : findSubsequence msTo msFrom with
    | none => simp [hasSubsequence, hf] at h1
    | some i =>
      refine ⟨{ v with off := v.off + i }, by simp [he], rfl, ?_⟩
      obtain ⟨bef, aft, hbef, hlen⟩ := ((findSubsequence_some _ _ _).1 hf).1
      obtain ⟨r, hr⟩ := h
      unfold VtOk
      simp only []
      rw [← List.drop_drop, ← hr, hbef, ← hlen]
      simp [List.append_assoc]

/-- The any has a move function: `aa::move` or some `copy_with`. -/
abbrev HasMove (ms : List Method) : Prop := HasMoveFn ms

theorem someCopyMethod_mem {ms : List Method} {k : Nat} (h : Method.copy k ∈ ms) :
    ∃ j, someCopyMethod ms = some (.copy j) ∧ Method.copy j ∈ ms := by
  induction ms with
  | nil => simp at h
  | cons m ms ih =>
    cases m with
    | copy j => exact ⟨j, rfl, by simp⟩
    | destroy => obtain ⟨j, h1, h2⟩ := ih (by simpa using h); exact ⟨j, h1, by simp [h2]⟩
    | move => obtain ⟨j, h1, h2⟩ := ih (by simpa using h); exact ⟨j, h1, by simp [h2]⟩
    | typeInfo => obtain ⟨j, h1, h2⟩ := ih (by simpa using h); exact ⟨j, h1, by simp [h2]⟩
    | equalTo => obtain ⟨j, h1, h2⟩ := ih (by simpa using h); exact ⟨j, h1, by simp [h2]⟩
    | spaceship => obtain ⟨j, h1, h2⟩ := ih (by simpa using h); exact ⟨j, h1, by simp [h2]⟩
    | hash => obtain ⟨j, h1, h2⟩ := ih (by simpa using h); exact ⟨j, h1, by simp [h2]⟩
    | user n => obtain ⟨j, h1, h2⟩ := ih (by simpa using h); exact ⟨j, h1, by simp [h2]⟩

theorem getMoveFn_ok {s : AnySt} {v : VtPtr} (hv : s.vt = some v) (ho : VtOk s.ms v)
    (hm : HasMove s.ms) (w : World) : getMoveFn s w = .ok v.ty w := by
  unfold getMoveFn
  by_cases h : Method.move ∈ s.ms
  · simp [h, slotTy_ok hv ho h]
  · rcases hm with h' | ⟨k, hk⟩
    · exact absurd h' h
    · obtain ⟨j, h1, h2⟩ := someCopyMethod_mem hk
      simp [h, h1, slotTy_ok hv ho h2]

/-- `value_ptr = exchange(other.value_ptr, other.data); size_allocated = other.size_allocated;
vtable_ptr = ...; other.vtable_ptr = nullptr` -/
def steal (cfg : Cfg) (a o : Nat) (p : Ptr) (msTo msFrom : List Method) (v : VtPtr) : M Unit := do
  modifyAny o (fun t => { t with vp := .data o })
  modifyAny a (fun s => { s with vp := p })
  let n ← readSize o
  writeSize cfg a n
  let v' ← subtablePtr msTo msFrom v
  modifyAny a (fun s => { s with vt := some v' })
  modifyAny o (fun t => { t with vt := none })

theorem steal_spec {w : World} {σ : Abs} {a o b n : Nat} {s t : Snap} {st tt : AnySt} {v : VtPtr}
    {ob : Obj} (R : Rep cfg w σ) (hne : a ≠ o)
    (hs : σ.snaps a = some s) (ht : σ.snaps o = some t) (ho : s.obj = none) (hm : s.mem = none)
    (hto : t.obj = some ob) (htm : t.mem = some (b, n)) (hal : allocEq cfg t.al s.al = true)
    (hi : s.ms <:+: t.ms) (hst : w.anys a = some st) (htt : w.anys o = some tt) (hv : tt.vt = some v) :
    ∃ w', steal cfg a o tt.vp st.ms tt.ms v w = .ok () w' ∧ w'.tick = w.tick ∧
      Rep cfg w' (σ.set2 o { t with mem := none, obj := none } a { s with mem := t.mem, obj := t.obj }) := by
  obtain ⟨st', D⟩ := R.det hs
  have : st' = st := by have := D.get; rw [hst] at this; injection this with this; exact this.symm
  subst this
  obtain ⟨tt', E⟩ := R.det ht
  have : tt' = tt := by have := E.get; rw [htt] at this; injection this with this; exact this.symm
  subst this
  have W := R.wf
  have ha := D.get
  have hoa := E.get
  have hv0 := D.objNone ho
  have hms := D.ok.destroyIn
  have hmso := E.ok.destroyIn
  have hd := D.memNone hm
  have hfree := D.ok.empty hv0
  rw [hd] at hfree
  simp only [cellAt, ha, Option.bind_some] at hfree
  have hnone : content w a = none := by rw [D.cont, ho]
  obtain ⟨k, hb, hk, hn, hbuf, hkal⟩ := E.memSome b n htm
  obtain ⟨v0, hv1, hcell, hty, hvt, hlt, hborn, hdt, _, hsz⟩ := E.objSome ob hto
  rw [hv] at hv1; injection hv1 with hv1; subst hv1
  have hsome : content w o = some ob := by rw [E.cont, hto]
  have hfr := W.freed b (blk_lt W hk)
  have hblt := blk_lt W hk
  have hi' : st'.ms <:+: tt'.ms := by rw [← D.ms, ← E.ms]; exact hi
  obtain ⟨v', hsub, hty', hvt'⟩ := VtOk.subtable hvt hi' w
  have hsubw : ∀ w2, subtablePtr st'.ms tt'.ms v w2 = .ok v' w2 := by
    intro w2
    unfold subtablePtr at hsub ⊢
    by_cases he : st'.ms = tt'.ms
    · simp only [he, ↓reduceIte, pure_apply, Res.ok.injEq, and_true] at hsub ⊢; exact hsub
    · simp only [he, ↓reduceIte] at hsub ⊢
      cases hfs : findSubsequence st'.ms tt'.ms with
      | none => simp [hfs] at hsub
      | some i => simp only [hfs, pure_apply, Res.ok.injEq, and_true] at hsub ⊢; exact hsub
  let w' : World := { w with anys := upd (upd w.anys o (some { tt' with vp := .data o, vt := none })) a (some { st' with vp := tt'.vp, buf := .size n, vt := some v' }) }
  have hcell' : (w.blks b).bind (·.cell) = some ob := by
    rw [hb] at hcell; exact hcell
  have hkal' : allocEq cfg k.al st'.al = true := by
    rw [← E.al] at hkal; rw [← D.al]; exact allocEq_trans hkal hal
  have hkc : k.cell = some ob := by simpa [hk] using hcell'
  have hcn : content w' a = some ob := by
    simp [content, w', hb, cellAt, hk, hkc]
  have hcn2 : content w' o = none := by
    simp [content, w', upd, Ne.symm hne]
  refine ⟨w', ?_, rfl, ?_⟩
  · simp [steal, modifyAny, getAny, htt, upd, hne, Ne.symm hne, hst, readSize, hbuf, writeSize, hfree,
      hsubw, w']
    funext c; simp only [upd]; grind
  · refine R.change2 hne (s' := { s with mem := t.mem, obj := t.obj })
      (t' := { t with mem := none, obj := none }) ?_ ?_ ?_ ?_
    · have hwn : w'.nextBlk = w.nextBlk := rfl
      have hwo : w'.nextObj = w.nextObj := rfl
      have hwb : ∀ b, w'.blks b = w.blks b := fun _ => rfl
      have hwd : ∀ i, w'.dtors i = w.dtors i := fun _ => rfl
      have hwf : ∀ b, w'.frees b = w.frees b := fun _ => rfl
      have hwbn : ∀ i, w'.born i = w.born i := fun _ => rfl
      have hwa : ∀ c, w'.anys c = if c = a then some { st' with vp := tt'.vp, buf := .size n, vt := some v' } else if c = o then some { tt' with vp := .data o, vt := none } else w.anys c := fun _ => rfl
      clear_value w'
      change_tac W
      rintro c s (rfl | rfl) hs
      · rw [hwa] at hs
        simp at hs; subst hs
        refine ⟨hms, Or.inr ⟨b, k, hb, by rw [hwb]; exact hk, by simp [hn], hkal'⟩, ?_, by simp⟩
        intro v2 hv2; simp at hv2; subst hv2
        refine ⟨ob, ?_, by rw [hty, hty'], hvt', by omega, by rw [hwbn]; exact hborn, by rw [hwd]; exact hdt, ?_, ?_⟩
        · simp [hb, cellAt, hwb, hk, hkc]
        · simp [hb]
        · intro b2 k2 hb2 hk2
          exact hsz b2 k2 hb2 (by rw [← hwb]; exact hk2)
      · rw [hwa] at hs
        simp [upd, Ne.symm hne] at hs; subst hs
        refine ⟨hmso, Or.inl rfl, by simp, ?_⟩
        simp [cellAt, hwa, upd, Ne.symm hne, hbuf, Buf.cell, cellFree]
    · simp only [snap, memOf, hcn]
      simp [w', hb, hk, D.ms, D.al, htm, hto, hn]
    · simp only [snap, memOf, hcn2]
      simp [w', upd, Ne.symm hne, E.ms, E.al]
    · simp [w', R.nb, R.no, R.cp, Abs.set2]

end AnyAny.Mem
