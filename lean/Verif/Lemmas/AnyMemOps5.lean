import Verif.Lemmas.AnyMemOps4
namespace AnyAny.Mem
open AnyAny.TypeList
variable {cfg : Cfg}

theorem Rep.vals {w : World} {σ : Abs} (R : Rep cfg w σ) :
    vals w = fun c => (σ.snaps c).map Snap.val := by
  funext c
  rw [← R.snaps]
  simp only [Mem.vals, alive, snap, Snap.val, view]
  cases w.anys c <;> simp [Snap.val]

/-- What a move construction does, in the form of `MovedFacts`. -/
theorem moved_facts {σ : Abs} {a o : Nat} {s t : Snap} (hne : a ≠ o) (ht : σ.snaps o = some t) (hs : s.obj = none)
    (hm : s.mem = none) :
    ∃ s' t', (moved (σ.set a s) a s o t).snaps a = some s' ∧
      (moved (σ.set a s) a s o t).snaps o = some t' ∧ s'.ms = s.ms ∧ t'.ms = t.ms ∧ s'.al = s.al ∧ t'.al = t.al ∧
      s'.val = t.val ∧ t'.obj = none ∧ (∀ c, c ≠ a → c ≠ o → (moved (σ.set a s) a s o t).snaps c = σ.snaps c) ∧
      (moved (σ.set a s) a s o t).cp = σ.cp ∧ (moved (σ.set a s) a s o t).nb = σ.nb ∧
      (t.obj.isSome → t.mem.isSome → s'.mem = t.mem ∧ s'.obj = t.obj ∧ t'.mem = none ∧ (moved (σ.set a s) a s o t).no = σ.no) ∧
      (t.mem = none → s'.mem = none) ∧ (t.obj = none → t' = t ∧ s' = s) := by
  have hne' : o ≠ a := Ne.symm hne
  unfold moved
  split
  · rename_i hob
    refine ⟨s, t, Abs.set_snaps .., by rw [Abs.set_other _ _ hne']; exact ht, rfl, rfl, rfl, rfl, by simp [Snap.val, hob, hs], hob, ?_, rfl, rfl, by simp [hob], fun _ => hm, fun _ => ⟨rfl, rfl⟩⟩
    intro c h1 h2; simp [Abs.set2, Abs.set, upd, h1]
  · rename_i ob p hob hk
    refine ⟨_, _, Abs.set2_fst .., Abs.set2_snd _ _ _ hne', rfl, rfl, rfl, rfl, by simp [Snap.val, hob], rfl, ?_, rfl, rfl, fun _ _ => ⟨rfl, rfl, rfl, rfl⟩, by simp [hk], by simp [hob]⟩
    intro c h1 h2; simp [Abs.set2, Abs.set, upd, h1, h2]
  · rename_i ob hob hk
    refine ⟨_, _, Abs.set2_fst .., Abs.set2_snd _ _ _ hne', rfl, rfl, rfl, rfl, by simp [Snap.val, hob], rfl, ?_, rfl, rfl, by simp [hk], fun _ => hm, by simp [hob]⟩
    intro c h1 h2; simp [Abs.set2, Abs.set, upd, h1, h2]

theorem AllocsDiffer.symm {x y : Nat} (h : AllocsDiffer cfg x y) : AllocsDiffer cfg y x :=
  ⟨h.1, h.2.1, fun e => h.2.2 e.symm⟩

theorem moveAssign_self {w : World} (a : Nat) : moveAssign cfg a a w = .ok () w := by
  simp [moveAssign, noexceptIf]

theorem swapAny_spec {w : World} {σ : Abs} {a b tmp : Nat} {s t : Snap} (C : CfgOk cfg)
    (R : Rep cfg w σ) (htmp : σ.snaps tmp = none) (hs : σ.snaps a = some s) (ht : σ.snaps b = some t)
    (hms : s.ms = t.ms) (hmv : Movable cfg t.ms)
    (hal : cfg.soos = 0 → ¬ AllocsDiffer cfg s.al t.al) :
    (∃ w' σ', swapAny cfg a b tmp w = .ok () w' ∧ Rep cfg w' σ' ∧
      σ'.snaps tmp = none ∧ σ'.cp = σ.cp ∧
      (∃ s' t', σ'.snaps a = some s' ∧ σ'.snaps b = some t' ∧ s'.val = t.val ∧ t'.val = s.val ∧ s'.ms = s.ms ∧ t'.ms = t.ms ∧
        s'.al = (if cfg.alwaysEq then s.al else if cfg.pocma then t.al else s.al) ∧
        t'.al = (if cfg.alwaysEq then t.al else if cfg.pocma then s.al else t.al)) ∧
      (∀ c, c ≠ a → c ≠ b → σ'.snaps c = σ.snaps c)) ∨
    (AllocsDiffer cfg s.al t.al ∧ ∃ w' σ', swapAny cfg a b tmp w = .exn w' ∧ Rep cfg w' σ' ∧
      (∃ s' t', σ'.snaps a = some s' ∧ σ'.snaps b = some t') ∧
      (∀ c, c ≠ a → c ≠ b → σ'.snaps c = σ.snaps c)) ∨
    (AllocsDiffer cfg s.al t.al ∧ (∃ ob, (s.obj = some ob ∨ t.obj = some ob) ∧ (cfg.ty ob.ty).nothrowReloc = false) ∧ swapAny cfg a b tmp w = .term) := by
  have hne : a ≠ tmp := by rintro rfl; simp [htmp] at hs
  have hneb : b ≠ tmp := by rintro rfl; simp [htmp] at ht
  have hmvs : Movable cfg s.ms := by rw [hms]; exact hmv
  obtain ⟨w1, h1, R1⟩ := moveCtor_spec R htmp hs hmvs
  obtain ⟨u1, s1, gu1, gs1, mu1, ms1, au1, as1, vu1, os1, oth1, cp1, nb1, _, _, _⟩ :=
    moved_facts (s := ⟨s.ms, s.al, none, none⟩) (Ne.symm hne) hs rfl rfl
  generalize hσ1 : moved (σ.set tmp ⟨s.ms, s.al, none, none⟩) tmp ⟨s.ms, s.al, none, none⟩ a s = σ1 at *
  by_cases hab : a = b
  · subst hab
    have hst : s = t := by rw [hs] at ht; exact Option.some.inj ht
    subst hst
    have hnU : ¬ AllocsDiffer cfg s.al s.al := fun h => h.2.2 rfl
    have hnU' : ¬ Unequal cfg s1 u1 := by
      unfold Unequal; rw [au1, as1]; exact hnU
    rcases moveAssign_spec C R1 hne gs1 gu1 (by rw [mu1, ms1]) (by rw [mu1]; exact hmvs) (fun _ _ => hnU') with
      ⟨w2, h2, R2, _⟩ | ⟨hU, _⟩ | ⟨hU, _⟩
    · obtain ⟨s', t', M⟩ := moveAssigned_facts (cfg := cfg) (s := s1) hne gu1
      obtain ⟨w3, h3, R3⟩ := destructor_spec R2 M.geto
      refine Or.inl ⟨w3, _, ?_, R3, by simp [Abs.del], ?_, ⟨s', s', ?_, ?_, ?_, ?_, ?_, ?_, ?_, ?_⟩, ?_⟩
      · simp only [swapAny, bind_apply, h1]
        refine finallyDo_ok (w1 := w2) ?_ h3
        simp only [bind_apply, moveAssign_self, h2]
      · show (moveAssigned cfg σ1 a s1 tmp u1).cp = _
        rw [M.cp]; exact cp1
      · simp [Abs.del, upd, hne, M.geta]
      · simp [Abs.del, upd, hne, M.geta]
      · rw [M.vala]; exact vu1
      · rw [M.vala]; exact vu1
      · rw [M.msa]; exact ms1
      · rw [M.msa]; exact ms1
      · rw [M.ala, as1, au1]
      · rw [M.ala, as1, au1]
      · intro c hc _
        by_cases hct : c = tmp
        · subst c; simp [Abs.del, htmp]
        · simp only [Abs.del, upd_other _ _ _ _ hct]
          rw [M.other c hc hct]; exact oth1 c hct hc
    · exact absurd hU hnU'
    · exact absurd hU hnU'
  · have gt1 : σ1.snaps b = some t := by rw [oth1 b hneb (Ne.symm hab)]; exact ht
    have hU1 : Unequal cfg s1 t ↔ AllocsDiffer cfg s.al t.al := by unfold Unequal; rw [as1]
    rcases moveAssign_spec C R1 hab gs1 gt1 (by rw [ms1]; exact hms) hmv (fun h0 _ => by rw [hU1]; exact hal h0) with
      ⟨w2, h2, R2, _⟩ | ⟨hU, _, _, w2, h2, R2, _⟩ | ⟨hU, ob, hob, hn, h2, _⟩
    · obtain ⟨s2, t2, M⟩ := moveAssigned_facts (cfg := cfg) (s := s1) hab gt1
      have gu2 : (moveAssigned cfg σ1 a s1 b t).snaps tmp = some u1 := by
        rw [M.other tmp (Ne.symm hne) (Ne.symm hneb)]; exact gu1
      have hU2 : Unequal cfg t2 u1 ↔ AllocsDiffer cfg t.al s.al := by unfold Unequal; rw [M.alo, au1]
      rcases moveAssign_spec C R2 hneb M.geto gu2 (by rw [M.mso, mu1]; exact hms.symm) (by rw [mu1]; exact hmvs)
        (fun h0 _ => by rw [hU2]; exact fun h => hal h0 h.symm) with
        ⟨w3, h3, R3, _⟩ | ⟨hU, _, _, w3, h3, R3, _⟩ | ⟨hU, ob, hob, hn, h3, _⟩
      · obtain ⟨t3, u3, N⟩ := moveAssigned_facts (cfg := cfg) (s := t2) hneb gu2
        obtain ⟨w4, h4, R4⟩ := destructor_spec R3 N.geto
        refine Or.inl ⟨w4, _, ?_, R4, by simp [Abs.del], ?_, ⟨s2, t3, ?_, ?_, ?_, ?_, ?_, ?_, ?_, ?_⟩, ?_⟩
        · simp only [swapAny, bind_apply, h1]
          refine finallyDo_ok (w1 := w3) ?_ h4
          simp only [bind_apply, h2, h3]
        · show (moveAssigned cfg (moveAssigned cfg σ1 a s1 b t) b t2 tmp u1).cp = _
          rw [N.cp, M.cp]; exact cp1
        · simp only [Abs.del, upd_other _ _ _ _ hne]; rw [N.other a hab hne]; exact M.geta
        · simp only [Abs.del, upd_other _ _ _ _ hneb]; exact N.geta
        · exact M.vala
        · rw [N.vala]; exact vu1
        · rw [M.msa]; exact ms1
        · rw [N.msa]; exact M.mso
        · rw [M.ala, as1]
        · rw [N.ala, M.alo, au1]
        · intro c hc hcb
          by_cases hct : c = tmp
          · subst c; simp [Abs.del, htmp]
          · simp only [Abs.del, upd_other _ _ _ _ hct]
            rw [N.other c hcb hct, M.other c hc hcb]; exact oth1 c hct hc
      · have gu3 : ((moveAssigned cfg σ1 a s1 b t).set b { t2 with obj := none, mem := none }).snaps tmp = some u1 := by
          rw [Abs.set_other _ _ (Ne.symm hneb)]; exact gu2
        obtain ⟨w4, h4, R4⟩ := destructor_spec R3 gu3
        refine Or.inr (Or.inl ⟨(hU2.1 hU).symm, w4, _, ?_, R4, ⟨s2, { t2 with obj := none, mem := none }, ?_, ?_⟩, ?_⟩)
        · simp only [swapAny, bind_apply, h1]
          refine finallyDo_exn (w1 := w3) ?_ h4
          simp only [bind_apply, h2, h3]
        · simp only [Abs.del, upd_other _ _ _ _ hne]; rw [Abs.set_other _ _ hab]; exact M.geta
        · simp only [Abs.del, upd_other _ _ _ _ hneb]; simp [Abs.set]
        · intro c hc hcb
          by_cases hct : c = tmp
          · subst c; simp [Abs.del, htmp]
          · simp only [Abs.del, upd_other _ _ _ _ hct]
            rw [Abs.set_other _ _ hcb, M.other c hc hcb]; exact oth1 c hct hc
      · have hsv := vu1
        simp only [Snap.val, hob, Option.map_some] at hsv
        obtain ⟨ob', hob', he'⟩ := Option.map_eq_some_iff.1 hsv.symm
        refine Or.inr (Or.inr ⟨(hU2.1 hU).symm, ⟨ob', Or.inl hob', by have := congrArg Prod.fst he'; simp only [] at this; rw [this]; exact hn⟩, ?_⟩)
        simp only [swapAny, bind_apply, h1]
        refine finallyDo_term ?_
        simp only [bind_apply, h2, h3]
    · have gu3 : (σ1.set a { s1 with obj := none, mem := none }).snaps tmp = some u1 := by
        rw [Abs.set_other _ _ (Ne.symm hne)]; exact gu1
      obtain ⟨w4, h4, R4⟩ := destructor_spec R2 gu3
      refine Or.inr (Or.inl ⟨hU1.1 hU, w4, _, ?_, R4, ⟨{ s1 with obj := none, mem := none }, t, ?_, ?_⟩, ?_⟩)
      · simp only [swapAny, bind_apply, h1]
        refine finallyDo_exn (w1 := w2) ?_ h4
        simp only [bind_apply, h2]
      · simp only [Abs.del, upd_other _ _ _ _ hne]; simp [Abs.set]
      · simp only [Abs.del, upd_other _ _ _ _ hneb]; rw [Abs.set_other _ _ (Ne.symm hab)]; exact gt1
      · intro c hc hcb
        by_cases hct : c = tmp
        · subst c; simp [Abs.del, htmp]
        · simp only [Abs.del, upd_other _ _ _ _ hct]
          rw [Abs.set_other _ _ hc]; exact oth1 c hct hc
    · refine Or.inr (Or.inr ⟨hU1.1 hU, ⟨ob, Or.inr hob, hn⟩, ?_⟩)
      simp only [swapAny, bind_apply, h1]
      refine finallyDo_term ?_
      simp only [bind_apply, h2]

/-! Observers -/

theorem descMethod_mem {ms : List Method} (h : HasDesc ms) : ∃ m, descMethod ms = some m ∧ m ∈ ms := by
  unfold descMethod
  by_cases h1 : Method.spaceship ∈ ms
  · exact ⟨_, by simp [h1], h1⟩
  · by_cases h2 : Method.equalTo ∈ ms
    · exact ⟨_, by simp [h1, h2], h2⟩
    · have h3 : Method.typeInfo ∈ ms := h.resolve_right fun g => g.elim h2 h1
      exact ⟨_, by simp [h1, h2, h3], h3⟩

theorem descTy_ok {s : AnySt} {v : VtPtr} (hv : s.vt = some v) (ho : VtOk s.ms v) (hm : HasDesc s.ms) (w : World) :
    descTy s w = .ok v.ty w := by
  obtain ⟨m, h1, h2⟩ := descMethod_mem hm
  unfold descTy
  rw [h1]
  exact slotTy_ok hv ho h2 w

theorem typeDescriptor_spec {w : World} {σ : Abs} {a : Nat} {s : Snap} (R : Rep cfg w σ)
    (hs : σ.snaps a = some s) (hti : s.obj.isSome → HasDesc s.ms) :
    typeDescriptor a w = .ok (s.obj.map (·.ty)) w := by
  obtain ⟨st, D⟩ := R.det hs
  cases ho : s.obj with
  | none => simp [typeDescriptor, getAny_det D, D.objNone ho]
  | some o =>
    obtain ⟨v, hv, _, hty, hok, _⟩ := D.objSome _ ho
    have := descTy_ok hv hok (by rw [← D.ms]; exact hti (by simp [ho])) w
    simp [typeDescriptor, getAny_det D, hv, this, hty]

theorem anyCastPtr_spec {w : World} {σ : Abs} {a t : Nat} {s : Snap} (R : Rep cfg w σ)
    (hs : σ.snaps a = some s) (hti : s.obj.isSome → HasDesc s.ms) :
    anyCastPtr a t w = .ok (if s.obj.map (·.ty) = some t then some (s.loc a) else none) w := by
  obtain ⟨st, D⟩ := R.det hs
  simp only [anyCastPtr, bind_apply, typeDescriptor_spec R hs hti]
  split
  · simp [getAny_det D, D.loc]
  · simp

theorem readObj_spec {w : World} {σ : Abs} {a : Nat} {s : Snap} {ob : Obj} (R : Rep cfg w σ)
    (hs : σ.snaps a = some s) (ho : s.obj = some ob) : readObj (s.loc a) ob.ty w = .ok ob w := by
  simp [readObj, R.cell hs ho]

theorem mayThrow_spec {w : World} {σ : Abs} (nothrow : Bool) (R : Rep cfg w σ) :
    (∃ w', mayThrow cfg nothrow w = .ok () w' ∧ Rep cfg w' σ) ∨
    (nothrow = false ∧ ∃ w', mayThrow cfg nothrow w = .exn w' ∧ Rep cfg w' σ) := by
  cases nothrow with
  | true => exact Or.inl ⟨w, rfl, R⟩
  | false =>
    cases hf : cfg.faults w.tick with
    | false => exact Or.inl ⟨{ w with tick := w.tick + 1 }, by simp [mayThrow, throwPoint, hf], R.tick _⟩
    | true => exact Or.inr ⟨rfl, { w with tick := w.tick + 1 }, by simp [mayThrow, throwPoint, hf], R.tick _⟩

theorem anyCastCopy_spec {w : World} {σ : Abs} {a t : Nat} {s : Snap} (R : Rep cfg w σ)
    (hs : σ.snaps a = some s) (hti : s.obj.isSome → HasDesc s.ms) :
    (∃ ob w', s.obj = some ob ∧ ob.ty = t ∧ anyCastCopy cfg a t w = .ok ob.val w' ∧ Rep cfg w' σ) ∨
    ((s.obj.map (·.ty) = some t → (cfg.ty t).nothrowCopy = false) ∧
      ∃ w', anyCastCopy cfg a t w = .exn w' ∧ Rep cfg w' σ) := by
  simp only [anyCastCopy, bind_apply, anyCastPtr_spec R hs hti]
  split
  · rename_i hc
    · obtain ⟨ob, hob, hty⟩ := Option.map_eq_some_iff.1 hc
      subst hty
      simp only [bind_apply, readObj_spec R hs hob]
      rcases mayThrow_spec (cfg.ty ob.ty).nothrowCopy R with ⟨w', h', R'⟩ | ⟨hn, w', h', R'⟩
      · exact Or.inl ⟨ob, w', hob, rfl, by simp [h'], R'⟩
      · exact Or.inr ⟨fun _ => hn, w', by simp [h'], R'⟩
  · rename_i hc
    · exact Or.inr ⟨fun h => absurd h hc, w, rfl, R⟩

theorem anyCastMove_spec {w : World} {σ : Abs} {a t : Nat} {s : Snap} (R : Rep cfg w σ)
    (hs : σ.snaps a = some s) (hti : s.obj.isSome → HasDesc s.ms) :
    (∃ ob w', s.obj = some ob ∧ ob.ty = t ∧ anyCastMove cfg a t w = .ok ob.val w' ∧
      Rep cfg w' (σ.set a { s with obj := some { ob with val := cfg.movedFrom t ob.val } })) ∨
    ((s.obj.map (·.ty) = some t → (cfg.ty t).nothrowMove = false) ∧
      ∃ w', anyCastMove cfg a t w = .exn w' ∧ Rep cfg w' σ) := by
  simp only [anyCastMove, bind_apply, anyCastPtr_spec R hs hti]
  split
  · rename_i hc
    · obtain ⟨ob, hob, hty⟩ := Option.map_eq_some_iff.1 hc
      subst hty
      simp only [bind_apply, readObj_spec R hs hob]
      rcases mayThrow_spec (cfg.ty ob.ty).nothrowMove R with ⟨w', h', R'⟩ | ⟨hn, w', h', R'⟩
      · obtain ⟨w'', h'', R''⟩ := writeObj_spec (x := cfg.movedFrom ob.ty ob.val) R' hs hob
        exact Or.inl ⟨ob, w'', hob, rfl, by simp [h', h''], R''⟩
      · exact Or.inr ⟨fun _ => hn, w', by simp [h'], R'⟩
  · rename_i hc
    · exact Or.inr ⟨fun h => absurd h hc, w, rfl, R⟩

/-- Object after an invocation. -/
def invoked (cfg : Cfg) (m x : Nat) (ob : Obj) : Obj :=
  match cfg.kind m with
  | .mutRef => { ob with val := (cfg.impl m ob.ty ob.val x).2 }
  | _ => ob

/-- Object after an invocation that threw. -/
def invokedExn (cfg : Cfg) (m x : Nat) (ob : Obj) : Obj :=
  match cfg.kind m with
  | .mutRef => { ob with val := cfg.partway m ob.ty ob.val x }
  | _ => ob

theorem invokeUser_spec {w : World} {σ : Abs} {a m x : Nat} {s : Snap} {ob : Obj} (R : Rep cfg w σ)
    (hs : σ.snaps a = some s) (hob : s.obj = some ob) (hm : .user m ∈ s.ms) :
    (∃ w', invokeUser cfg a m x w = .ok (cfg.impl m ob.ty ob.val x).1 w' ∧
      Rep cfg w' (σ.set a { s with obj := some (invoked cfg m x ob) })) ∨
    (cfg.kind m = .byValue ∧ (cfg.ty ob.ty).nothrowCopy = false ∧
      ∃ w', invokeUser cfg a m x w = .exn w' ∧ Rep cfg w' σ) ∨
    (cfg.methodNothrow m ob.ty = false ∧ ∃ w', invokeUser cfg a m x w = .exn w' ∧
      Rep cfg w' (σ.set a { s with obj := some (invokedExn cfg m x ob) })) := by
  obtain ⟨st, D⟩ := R.det hs
  obtain ⟨v, hv, _, hty, hok, _⟩ := D.objSome _ hob
  have hslot := slotTy_ok hv hok (by rw [← D.ms]; exact hm) w
  rw [← hty] at hslot
  have hro : readObj st.vp ob.ty w = .ok ob w := by rw [← D.loc]; exact readObj_spec R hs hob
  have hself : σ.set a { s with obj := some ob } = σ := by
    have : ({ s with obj := some ob } : Snap) = s := by obtain ⟨_, _, _, _⟩ := s; simp_all
    rw [this]; exact Abs.set_self hs
  simp only [invokeUser, bind_apply, getAny_det D, hslot, hro]
  cases hk : cfg.kind m with
  | constRef =>
    rcases mayThrow_spec (cfg.methodNothrow m ob.ty) R with ⟨w', h', R'⟩ | ⟨hn, w', h', R'⟩
    · exact Or.inl ⟨w', by simp [h'], by simp only [invoked, hk]; rw [hself]; exact R'⟩
    · exact Or.inr (Or.inr ⟨hn, w', by simp [h'], by simp only [invokedExn, hk]; rw [hself]; exact R'⟩)
  | mutRef =>
    rcases mayThrow_spec (cfg.methodNothrow m ob.ty) R with ⟨w', h', R'⟩ | ⟨hn, w', h', R'⟩
    · obtain ⟨w'', h'', R''⟩ := writeObj_spec (x := (cfg.impl m ob.ty ob.val x).2) R' hs hob
      rw [D.loc] at h''
      exact Or.inl ⟨w'', by simp [onFail, h', h''], by simpa [invoked, hk] using R''⟩
    · obtain ⟨w'', h'', R''⟩ := writeObj_spec (x := cfg.partway m ob.ty ob.val x) R' hs hob
      rw [D.loc] at h''
      exact Or.inr (Or.inr ⟨hn, w'', by simp [onFail, h', h''], by simpa [invokedExn, hk] using R''⟩)
  | byValue =>
    rcases mayThrow_spec (cfg.ty ob.ty).nothrowCopy R with ⟨w', h', R'⟩ | ⟨hn, w', h', R'⟩
    · rcases mayThrow_spec (cfg.methodNothrow m ob.ty) R' with ⟨w'', h'', R''⟩ | ⟨hn, w'', h'', R''⟩
      · exact Or.inl ⟨w'', by simp [h', h''], by simp only [invoked, hk]; rw [hself]; exact R''⟩
      · exact Or.inr (Or.inr ⟨hn, w'', by simp [h', h''], by simp only [invokedExn, hk]; rw [hself]; exact R''⟩)
    · exact Or.inr (Or.inl ⟨rfl, hn, w', by simp [h'], R'⟩)

theorem capacity_spec {w : World} {σ : Abs} {a : Nat} {s : Snap} (R : Rep cfg w σ)
    (hs : σ.snaps a = some s) : capacity cfg a w = .ok ((s.mem.map (·.2)).getD cfg.soos) w := by
  obtain ⟨st, D⟩ := R.det hs
  cases hm : s.mem with
  | none => simp [capacity, getAny_det D, Rep.memAlloc D, hm]
  | some p => simp [capacity, getAny_det D, Rep.memAlloc D, hm, readSize_det D (b := p.1) (n := p.2) hm]

theorem sizeofNow_spec {w : World} {σ : Abs} {a : Nat} {s : Snap} (R : Rep cfg w σ)
    (hs : σ.snaps a = some s) :
    sizeofNow cfg a w = .ok (if s.obj.isSome then (s.mem.map (·.2)).getD cfg.soos else 0) w := by
  obtain ⟨st, D⟩ := R.det hs
  have hv := D.vtIsSome
  cases ho : s.obj with
  | none => simp [sizeofNow, getAny_det D, D.objNone ho]
  | some o =>
    obtain ⟨v, hv, _⟩ := D.objSome _ ho
    cases hm : s.mem with
    | none => simp [sizeofNow, getAny_det D, Rep.memAlloc D, hm, hv]
    | some p => simp [sizeofNow, getAny_det D, Rep.memAlloc D, hm, readSize_det D (b := p.1) (n := p.2) hm, hv]

theorem hasValue_spec {w : World} {σ : Abs} {a : Nat} {s : Snap} (R : Rep cfg w σ)
    (hs : σ.snaps a = some s) : hasValue a w = .ok s.obj.isSome w := by
  obtain ⟨st, D⟩ := R.det hs
  simp [hasValue, getAny_det D, D.vtIsSome]

theorem isStable_spec {w : World} {σ : Abs} {a : Nat} {s : Snap} (R : Rep cfg w σ)
    (hs : σ.snaps a = some s) : isStablePointers a w = .ok s.mem.isSome w := by
  obtain ⟨st, D⟩ := R.det hs
  simp [isStablePointers, getAny_det D, Rep.memAlloc D]

theorem getAllocator_spec {w : World} {σ : Abs} {a : Nat} {s : Snap} (R : Rep cfg w σ)
    (hs : σ.snaps a = some s) : getAllocator a w = .ok s.al w := by
  obtain ⟨st, D⟩ := R.det hs
  simp [getAllocator, getAny_det D, D.al]

end AnyAny.Mem
