import Verif.Lemmas.Fate
namespace AnyAny.Mem
open AnyAny.TypeList
variable {cfg : Cfg}

/-- Objects that stay where they are or are destroyed. -/
def Stays (f : Nat → Option Nat) : Prop := ∀ a, f a = some a ∨ f a = none

/-- All objects after an operation that threw. -/
theorem heir_exn (C : CfgOk cfg) {w w' : World} {op : Op} (W : WF cfg w) (L : Legal cfg w op)
    (he : exec cfg op w = .exn w') :
    ∃ σ' f, Rep cfg w' σ' ∧ Heir ⟨snap w, w.nextBlk, w.nextObj, w.copies⟩ σ' f ∧ Stays f ∧
      (∀ a, (mayLose cfg w op a → ∃ m x, op = .invoke a m x) → f a = some a) := by
  have R := Rep.of_wf W
  have keep : ∀ {σ' : Abs}, Rep cfg w' σ' → σ'.snaps = snap w →
      ∃ σ' f, Rep cfg w' σ' ∧ Heir ⟨snap w, w.nextBlk, w.nextObj, w.copies⟩ σ' f ∧ Stays f ∧
      (∀ a, (mayLose cfg w op a → ∃ m x, op = .invoke a m x) → f a = some a) := fun R' e =>
    ⟨_, some, R', Heir.refl _ e, fun _ => Or.inl rfl, fun _ _ => rfl⟩
  have lose : ∀ {σ' : Abs} {x : Nat} {s' : Snap}, Rep cfg w' σ' → σ'.snaps = upd (snap w) x (some s') → s'.obj = none →
      mayLose cfg w op x → (∀ m y, op ≠ .invoke x m y) →
      ∃ σ' f, Rep cfg w' σ' ∧ Heir ⟨snap w, w.nextBlk, w.nextObj, w.copies⟩ σ' f ∧ Stays f ∧
      (∀ a, (mayLose cfg w op a → ∃ m x, op = .invoke a m x) → f a = some a) := fun {σ'} {x} {s'} R' e e2 e3 e4 =>
    ⟨_, _, R', Heir.fresh (x := x) (fun c hc => by rw [e]; exact upd_other _ _ _ _ hc)
      (fun s'' ob g hob => by rw [e, upd_same] at g; cases g; rw [e2] at hob; cases hob),
      fun a => by
        by_cases h : a = x
        · right; simp [h]
        · left; simp [h],
      fun a h => by
        by_cases hx : a = x
        · subst hx
          obtain ⟨m, y, h'⟩ := h e3
          exact absurd h' (e4 m y)
        · simp [hx]⟩
  generalize hσ : (⟨snap w, w.nextBlk, w.nextObj, w.copies⟩ : Abs) = σ at R keep lose
  have hsn : snap w = σ.snaps := by rw [← hσ]
  clear hσ
  cases op with
  | allocCtor a ms al =>
    obtain ⟨h1, h2⟩ := L
    rw [R.snaps] at h1
    obtain ⟨u, h', R'⟩ := allocCtor_spec (al := al) R h1 h2
    simp [exec, h'] at he
  | valueCtor a ms al t arg n =>
    obtain ⟨h1, h2, h3⟩ := L
    rw [R.snaps] at h1
    obtain ⟨ar, har, harg⟩ := argOf_spec R h3
    rcases valueCtor_spec (al := al) n R h1 h2 (C.align t) harg with ⟨u, h', R'⟩ | ⟨_, u, nb', h', R'⟩
    · simp [exec, har, h'] at he
    · simp [exec, har, h'] at he; subst he
      exact keep R' hsn.symm
  | forceCtor a ms t arg n =>
    obtain ⟨h1, h2, h3⟩ := L
    rw [R.snaps] at h1
    obtain ⟨ar, har, harg⟩ := argOf_spec R h3
    rcases forceCtor_spec n R h1 h2 (C.align t) harg with ⟨u, h', R'⟩ | ⟨_, u, nb', h', R'⟩ | ⟨ht, h'⟩
    · simp [exec, har, h'] at he
    · simp [exec, har, h'] at he; subst he
      exact keep R' hsn.symm
    · simp [exec, har, h'] at he
  | copyCtor a ms o =>
    obtain ⟨h1, h2, t, h3, h4, h5⟩ := L
    rw [R.snaps] at h1 h3
    rcases copyCtor_spec C R h1 h3 h2 h4 h5 with ⟨u, h', R'⟩ | ⟨_, u, nb', h', R'⟩
    · simp [exec, h'] at he
    · simp [exec, h'] at he; subst he
      exact keep R' hsn.symm
  | moveCtor a o =>
    obtain ⟨h1, t, h3, h4⟩ := L
    rw [R.snaps] at h1 h3
    obtain ⟨u, h', R'⟩ := moveCtor_spec R h1 h3 h4
    simp [exec, h'] at he
  | transMoveCtor a ms o =>
    obtain ⟨h1, h2, t, h3, h4, h5, h6⟩ := L
    rw [R.snaps] at h1 h3
    obtain ⟨u, h', R'⟩ := transMoveCtor_spec R h1 h3 h2 (fun _ h => h6 h) (fun _ _ => h4) h5
    simp [exec, h'] at he
  | dtor a =>
    have L' : (snap w a).isSome := L
    rw [R.snaps] at L'
    obtain ⟨s, hs⟩ := Option.isSome_iff_exists.1 L'
    obtain ⟨u, h', R'⟩ := destructor_spec R hs
    simp [exec, h'] at he
  | copyAssign a o tmp =>
    obtain ⟨h1, s, h2, t, h3, h4, h5, h6⟩ := L
    have h2' := h2
    have h3' := h3
    rw [R.snaps] at h1 h2 h3
    have hpal : (propagated cfg s t).al = propagatedAl cfg s.al t.al := by
      unfold propagated propagatedAl
      by_cases hc : (!cfg.alwaysEq && cfg.pocca) = true
      · by_cases he : s.al = t.al
        · simp [he]
        · simp [hc, he]
      · simp [hc]
    have hU : Unequal cfg (propagated cfg s t) (copySnap cfg σ t.ms t) ↔
        AllocsDiffer cfg (propagatedAl cfg s.al t.al) (cfg.soccc t.al) := by
      unfold Unequal; rw [hpal]; rfl
    rcases copyAssign_spec C R h1 h2 h3 h4 h5 (fun h0 _ => by rw [hU]; exact h6 h0) with
      ⟨u, h', R'⟩ | ⟨_, u, nb', h', R'⟩ | ⟨_, hu, u, σ', h', R', g⟩ | ⟨hu, ob, hob, hn, h'⟩
    · simp [exec, h'] at he
    · simp [exec, h'] at he; subst he
      exact keep R' hsn.symm
    · simp [exec, h'] at he; subst he
      exact lose R' (by rw [g, hsn]) rfl ⟨rfl, s, t, h2', h3', hU.1 hu⟩ (fun _ _ h => by cases h)
    · simp [exec, h'] at he
  | moveAssign a o =>
    obtain ⟨s, h2, t, h3, h4, h5, h6⟩ := L
    have h2' := h2
    have h3' := h3
    rw [R.snaps] at h2 h3
    by_cases hne : a = o
    · subst hne
      rw [show exec cfg (.moveAssign a a) w = moveAssign cfg a a w from rfl, moveAssign_self] at he; cases he
    · rcases moveAssign_spec C R hne h2 h3 h4 h5.movable (fun h _ => h6 h) with
        ⟨u, h', R', _⟩ | ⟨hu, _, _, u, h', R', _⟩ | ⟨hu, ob, hob, hn, h', hm, _⟩
      · simp [exec, h'] at he
      · simp [exec, h'] at he; subst he
        exact lose R' (by rw [hsn]; rfl) rfl ⟨rfl, s, t, h2', h3', hu⟩ (fun _ _ h => by cases h)
      · simp [exec, h'] at he
  | emplace a t arg n =>
    obtain ⟨h1, h3⟩ := L
    rw [R.snaps] at h1
    obtain ⟨s, hs⟩ := Option.isSome_iff_exists.1 h1
    obtain ⟨ar, har, harg⟩ := argOf_spec R h3
    rcases emplace_spec n R hs (C.align t) harg with ⟨u, h', R'⟩ | ⟨_, u, σ', h', ⟨nb', m', _, rfl⟩, R'⟩
    · simp [exec, har, h'] at he
    · simp [exec, har, h'] at he; subst he
      exact lose R' (by rw [hsn]; rfl) rfl rfl (fun _ _ h => by cases h)
  | reset a =>
    have L' : (snap w a).isSome := L
    rw [R.snaps] at L'
    obtain ⟨s, hs⟩ := Option.isSome_iff_exists.1 L'
    obtain ⟨u, h', R', _⟩ := reset_spec R hs
    simp [exec, h'] at he
  | destroyValue a =>
    have L' : (snap w a).isSome := L
    rw [R.snaps] at L'
    obtain ⟨s, hs⟩ := Option.isSome_iff_exists.1 L'
    obtain ⟨u, h', R', _⟩ := destroyValue_spec R hs
    simp [exec, h'] at he
  | replaceWithBytes a n =>
    have L' : (snap w a).isSome := L
    rw [R.snaps] at L'
    obtain ⟨s, hs⟩ := Option.isSome_iff_exists.1 L'
    rcases replaceWithBytes_spec (n := n) R hs with ⟨u, m, h', ⟨_, _, R'⟩ | ⟨_, _, R'⟩⟩ | ⟨u, h', R'⟩
    · simp [exec, h'] at he
    · simp [exec, h'] at he
    · simp [exec, h'] at he; subst he
      exact lose R' (by rw [hsn]; rfl) rfl rfl (fun _ _ h => by cases h)
  | mutate a t v =>
    obtain ⟨s, hs, hti⟩ := L
    rw [R.snaps] at hs
    have hc := anyCastPtr_spec (t := t) R hs (fun _ => hti)
    by_cases hty : s.obj.map (·.ty) = some t
    · obtain ⟨ob, hob, rfl⟩ := Option.map_eq_some_iff.1 hty
      obtain ⟨u, h', R'⟩ := writeObj_spec (x := v) R hs hob
      simp [exec, hc, hty, h'] at he
    · simp [exec, hc, hty] at he
  | castCopy a t =>
    obtain ⟨s, hs, hti⟩ := L
    rw [R.snaps] at hs
    rcases anyCastCopy_spec (t := t) R hs (fun _ => hti) with ⟨ob, u, _, _, h', R'⟩ | ⟨_, u, h', R'⟩
    · simp [exec, h'] at he
    · simp [exec, h'] at he; subst he
      exact keep R' hsn.symm
  | castMove a t =>
    obtain ⟨s, hs, hti⟩ := L
    rw [R.snaps] at hs
    rcases anyCastMove_spec (t := t) R hs (fun _ => hti) with ⟨ob, u, hob, hty, h', R'⟩ | ⟨_, u, h', R'⟩
    · simp [exec, h'] at he
    · simp [exec, h'] at he; subst he
      exact keep R' hsn.symm
  | invoke a m x =>
    obtain ⟨s, hs, hm, ho⟩ := L
    rw [R.snaps] at hs
    obtain ⟨ob, hob⟩ := Option.isSome_iff_exists.1 ho
    rcases invokeUser_spec (x := x) R hs hob hm with ⟨u, h', R'⟩ | ⟨_, _, u, h', R'⟩ | ⟨hn, u, h', R'⟩
    · simp [exec, h'] at he
    · simp [exec, h'] at he; subst he
      exact keep R' hsn.symm
    · simp [exec, h'] at he; subst he
      refine ⟨_, some, R', Heir.same rfl hs rfl ?_, fun _ => Or.inl rfl, fun _ _ => rfl⟩
      simp only [hob, Option.map_some, invokedExn]
      split <;> rfl
  | swap a b tmp =>
    obtain ⟨h1, s, h2, t, h3, h4, h5, h6⟩ := L
    have h2' := h2
    have h3' := h3
    rw [R.snaps] at h1 h2 h3
    have hne : a ≠ tmp := by rintro rfl; simp [h1] at h2
    have hneb : b ≠ tmp := by rintro rfl; simp [h1] at h3
    have hmvs : Movable cfg s.ms := by rw [h4]; exact h5.movable
    replace he : swapAny cfg a b tmp w = .exn w' := he
    simp only [swapAny, bind_apply] at he
    obtain ⟨w1, e1, R1⟩ := moveCtor_spec R h1 h2 hmvs
    have H1 := heir_moved (σ := σ) (s := ⟨s.ms, s.al, none, none⟩) (Ne.symm hne) h2 rfl rfl
    have n1 : σ.no ≤ (moved (σ.set tmp ⟨s.ms, s.al, none, none⟩) tmp ⟨s.ms, s.al, none, none⟩ a s).no := moved_no'
    obtain ⟨u1, s1, gu1, gs1, mu1, ms1, au1, as1, vu1, os1, oth1, cp1, nb1, g6, g7, g8⟩ :=
      moved_facts (s := ⟨s.ms, s.al, none, none⟩) (Ne.symm hne) h2 rfl rfl
    generalize hσ1 : moved (σ.set tmp ⟨s.ms, s.al, none, none⟩) tmp ⟨s.ms, s.al, none, none⟩ a s = σ1 at *
    simp only [e1] at he
    have loses : AllocsDiffer cfg s.al t.al → ∀ c, c = a ∨ c = b → mayLose cfg w (.swap a b tmp) c :=
      fun hd c hc => ⟨hc, s, t, h2', h3', hd⟩
    by_cases hab : a = b
    · subst hab
      have hst : s = t := by rw [h2] at h3; exact Option.some.inj h3
      subst hst
      have hnU : ¬ AllocsDiffer cfg s.al s.al := fun h => h.2.2 rfl
      have hnU' : ¬ Unequal cfg s1 u1 := by
        unfold Unequal; rw [au1, as1]; exact hnU
      rcases moveAssign_spec C R1 hne gs1 gu1 (by rw [mu1, ms1]) (by rw [mu1]; exact hmvs) (fun _ _ => hnU') with
        ⟨w2, e2, R2, _⟩ | ⟨hU, _⟩ | ⟨hU, _⟩
      · obtain ⟨s', t', M⟩ := moveAssigned_facts (cfg := cfg) (s := s1) hne gu1
        obtain ⟨w3, e3, R3⟩ := destructor_spec R2 M.geto
        have e4 := finallyDo_ok (x := ()) (m := (do moveAssign cfg a a; moveAssign cfg a tmp : Mem.M Unit)) (w := w1) (w1 := w2)
          (by simp only [bind_apply, moveAssign_self, e2]) e3
        rw [e4] at he
        cases he
      · exact absurd hU hnU'
      · exact absurd hU hnU'
    · have gt1 : σ1.snaps b = some t := by rw [oth1 b hneb (Ne.symm hab)]; exact h3
      have hU1 : Unequal cfg s1 t ↔ AllocsDiffer cfg s.al t.al := by unfold Unequal; rw [as1]
      rcases moveAssign_spec C R1 hab gs1 gt1 (by rw [ms1]; exact h4) h5.movable (fun h0 _ => by rw [hU1]; exact h6 h0) with
        ⟨w2, e2, R2, _⟩ | ⟨hU, _, _, w2, e2, R2, _⟩ | ⟨hU, ob, hob, hn, e2, _⟩
      · obtain ⟨s2, t2, M⟩ := moveAssigned_facts (cfg := cfg) (s := s1) hab gt1
        have gu2 : (moveAssigned cfg σ1 a s1 b t).snaps tmp = some u1 := by
          rw [M.other tmp (Ne.symm hne) (Ne.symm hneb)]; exact gu1
        have hU2 : Unequal cfg t2 u1 ↔ AllocsDiffer cfg s.al t.al := by
          unfold Unequal; rw [M.alo, au1]; exact ⟨AllocsDiffer.symm, AllocsDiffer.symm⟩
        rcases moveAssign_spec C R2 hneb M.geto gu2 (by rw [M.mso, mu1]; exact h4.symm) (by rw [mu1]; exact hmvs)
          (fun h0 _ => by rw [hU2]; exact h6 h0) with
          ⟨w3, e3, R3, _⟩ | ⟨hU, _, _, w3, e3, R3, _⟩ | ⟨hU, ob, hob, hn, e3, _⟩
        · obtain ⟨t3, u3, N⟩ := moveAssigned_facts (cfg := cfg) (s := t2) hneb gu2
          obtain ⟨w4, e4, R4⟩ := destructor_spec R3 N.geto
          have e5 := finallyDo_ok (x := ()) (m := (do moveAssign cfg a b; moveAssign cfg b tmp : Mem.M Unit)) (w := w1) (w1 := w3)
            (by simp only [bind_apply, e2, e3]) e4
          rw [e5] at he
          cases he
        · have gu3 : ((moveAssigned cfg σ1 a s1 b t).set b { t2 with obj := none, mem := none }).snaps tmp = some u1 := by
            rw [Abs.set_other _ _ (Ne.symm hneb)]; exact gu2
          obtain ⟨w4, e4, R4⟩ := destructor_spec R3 gu3
          have e5 := finallyDo_exn (m := (do moveAssign cfg a b; moveAssign cfg b tmp : Mem.M Unit)) (w := w1) (w1 := w3)
            (by simp only [bind_apply, e2, e3]) e4
          rw [e5] at he
          cases he
          have hd := hU2.1 hU
          have hu1 := decide_eq_true (hU1.2 hd)
          have H2 := heir_moveAssigned (cfg := cfg) (s := s1) hab gt1 (fun h0 _ => by rw [hU1]; exact h6 h0)
          have n2 := Nat.le_trans n1 (moveAssigned_no (cfg := cfg) (σ := σ1) (a := a) (o := b) (s := s1) (t := t))
          have H3 : Heir (moveAssigned cfg σ1 a s1 b t)
              ((moveAssigned cfg σ1 a s1 b t).set b { t2 with obj := none, mem := none }) _ :=
            Heir.fresh (x := b) (fun c hc => Abs.set_other _ _ hc)
              (fun s' ob g hob => by rw [Abs.set_snaps] at g; cases g; cases hob)
          have H4 : Heir ((moveAssigned cfg σ1 a s1 b t).set b { t2 with obj := none, mem := none })
              (((moveAssigned cfg σ1 a s1 b t).set b { t2 with obj := none, mem := none }).del tmp) _ :=
            Heir.fresh (x := tmp) (fun c hc => by simp only [Abs.del]; exact upd_other _ _ _ _ hc)
              (fun s' ob g hob => by simp [Abs.del] at g)
          refine ⟨_, fun c => if c = a ∨ c = b then none else some c, R4,
            (((H1.comp H2 n1).comp H3 n2).comp H4 n2).congr fun c q ob k1 k2 => ?_, fun c => ?_, fun c hc => ?_⟩
          · have hct : c ≠ tmp := by rintro rfl; rw [h1] at k1; cases k1
            rw [hu1]
            by_cases hca : c = a
            · cases s.mem.isSome <;> simp [movedTo, hct, hca, hne, Ne.symm hne, Ne.symm hneb]
            · by_cases hcb : c = b
              · simp [movedTo, hct, hca, hcb, Ne.symm hab, hneb]
              · simp [movedTo, hct, hca, hcb]
          · by_cases h : c = a ∨ c = b
            · exact Or.inr (by simp [h])
            · exact Or.inl (by simp [h])
          · by_cases h : c = a ∨ c = b
            · obtain ⟨_, _, k⟩ := hc (loses hd c h); cases k
            · simp [h]
        · simp [finallyDo, bind_apply, e2, e3] at he
      · have gu3 : (σ1.set a { s1 with obj := none, mem := none }).snaps tmp = some u1 := by
          rw [Abs.set_other _ _ (Ne.symm hne)]; exact gu1
        obtain ⟨w4, e4, R4⟩ := destructor_spec R2 gu3
        have e5 := finallyDo_exn (m := (do moveAssign cfg a b; moveAssign cfg b tmp : Mem.M Unit)) (w := w1) (w1 := w2)
          (by simp only [bind_apply, e2]) e4
        rw [e5] at he
        cases he
        have H2 : Heir σ1 (σ1.set a { s1 with obj := none, mem := none }) _ :=
          Heir.fresh (x := a) (fun c hc => Abs.set_other _ _ hc)
            (fun s' ob g hob => by rw [Abs.set_snaps] at g; cases g; cases hob)
        have H3 : Heir (σ1.set a { s1 with obj := none, mem := none }) ((σ1.set a { s1 with obj := none, mem := none }).del tmp) _ :=
          Heir.fresh (x := tmp) (fun c hc => by simp only [Abs.del]; exact upd_other _ _ _ _ hc)
            (fun s' ob g hob => by simp [Abs.del] at g)
        refine ⟨_, fun c => if c = a then none else some c, R4,
          ((H1.comp H2 n1).comp H3 n1).congr fun c q ob k1 k2 => ?_, fun c => ?_, fun c hc => ?_⟩
        · have hct : c ≠ tmp := by rintro rfl; rw [h1] at k1; cases k1
          by_cases hca : c = a
          · cases s.mem.isSome <;> simp [movedTo, hct, hca, hne, Ne.symm hne]
          · simp [movedTo, hct, hca]
        · by_cases h : c = a
          · exact Or.inr (by simp [h])
          · exact Or.inl (by simp [h])
        · by_cases h : c = a
          · obtain ⟨_, _, k⟩ := hc (loses (hU1.1 hU) c (Or.inl h)); cases k
          · simp [h]
      · simp [finallyDo, bind_apply, e2] at he
  | materialize a ms al o =>
    obtain ⟨h1, h2, hcp, t, h3, hi, ob, hob, hnt⟩ := L
    rw [R.snaps] at h1 h3
    obtain ⟨tt, v, v', htt, hv, hr, _⟩ := refTo_spec R h3 hob hi
    rcases materialize_spec (al := al) C R h1 h3 h2 hcp hi hob hr hnt with ⟨u, h', R'⟩ | ⟨_, u, nb', h', R'⟩
    · simp [exec, hr, h'] at he
    · simp [exec, hr, h'] at he; subst he
      exact keep R' hsn.symm

end AnyAny.Mem
