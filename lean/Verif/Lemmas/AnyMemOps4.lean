import Verif.Lemmas.AnyMemOps3
namespace AnyAny.Mem
open AnyAny.TypeList
variable {cfg : Cfg}

/-- Type and value of the contained object. -/
def Snap.val (s : Snap) : Option (Nat × Nat) := s.obj.map fun o => (o.ty, o.val)

theorem finallyDo_ok {α} {m : M α} {f : M Unit} {w w1 w2 : World} {x : α} (h : m w = .ok x w1)
    (hf : f w1 = .ok () w2) : finallyDo m f w = .ok x w2 := by simp [finallyDo, h, hf]
theorem finallyDo_exn {α} {m : M α} {f : M Unit} {w w1 w2 : World} (h : m w = .exn w1)
    (hf : f w1 = .ok () w2) : finallyDo m f w = .exn w2 := by simp [finallyDo, h, hf]
theorem finallyDo_term {α} {m : M α} {f : M Unit} {w : World} (h : m w = .term) :
    finallyDo m f w = .term := by simp [finallyDo, h]

structure MovedFacts (cfg : Cfg) (σ : Abs) (a : Nat) (s : Snap) (o : Nat) (t : Snap) (σ' : Abs)
    (s' t' : Snap) : Prop where
  geta : σ'.snaps a = some s'
  geto : σ'.snaps o = some t'
  msa : s'.ms = s.ms
  mso : t'.ms = t.ms
  ala : s'.al = if cfg.alwaysEq then s.al else if cfg.pocma then t.al else s.al
  alo : t'.al = t.al
  vala : s'.val = t.val
  objo : t'.obj = none
  other : ∀ c, c ≠ a → c ≠ o → σ'.snaps c = σ.snaps c
  cp : σ'.cp = σ.cp
  stable : ¬ Unequal cfg s t → t.obj.isSome → t.mem.isSome → s'.mem = t.mem ∧ s'.obj = t.obj ∧ t'.mem = none ∧
    σ'.no = σ.no ∧ σ'.nb = σ.nb
  memSmall : ¬ Unequal cfg s t → t.mem = none → s'.mem = none ∧ σ'.nb = σ.nb


theorem moveAssigned_facts {σ : Abs} {a o : Nat} {s t : Snap} (hne : a ≠ o)
    (ht : σ.snaps o = some t) : ∃ s' t', MovedFacts cfg σ a s o t (moveAssigned cfg σ a s o t) s' t' := by
  have hne' : o ≠ a := Ne.symm hne
  unfold moveAssigned
  split
  · rename_i hU
    obtain ⟨hU1, hU2, hU3⟩ := id hU
    simp only
    split
    · rename_i ob b k c n hob hk hn
      split
      · refine ⟨_, _, Abs.set2_fst .., Abs.set2_snd _ _ _ hne', rfl, rfl, by simp [hU1, hU2], rfl, by simp [Snap.val, hob], rfl, ?_, rfl, fun h => absurd hU h, fun h => absurd hU h⟩
        intro c h1 h2; simp [Abs.set2, Abs.set, upd, h1, h2]
      · simp only [movedFresh, hob, hk]
        split
        · simp only [moved, hob, hk]
          refine ⟨_, _, Abs.set2_fst .., Abs.set2_snd _ _ _ hne', rfl, rfl, by simp [hU1, hU2], rfl, by simp [Snap.val, hob], rfl, ?_, rfl, fun h => absurd hU h, fun h => absurd hU h⟩
          intro c h1 h2; simp [Abs.set2, Abs.set, upd, h1, h2]
        · refine ⟨_, _, Abs.set2_fst .., Abs.set2_snd _ _ _ hne', rfl, rfl, by simp [hU1, hU2], rfl, by simp [Snap.val, hob], rfl, ?_, rfl, fun h => absurd hU h, fun h => absurd hU h⟩
          intro c h1 h2; simp [Abs.set2, Abs.set, upd, h1, h2]
    · unfold movedFresh
      split
      · rename_i ob b n hob hk
        split
        · simp only [moved, hob, hk]
          refine ⟨_, _, Abs.set2_fst .., Abs.set2_snd _ _ _ hne', rfl, rfl, by simp [hU1, hU2], rfl, by simp [Snap.val, hob], rfl, ?_, rfl, fun h => absurd hU h, fun h => absurd hU h⟩
          intro c h1 h2; simp [Abs.set2, Abs.set, upd, h1, h2]
        · refine ⟨_, _, Abs.set2_fst .., Abs.set2_snd _ _ _ hne', rfl, rfl, by simp [hU1, hU2], rfl, by simp [Snap.val, hob], rfl, ?_, rfl, fun h => absurd hU h, fun h => absurd hU h⟩
          intro c h1 h2; simp [Abs.set2, Abs.set, upd, h1, h2]
      · unfold moved
        split
        · rename_i hob
          refine ⟨_, t, Abs.set_snaps .., by rw [Abs.set_other _ _ hne']; exact ht, rfl, rfl, by simp [hU1, hU2], rfl, by simp [Snap.val, hob], hob, ?_, rfl, fun h => absurd hU h, fun h => absurd hU h⟩
          intro c h1 h2; simp [Abs.set2, Abs.set, upd, h1, h2]
        · rename_i ob p hob hk
          refine ⟨_, _, Abs.set2_fst .., Abs.set2_snd _ _ _ hne', rfl, rfl, by simp [hU1, hU2], rfl, by simp [Snap.val, hob], rfl, ?_, rfl, fun h => absurd hU h, fun h => absurd hU h⟩
          intro c h1 h2; simp [Abs.set2, Abs.set, upd, h1, h2]
        · rename_i ob hob hk
          refine ⟨_, _, Abs.set2_fst .., Abs.set2_snd _ _ _ hne', rfl, rfl, by simp [hU1, hU2], rfl, by simp [Snap.val, hob], rfl, ?_, rfl, fun h => absurd hU h, fun h => absurd hU h⟩
          intro c h1 h2; simp [Abs.set2, Abs.set, upd, h1, h2]
  · rename_i hU
    have hal : (if cfg.alwaysEq = true then s.al else t.al) = if cfg.alwaysEq then s.al else if cfg.pocma then t.al else s.al := by
      cases h1 : cfg.alwaysEq <;> cases h2 : cfg.pocma <;> simp
      exact Classical.byContradiction fun hc => hU ⟨h1, h2, fun h => hc h.symm⟩
    simp only
    unfold moved
    split
    · rename_i hob
      refine ⟨_, t, Abs.set_snaps .., by rw [Abs.set_other _ _ hne']; exact ht, rfl, rfl, hal, rfl, by simp [Snap.val, hob], hob, ?_, rfl, by simp [hob], fun _ _ => ⟨rfl, rfl⟩⟩
      intro c h1 h2; simp [Abs.set2, Abs.set, upd, h1, h2]
    · rename_i ob p hob hk
      refine ⟨_, _, Abs.set2_fst .., Abs.set2_snd _ _ _ hne', rfl, rfl, hal, rfl, by simp [Snap.val, hob], rfl, ?_, rfl, fun _ _ _ => ⟨rfl, rfl, rfl, rfl, rfl⟩, by simp [hk]⟩
      intro c h1 h2; simp [Abs.set2, Abs.set, upd, h1, h2]
    · rename_i ob hob hk
      refine ⟨_, _, Abs.set2_fst .., Abs.set2_snd _ _ _ hne', rfl, rfl, hal, rfl, by simp [Snap.val, hob], rfl, ?_, rfl, by simp [hk], fun _ _ => ⟨rfl, rfl⟩⟩
      intro c h1 h2; simp [Abs.set2, Abs.set, upd, h1, h2]

/-- The state of a freshly copy-constructed any. -/
def copySnap (cfg : Cfg) (σ : Abs) (ms : List Method) (t : Snap) : Snap :=
  { ms := ms, al := cfg.soccc t.al
    mem := t.obj.bind fun ob => if fits cfg ob.ty then none else some (σ.nb, (cfg.ty ob.ty).size)
    obj := t.obj.map fun ob => ⟨σ.no, ob.ty, ob.val⟩ }

theorem copyConstructed_eq (σ : Abs) (a : Nat) (ms : List Method) (t : Snap) :
    (copyConstructed cfg σ a ms t).snaps = upd σ.snaps a (some (copySnap cfg σ ms t)) ∧
    (copyConstructed cfg σ a ms t).cp = σ.cp + (if t.obj.isSome then 1 else 0) := by
  unfold copyConstructed copySnap copied
  cases t.obj with
  | none => exact ⟨rfl, rfl⟩
  | some ob =>
    simp only [Option.map_some, Option.bind_some]
    split <;> exact ⟨rfl, rfl⟩

/-- State of the target of a copy assignment after the allocator was propagated. -/
def propagated (cfg : Cfg) (s t : Snap) : Snap :=
  if (!cfg.alwaysEq && cfg.pocca) = true ∧ s.al ≠ t.al then { s with obj := none, mem := none, al := t.al } else s

/-- State after `a = o` (copy), `tmp` being the address of the local copy. -/
def copyAssigned (cfg : Cfg) (σ : Abs) (a : Nat) (s : Snap) (t : Snap) (tmp : Nat) : Abs :=
  (moveAssigned cfg ((copyConstructed cfg σ tmp t.ms t).set a (propagated cfg s t)) a (propagated cfg s t)
    tmp (copySnap cfg σ t.ms t)).del tmp

theorem copyAssign_spec {w : World} {σ : Abs} {a o tmp : Nat} {s t : Snap} (C : CfgOk cfg)
    (R : Rep cfg w σ) (htmp : σ.snaps tmp = none) (hs : σ.snaps a = some s) (ht : σ.snaps o = some t)
    (hms : s.ms = t.ms) (hcp : .copy 0 ∈ t.ms)
    (hal : cfg.soos = 0 → t.obj.isSome → ¬ Unequal cfg (propagated cfg s t) (copySnap cfg σ t.ms t)) :
    (∃ w', copyAssign cfg a o tmp w = .ok () w' ∧ Rep cfg w' (copyAssigned cfg σ a s t tmp)) ∨
    (t.obj.isSome ∧ ∃ w' nb', copyAssign cfg a o tmp w = .exn w' ∧ Rep cfg w' { σ with nb := nb', cp := σ.cp + 1 }) ∨
    (t.obj.isSome ∧ Unequal cfg (propagated cfg s t) (copySnap cfg σ t.ms t) ∧ ∃ w' σ', copyAssign cfg a o tmp w = .exn w' ∧
      Rep cfg w' σ' ∧ σ'.snaps = upd σ.snaps a (some { propagated cfg s t with obj := none, mem := none })) ∨
    (Unequal cfg (propagated cfg s t) (copySnap cfg σ t.ms t) ∧ ∃ ob, t.obj = some ob ∧
      (cfg.ty ob.ty).nothrowReloc = false ∧ copyAssign cfg a o tmp w = .term) := by
  have hne : a ≠ tmp := by rintro rfl; simp [htmp] at hs
  have hneo : o ≠ tmp := by rintro rfl; simp [htmp] at ht
  obtain ⟨tt, E⟩ := R.det ht
  have hget : getAny o w = .ok tt w := getAny_det E
  have hmv : HasMove t.ms := Or.inr ⟨0, hcp⟩
  rcases copyCtor_spec C R htmp ht (R.destroyIn ht) hcp (List.infix_refl _) with ⟨w1, h1, R1⟩ | ⟨hob, w1, nb', h1, R1⟩
  · obtain ⟨hsn, hcpy⟩ := copyConstructed_eq (cfg := cfg) σ tmp t.ms t
    have hs1 : (copyConstructed cfg σ tmp t.ms t).snaps a = some s := by rw [hsn, upd_other _ _ _ _ hne]; exact hs
    have ht1 : (copyConstructed cfg σ tmp t.ms t).snaps o = some t := by rw [hsn, upd_other _ _ _ _ hneo]; exact ht
    have hp1 : (copyConstructed cfg σ tmp t.ms t).snaps tmp = some (copySnap cfg σ t.ms t) := by rw [hsn, upd_same]
    obtain ⟨st, D⟩ := R1.det hs1
    obtain ⟨to, F⟩ := R1.det ht1
    -- propagation step
    have hprop : ∃ w2, (do
        if !cfg.alwaysEq && cfg.pocca then
          let s ← getAny a
          let t ← getAny o
          if s.al ≠ t.al then
            reset cfg a
            modifyAny a (fun s => { s with al := t.al })
          else pure ()
        else pure () : M Unit) w1 = .ok () w2 ∧
        Rep cfg w2 ((copyConstructed cfg σ tmp t.ms t).set a (propagated cfg s t)) := by
      by_cases hc : (!cfg.alwaysEq && cfg.pocca) = true
      · by_cases he : s.al = t.al
        · refine ⟨w1, ?_, ?_⟩
          · have he' : st.al = to.al := by rw [← D.al, ← F.al]; exact he
            simp only [hc, if_true, bind_apply, getAny_det D, getAny_det F, he', ne_eq, not_true_eq_false, if_false, pure_apply]
          · have : propagated cfg s t = s := by simp [propagated, he]
            rw [this, Abs.set_self hs1]; exact R1
        · have he' : ¬ st.al = to.al := by rw [← D.al, ← F.al]; exact he
          obtain ⟨w2, h2, R2, _⟩ := reset_spec R1 hs1
          obtain ⟨w3, h3, R3⟩ := setAl_spec (al := to.al) R2 (Abs.set_snaps _ _ _) rfl rfl
          refine ⟨w3, ?_, ?_⟩
          · simp only [hc, if_true, bind_apply, getAny_det D, getAny_det F, he', ne_eq, not_false_eq_true, h2, h3]
          · have : propagated cfg s t = { s with obj := none, mem := none, al := t.al } := by
              simp only [propagated, hc, he, ne_eq, not_false_eq_true, and_self, if_true]
            rw [this]
            rw [← F.al, Abs.set_set] at R3
            exact R3
      · refine ⟨w1, by simp only [hc, if_false, pure_apply]; rfl, ?_⟩
        have : propagated cfg s t = s := by
          unfold propagated; rw [if_neg]; exact fun h => hc h.1
        rw [this, Abs.set_self hs1]; exact R1
    obtain ⟨w2, h2, R2⟩ := hprop
    have hs2 := Abs.set_snaps (copyConstructed cfg σ tmp t.ms t) a (propagated cfg s t)
    have hp2 : ((copyConstructed cfg σ tmp t.ms t).set a (propagated cfg s t)).snaps tmp = some (copySnap cfg σ t.ms t) := by
      rw [Abs.set_other _ _ (Ne.symm hne)]; exact hp1
    have hpms : (propagated cfg s t).ms = s.ms := by unfold propagated; split <;> rfl
    have hisS : (copySnap cfg σ t.ms t).obj.isSome = t.obj.isSome := by simp [copySnap]
    have hrun : ∀ r, moveAssign cfg a tmp w2 = r →
        copyAssign cfg a o tmp w = finallyDo (fun _ => r) (destructor cfg tmp) w1 := by
      intro r hr
      simp only [copyAssign, bind_apply, hget, ← E.ms, h1]
      have : ∀ m : M Unit, m w1 = r → finallyDo m (destructor cfg tmp) w1 = finallyDo (fun _ => r) (destructor cfg tmp) w1 := by
        intro m hm; unfold finallyDo; rw [hm]
      apply this
      rw [← hr]
      have hassoc : ∀ (m : M Unit) (f : M Unit), m w1 = .ok () w2 → (m >>= fun _ => f) w1 = f w2 := by
        intro m f hm; simp [hm]
      have := hassoc _ (moveAssign cfg a tmp) h2
      rw [← this]
      by_cases hc : (!cfg.alwaysEq && cfg.pocca) = true
      · simp only [hc, if_true, bind_apply, getAny_det D, getAny_det F]
        by_cases he' : st.al = to.al
        · simp only [he', ne_eq, not_true_eq_false, if_false, pure_apply]
        · simp only [he', ne_eq, not_false_eq_true, if_true, bind_apply]
          repeat' (split <;> try rfl)
          all_goals simp_all
      · simp only [hc, if_false, pure_apply, bind_apply]; rfl
    rcases moveAssign_spec C R2 hne hs2 hp2 (by rw [hpms, hms]; rfl) (Or.inl hmv)
        (by rw [hisS]; exact hal) with ⟨w3, h3, R3, _⟩ | ⟨hU, hk1, hk2, w3, h3, R3, _⟩ | ⟨hU, ob, hob, hn, h3, _⟩
    · obtain ⟨s', t', M⟩ := moveAssigned_facts (cfg := cfg) (s := propagated cfg s t) hne hp2
      obtain ⟨w4, h4, R4⟩ := destructor_spec R3 M.geto
      refine Or.inl ⟨w4, ?_, R4⟩
      rw [hrun _ h3]; exact finallyDo_ok rfl h4
    · have hp3 : (((copyConstructed cfg σ tmp t.ms t).set a (propagated cfg s t)).set a { propagated cfg s t with obj := none, mem := none }).snaps tmp = some (copySnap cfg σ t.ms t) := by
        rw [Abs.set_other _ _ (Ne.symm hne)]; exact hp2
      obtain ⟨w4, h4, R4⟩ := destructor_spec R3 hp3
      refine Or.inr (Or.inr (Or.inl ⟨by rw [← hisS]; exact hk2, hU, w4, _, ?_, R4, ?_⟩))
      · rw [hrun _ h3]; exact finallyDo_exn rfl h4
      · simp only [Abs.del, Abs.set, hsn]
        funext c; simp only [upd]; split
        · subst c; simp [Ne.symm hne, htmp]
        · split <;> rfl
    · refine Or.inr (Or.inr (Or.inr ⟨hU, ?_⟩))
      simp only [copySnap, Option.map_eq_some_iff] at hob
      obtain ⟨ob', hob', rfl⟩ := hob
      exact ⟨ob', hob', hn, by rw [hrun _ h3]; exact finallyDo_term rfl⟩
  · refine Or.inr (Or.inl ⟨hob, w1, nb', ?_, R1⟩)
    simp only [copyAssign, bind_apply, hget, ← E.ms, h1]

end AnyAny.Mem
