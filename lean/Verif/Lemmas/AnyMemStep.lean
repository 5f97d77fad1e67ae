import Verif.Lemmas.AnyMemMat
namespace AnyAny.Mem
open AnyAny.TypeList
variable {cfg : Cfg}

def Abs.vals (σ : Abs) : Vals := fun c => (σ.snaps c).map Snap.val

theorem Abs.vals_set (σ : Abs) (a : Nat) (s : Snap) : (σ.set a s).vals = upd σ.vals a (some s.val) := by
  funext c; simp only [Abs.vals, Abs.set, upd]; split <;> rfl

theorem Abs.vals_of_snaps {σ σ' : Abs} (h : σ'.snaps = σ.snaps) : σ'.vals = σ.vals := by
  unfold Abs.vals; rw [h]

theorem Abs.vals_set2 (σ : Abs) (o : Nat) (t : Snap) (a : Nat) (s : Snap) :
    (σ.set2 o t a s).vals = upd (upd σ.vals o (some t.val)) a (some s.val) := by
  funext c; simp only [Abs.vals, Abs.set2, upd]; split; rfl; split <;> rfl

def Abs.metas (σ : Abs) : Metas := fun c => (σ.snaps c).map fun s => (s.ms, s.al)

theorem metas_upd {σ σ' : Abs} {a : Nat} {s : Snap} (h : σ'.snaps = upd σ.snaps a (some s)) :
    σ'.metas = upd σ.metas a (some (s.ms, s.al)) := by
  funext c; simp only [Abs.metas, h, upd]; split <;> rfl

theorem metas_keep {σ σ' : Abs} {a : Nat} {s s' : Snap} (hs : σ.snaps a = some s)
    (h : σ'.snaps = upd σ.snaps a (some s')) (h1 : s'.ms = s.ms) (h2 : s'.al = s.al) :
    σ'.metas = σ.metas := by
  rw [metas_upd h]
  apply upd_self
  simp [Abs.metas, hs, h1, h2]

theorem metas_moved {σ σ' : Abs} {a o : Nat} {s' t t' : Snap} (hne : a ≠ o) (ht : σ.snaps o = some t)
    (ga : σ'.snaps a = some s') (go : σ'.snaps o = some t') (h1 : t'.ms = t.ms) (h2 : t'.al = t.al)
    (oth : ∀ c, c ≠ a → c ≠ o → σ'.snaps c = σ.snaps c) :
    σ'.metas = upd σ.metas a (some (s'.ms, s'.al)) := by
  funext c
  simp only [Abs.metas, upd]
  by_cases h : c = a
  · subst h; simp [ga]
  · by_cases h' : c = o
    · subst h'; simp [h, go, ht, h1, h2]
    · simp [h, oth c h h']

theorem argOf_spec {w : World} {σ : Abs} {a : Nat} {src : ArgSrc} (R : Rep cfg w σ) (h : src.Valid w a) :
    ∃ arg, argOf src w = .ok arg w ∧ ArgOk σ a arg (src.value σ.vals) := by
  cases src with
  | lit v => exact ⟨.lit v, rfl, .lit v⟩
  | valueOf c =>
    obtain ⟨hne, hc⟩ := h
    obtain ⟨ob, hob⟩ := Option.isSome_iff_exists.1 hc
    have hal : ∃ st, w.anys c = some st := by
      cases hh : w.anys c with
      | none => simp [content, hh] at hob
      | some st => exact ⟨st, rfl⟩
    obtain ⟨st, hst⟩ := hal
    have hs : ∃ s, σ.snaps c = some s ∧ s.obj = some ob := by
      rw [← R.snaps]
      exact ⟨⟨st.ms, st.al, memOf w c, content w c⟩, by simp only [snap, hst, Option.map_some], hob⟩
    obtain ⟨s, hs, ho⟩ := hs
    obtain ⟨st', D⟩ := R.det hs
    refine ⟨.ref st'.vp, by simp [argOf, getAny_det D], ?_⟩
    have : ArgSrc.value σ.vals (.valueOf c) = ob.val := by
      simp [ArgSrc.value, Abs.vals, hs, Snap.val, ho]
    rw [this, ← D.loc]
    exact .ref c s ob hne hs ho

theorem placed_facts (σ : Abs) (a : Nat) (s : Snap) (t v : Nat) (f : Bool) :
    ∃ s', (placed cfg σ a s t v f).snaps = upd σ.snaps a (some s') ∧ s'.val = some (t, v) ∧ s'.ms = s.ms ∧ s'.al = s.al ∧
      (placed cfg σ a s t v f).cp = σ.cp := by
  unfold placed
  split
  · exact ⟨_, rfl, rfl, rfl, rfl, rfl⟩
  · exact ⟨_, rfl, rfl, rfl, rfl, rfl⟩

theorem emplaced_facts (σ : Abs) (a : Nat) (s : Snap) (t v : Nat) :
    ∃ s', (emplaced cfg σ a s t v).snaps = upd σ.snaps a (some s') ∧ s'.val = some (t, v) ∧ s'.ms = s.ms ∧ s'.al = s.al ∧
      (emplaced cfg σ a s t v).cp = σ.cp := by
  unfold emplaced
  split
  · split
    · exact placed_facts ..
    · exact ⟨_, rfl, rfl, rfl, rfl, rfl⟩
  · exact placed_facts ..

theorem vals_upd {σ σ' : Abs} {a : Nat} {s : Snap} (h : σ'.snaps = upd σ.snaps a (some s)) :
    σ'.vals = upd σ.vals a (some s.val) := by
  funext c; simp only [Abs.vals, h, upd]; split <;> rfl

/-- Everything about a successful step. -/
structure StepOk (cfg : Cfg) (w : World) (σ : Abs) (op : Op) (w' : World) (σ' : Abs) : Prop where
  rep : Rep cfg w' σ'
  vals : σ'.vals = specStep cfg σ.vals op
  metas : σ'.metas = specMeta cfg σ.metas op
  frame : ∀ c, ¬ touches op c → σ'.snaps c = σ.snaps c

structure StepExn (cfg : Cfg) (w : World) (σ : Abs) (op : Op) (w' : World) (σ' : Abs) : Prop where
  rep : Rep cfg w' σ'
  keep : ∀ c, ¬ mayLose cfg w op c → σ'.snaps c = σ.snaps c
  alive : ∀ c, (σ'.snaps c).isSome = (σ.snaps c).isSome

theorem keepAll {w : World} {σ : Abs} {op : Op} {w' : World} {σ' : Abs} (R : Rep cfg w' σ')
    (h : σ'.snaps = σ.snaps) : StepExn cfg w σ op w' σ' :=
  ⟨R, fun _ _ => by rw [h], fun _ => by rw [h]⟩

theorem movedVals {σ σ' : Abs} {a o : Nat} {s' t' t : Snap} (hne : a ≠ o) (ht : σ.snaps o = some t)
    (ga : σ'.snaps a = some s') (go : σ'.snaps o = some t') (hv : s'.val = t.val) (hn : t'.obj = none)
    (oth : ∀ c, c ≠ a → c ≠ o → σ'.snaps c = σ.snaps c) :
    σ'.vals = upd (upd σ.vals o (some none)) a (σ.vals o) := by
  funext c
  simp only [Abs.vals, upd]
  by_cases h1 : c = a
  · subst h1; simp [ga, ht, hv]
  · by_cases h2 : c = o
    · subst h2; simp [h1, go, Snap.val, hn]
    · simp [h1, h2, oth c h1 h2]

theorem step_spec (C : CfgOk cfg) {w : World} {σ : Abs} (R : Rep cfg w σ) (op : Op) (L : Legal cfg w op) :
    (∃ w' σ', exec cfg op w = .ok () w' ∧ StepOk cfg w σ op w' σ') ∨
    (∃ w' σ', exec cfg op w = .exn w' ∧ StepExn cfg w σ op w' σ') ∨
    (mayTerminate cfg w op ∧ exec cfg op w = .term) := by
  cases op with
  | allocCtor a ms al =>
    obtain ⟨h1, h2⟩ := L
    rw [R.snaps] at h1
    obtain ⟨w', h', R'⟩ := allocCtor_spec (al := al) R h1 h2
    exact Or.inl ⟨w', _, h', R', by rw [Abs.vals_set]; rfl, metas_upd (s := ⟨ms, al, none, none⟩) rfl, fun c hc => Abs.set_other _ _ hc⟩
  | valueCtor a ms al t arg n =>
    obtain ⟨h1, h2, h3⟩ := L
    rw [R.snaps] at h1
    obtain ⟨ar, har, harg⟩ := argOf_spec R h3
    rcases valueCtor_spec (al := al) n R h1 h2 (C.align t) harg with ⟨w', h', R'⟩ | ⟨_, w', nb', h', R'⟩
    · obtain ⟨s', g1, g2, g3, g4, _⟩ := placed_facts (cfg := cfg) σ a ⟨ms, al, none, none⟩ t (arg.value σ.vals) false
      refine Or.inl ⟨w', _, by simp [exec, har, h'], R', ?_, ?_, ?_⟩
      · unfold constructed; rw [vals_upd g1, g2]; rfl
      · unfold constructed; rw [metas_upd g1, g3, g4]; rfl
      · intro c hc; unfold constructed; rw [g1, upd_other _ _ _ _ hc]
    · exact Or.inr (Or.inl ⟨w', _, by simp [exec, har, h'], keepAll R' rfl⟩)
  | forceCtor a ms t arg n =>
    obtain ⟨h1, h2, h3⟩ := L
    rw [R.snaps] at h1
    obtain ⟨ar, har, harg⟩ := argOf_spec R h3
    rcases forceCtor_spec n R h1 h2 (C.align t) harg with ⟨w', h', R'⟩ | ⟨_, w', nb', h', R'⟩ | ⟨ht, h'⟩
    · obtain ⟨s', g1, g2, g3, g4, _⟩ := placed_facts (cfg := cfg) σ a ⟨ms, cfg.defaultAlloc, none, none⟩ t (arg.value σ.vals) true
      refine Or.inl ⟨w', _, by simp [exec, har, h'], R', ?_, ?_, ?_⟩
      · unfold constructed; rw [vals_upd g1, g2]; rfl
      · unfold constructed; rw [metas_upd g1, g3, g4]; rfl
      · intro c hc; unfold constructed; rw [g1, upd_other _ _ _ _ hc]
    · exact Or.inr (Or.inl ⟨w', _, by simp [exec, har, h'], keepAll R' rfl⟩)
    · exact Or.inr (Or.inr ⟨ht, by simp [exec, har, h']⟩)
  | copyCtor a ms o =>
    obtain ⟨h1, h2, t, h3, h4, h5⟩ := L
    rw [R.snaps] at h1 h3
    rcases copyCtor_spec C R h1 h3 h2 h4 h5 with ⟨w', h', R'⟩ | ⟨_, w', nb', h', R'⟩
    · obtain ⟨g1, g2⟩ := copyConstructed_eq (cfg := cfg) σ a ms t
      refine Or.inl ⟨w', _, h', R', ?_, ?_, ?_⟩
      · rw [vals_upd g1]
        have : some (copySnap cfg σ ms t).val = σ.vals o := by
          simp only [Abs.vals, h3, Option.map_some, copySnap, Snap.val, Option.map_map]; rfl
        rw [this]; rfl
      · rw [metas_upd g1]; simp [specMeta, Abs.metas, h3, copySnap]
      · intro c hc; rw [g1, upd_other _ _ _ _ hc]
    · exact Or.inr (Or.inl ⟨w', _, h', keepAll R' rfl⟩)
  | moveCtor a o =>
    obtain ⟨h1, t, h3, h4⟩ := L
    rw [R.snaps] at h1 h3
    have hne : a ≠ o := by rintro rfl; simp [h1] at h3
    obtain ⟨w', h', R'⟩ := moveCtor_spec R h1 h3 h4
    obtain ⟨s', t', g1, g2, k1, k2, k3, k4, g3, g4, g5, _⟩ := moved_facts (s := ⟨t.ms, t.al, none, none⟩) hne h3 rfl rfl
    exact Or.inl ⟨w', _, h', R', movedVals hne h3 g1 g2 g3 g4 g5, by rw [metas_moved hne h3 g1 g2 k2 k4 g5]; simp [specMeta, Abs.metas, h3, k1, k3], fun c hc => g5 c (fun h => hc (Or.inl h)) (fun h => hc (Or.inr h))⟩
  | transMoveCtor a ms o =>
    obtain ⟨h1, h2, t, h3, h4, h5, h6⟩ := L
    rw [R.snaps] at h1 h3
    have hne : a ≠ o := by rintro rfl; simp [h1] at h3
    obtain ⟨w', h', R'⟩ := transMoveCtor_spec R h1 h3 h2 (fun _ h => h6 h) (fun _ _ => h4) h5
    obtain ⟨s', t', g1, g2, k1, k2, k3, k4, g3, g4, g5, _⟩ := moved_facts (s := ⟨ms, cfg.defaultAlloc, none, none⟩) hne h3 rfl rfl
    exact Or.inl ⟨w', _, h', R', movedVals hne h3 g1 g2 g3 g4 g5, by rw [metas_moved hne h3 g1 g2 k2 k4 g5]; simp [specMeta, k1, k3], fun c hc => g5 c (fun h => hc (Or.inl h)) (fun h => hc (Or.inr h))⟩
  | dtor a =>
    have L' : (snap w a).isSome := L
    rw [R.snaps] at L'
    obtain ⟨s, hs⟩ := Option.isSome_iff_exists.1 L'
    obtain ⟨w', h', R'⟩ := destructor_spec R hs
    refine Or.inl ⟨w', _, h', R', ?_, ?_, ?_⟩
    · funext c; simp only [Abs.vals, Abs.del, specStep, upd]; split <;> rfl
    · funext c; simp only [Abs.metas, Abs.del, specMeta, upd]; split <;> rfl
    · intro c hc; simp only [Abs.del]; exact upd_other _ _ _ _ hc
  | copyAssign a o tmp =>
    obtain ⟨h1, s, h2, t, h3, h4, h5, h6⟩ := L
    have h2' := h2
    have h3' := h3
    rw [R.snaps] at h1 h2 h3
    have hne : a ≠ tmp := by rintro rfl; simp [h1] at h2
    have hpal : (propagated cfg s t).al = propagatedAl cfg s.al t.al := by
      unfold propagated propagatedAl
      by_cases hc : (!cfg.alwaysEq && cfg.pocca) = true
      · by_cases he : s.al = t.al
        · simp [he]
        · simp [hc, he]
      · simp [hc]
    have hpms : (propagated cfg s t).ms = s.ms := by unfold propagated; split <;> rfl
    have hU : Unequal cfg (propagated cfg s t) (copySnap cfg σ t.ms t) ↔
        AllocsDiffer cfg (propagatedAl cfg s.al t.al) (cfg.soccc t.al) := by
      unfold Unequal; rw [hpal]; rfl
    rcases copyAssign_spec C R h1 h2 h3 h4 h5 (fun h0 _ => by rw [hU]; exact h6 h0) with
      ⟨w', h', R'⟩ | ⟨_, w', nb', h', R'⟩ | ⟨_, hu, w', σ', h', R', g⟩ | ⟨hu, ob, hob, hn, h'⟩
    · obtain ⟨g1, g2⟩ := copyConstructed_eq (cfg := cfg) σ tmp t.ms t
      have hp2 : ((copyConstructed cfg σ tmp t.ms t).set a (propagated cfg s t)).snaps tmp = some (copySnap cfg σ t.ms t) := by
        rw [Abs.set_other _ _ (Ne.symm hne), g1, upd_same]
      obtain ⟨s', t', M⟩ := moveAssigned_facts (cfg := cfg) (s := propagated cfg s t) hne hp2
      have hsn : ∀ c, (copyAssigned cfg σ a s t tmp).snaps c = if c = a then some s' else σ.snaps c := by
        intro c
        simp only [copyAssigned, Abs.del, upd]
        by_cases hct : c = tmp
        · subst c; simp [Ne.symm hne, h1]
        · by_cases hca : c = a
          · subst c; simp [hct, M.geta]
          · simp only [hct, hca, if_false]
            rw [M.other c hca hct, Abs.set_other _ _ hca, g1, upd_other _ _ _ _ hct]
      refine Or.inl ⟨w', _, h', R', ?_, ?_, ?_⟩
      · funext c
        simp only [Abs.vals, hsn, specStep, upd]
        split
        · simp only [Option.map_some, M.vala, h3]
          simp [copySnap, Snap.val, Option.map_map]; rfl
        · rfl
      · funext c
        simp only [Abs.metas, hsn, specMeta, upd]
        split
        · simp only [Option.map_some, Option.bind_some, h2, h3, M.msa, M.ala, hpms, hpal]
          rfl
        · rfl
      · intro c hc; rw [hsn]; exact if_neg hc
    · exact Or.inr (Or.inl ⟨w', _, h', keepAll R' rfl⟩)
    · refine Or.inr (Or.inl ⟨w', σ', h', R', ?_, ?_⟩)
      · intro c hc
        rw [g, upd_other]
        intro hca
        exact hc ⟨hca, s, t, h2', h3', hU.1 hu⟩
      · intro c; rw [g]; simp only [upd]; split
        · subst c; simp [h2]
        · rfl
    · exact Or.inr (Or.inr ⟨⟨s, t, h2', h3', hU.1 hu, ob, hob, hn⟩, h'⟩)
  | moveAssign a o =>
    obtain ⟨s, h2, t, h3, h4, h5, h6⟩ := L
    have h2' := h2
    have h3' := h3
    rw [R.snaps] at h2 h3
    by_cases hne : a = o
    · subst hne
      refine Or.inl ⟨w, σ, moveAssign_self a, R, by simp [specStep], ?_, fun _ _ => rfl⟩
      refine (upd_self ?_).symm
      simp [Abs.metas, h2, moveAssignAl]
    · rcases moveAssign_spec C R hne h2 h3 h4 h5.movable (fun h _ => h6 h) with
        ⟨w', h', R', _⟩ | ⟨hu, _, _, w', h', R', _⟩ | ⟨hu, ob, hob, hn, h', hm, _⟩
      · obtain ⟨s', t', M⟩ := moveAssigned_facts (cfg := cfg) (s := s) hne h3
        refine Or.inl ⟨w', _, h', R', ?_, ?_, ?_⟩
        · simp only [specStep, hne, if_false]
          exact movedVals hne h3 M.geta M.geto M.vala M.objo M.other
        · rw [metas_moved hne h3 M.geta M.geto M.mso M.alo M.other, M.msa, M.ala]
          simp [specMeta, Abs.metas, h2, h3, moveAssignAl]
        · intro c hc; exact M.other c (fun h => hc (Or.inl h)) (fun h => hc (Or.inr h))
      · refine Or.inr (Or.inl ⟨w', _, h', R', ?_, ?_⟩)
        · intro c hc
          exact Abs.set_other _ _ (fun hca => hc ⟨hca, s, t, h2', h3', hu⟩)
        · intro c; simp only [Abs.set, upd]; split
          · subst c; simp [h2]
          · rfl
      · exact Or.inr (Or.inr ⟨⟨s, t, h2', h3', hu, hm, ob, hob, hn⟩, h'⟩)
  | emplace a t arg n =>
    obtain ⟨h1, h3⟩ := L
    rw [R.snaps] at h1
    obtain ⟨s, hs⟩ := Option.isSome_iff_exists.1 h1
    obtain ⟨ar, har, harg⟩ := argOf_spec R h3
    rcases emplace_spec n R hs (C.align t) harg with ⟨w', h', R'⟩ | ⟨_, w', σ', h', ⟨nb', m', _, rfl⟩, R'⟩
    · obtain ⟨s', g1, g2, g3, g4, _⟩ := emplaced_facts (cfg := cfg) σ a s t (arg.value σ.vals)
      refine Or.inl ⟨w', _, by simp [exec, har, h'], R', ?_, metas_keep hs g1 g3 g4, ?_⟩
      · rw [vals_upd g1, g2]; rfl
      · intro c hc; rw [g1, upd_other _ _ _ _ hc]
    · refine Or.inr (Or.inl ⟨w', _, by simp [exec, har, h'], R', ?_, ?_⟩)
      · intro c hc; simp only [Abs.set]; exact upd_other _ _ _ _ hc
      · intro c; simp only [Abs.set, upd]; split
        · subst c; simp [hs]
        · rfl
  | reset a =>
    have L' : (snap w a).isSome := L
    rw [R.snaps] at L'
    obtain ⟨s, hs⟩ := Option.isSome_iff_exists.1 L'
    obtain ⟨w', h', R', _⟩ := reset_spec R hs
    exact Or.inl ⟨w', _, h', R', by rw [Abs.vals_set]; rfl, metas_keep hs rfl rfl rfl, fun c hc => Abs.set_other _ _ hc⟩
  | destroyValue a =>
    have L' : (snap w a).isSome := L
    rw [R.snaps] at L'
    obtain ⟨s, hs⟩ := Option.isSome_iff_exists.1 L'
    obtain ⟨w', h', R', _⟩ := destroyValue_spec R hs
    exact Or.inl ⟨w', _, h', R', by rw [Abs.vals_set]; rfl, metas_keep hs rfl rfl rfl, fun c hc => Abs.set_other _ _ hc⟩
  | replaceWithBytes a n =>
    have L' : (snap w a).isSome := L
    rw [R.snaps] at L'
    obtain ⟨s, hs⟩ := Option.isSome_iff_exists.1 L'
    rcases replaceWithBytes_spec (n := n) R hs with ⟨w', m, h', ⟨_, _, R'⟩ | ⟨_, _, R'⟩⟩ | ⟨w', h', R'⟩
    · exact Or.inl ⟨w', _, h', R', by rw [Abs.vals_set]; rfl, metas_keep hs rfl rfl rfl, fun c hc => Abs.set_other _ _ hc⟩
    · refine Or.inl ⟨w', _, h', R', ?_, metas_keep hs (s' := { s with obj := none, mem := some (σ.nb, n) }) rfl rfl rfl, fun c hc => Abs.set_other _ _ hc⟩
      have := Abs.vals_set σ a { s with obj := none, mem := some (σ.nb, n) }
      exact this
    · refine Or.inr (Or.inl ⟨w', _, h', R', fun c hc => Abs.set_other _ _ hc, ?_⟩)
      intro c; simp only [Abs.set, upd]; split
      · subst c; simp [hs]
      · rfl
  | mutate a t v =>
    obtain ⟨s, hs, hti⟩ := L
    rw [R.snaps] at hs
    have hc := anyCastPtr_spec (t := t) R hs (fun _ => hti)
    by_cases hty : s.obj.map (·.ty) = some t
    · obtain ⟨ob, hob, rfl⟩ := Option.map_eq_some_iff.1 hty
      obtain ⟨w', h', R'⟩ := writeObj_spec (x := v) R hs hob
      refine Or.inl ⟨w', _, ?_, R', ?_, metas_keep hs rfl rfl rfl, fun c hc => Abs.set_other _ _ hc⟩
      · simp [exec, hc, hty, h']
      · rw [Abs.vals_set]
        simp [specStep, Abs.vals, hs, Snap.val, hob]
    · refine Or.inl ⟨w, σ, by simp [exec, hc, hty], R, ?_, rfl, fun _ _ => rfl⟩
      simp only [specStep, Abs.vals, hs, Snap.val, Option.map_some]
      cases hob : s.obj with
      | none => rfl
      | some ob =>
        have : ¬ ob.ty = t := fun h => hty (by simp [hob, h])
        simp [this]
  | castCopy a t =>
    obtain ⟨s, hs, hti⟩ := L
    rw [R.snaps] at hs
    rcases anyCastCopy_spec (t := t) R hs (fun _ => hti) with ⟨ob, w', _, _, h', R'⟩ | ⟨_, w', h', R'⟩
    · exact Or.inl ⟨w', σ, by simp [exec, h'], R', rfl, rfl, fun _ _ => rfl⟩
    · exact Or.inr (Or.inl ⟨w', σ, by simp [exec, h'], keepAll R' rfl⟩)
  | castMove a t =>
    obtain ⟨s, hs, hti⟩ := L
    rw [R.snaps] at hs
    rcases anyCastMove_spec (t := t) R hs (fun _ => hti) with ⟨ob, w', hob, hty, h', R'⟩ | ⟨_, w', h', R'⟩
    · refine Or.inl ⟨w', _, by simp [exec, h'], R', ?_, metas_keep hs rfl rfl rfl, fun c hc => Abs.set_other _ _ hc⟩
      rw [Abs.vals_set]
      simp [specStep, Abs.vals, hs, Snap.val, hob, hty]
    · exact Or.inr (Or.inl ⟨w', σ, by simp [exec, h'], keepAll R' rfl⟩)
  | invoke a m x =>
    obtain ⟨s, hs, hm, ho⟩ := L
    rw [R.snaps] at hs
    obtain ⟨ob, hob⟩ := Option.isSome_iff_exists.1 ho
    rcases invokeUser_spec (x := x) R hs hob hm with ⟨w', h', R'⟩ | ⟨_, _, w', h', R'⟩ | ⟨hn, w', h', R'⟩
    · refine Or.inl ⟨w', _, by simp [exec, h'], R', ?_, metas_keep hs rfl rfl rfl, fun c hc => Abs.set_other _ _ hc⟩
      rw [Abs.vals_set]
      simp only [specStep, afterInvoke, Abs.vals, hs, Snap.val, hob, Option.map_some, invoked]
      cases cfg.kind m <;> rfl
    · exact Or.inr (Or.inl ⟨w', σ, by simp [exec, h'], keepAll R' rfl⟩)
    · refine Or.inr (Or.inl ⟨w', _, by simp [exec, h'], R', fun c hc => ?_, fun c => ?_⟩)
      · by_cases hca : c = a
        · subst hca
          by_cases hk : cfg.kind m = .mutRef
          · obtain ⟨st, D⟩ := R.det hs
            exact absurd ⟨rfl, hk, ob.ty, ob.val, by rw [view, D.cont, hob]; rfl, hn⟩ hc
          · have : invokedExn cfg m x ob = ob := by unfold invokedExn; split <;> simp_all
            rw [this, Abs.set_snaps, hs]
            obtain ⟨_, _, _, _⟩ := s; simp_all
        · exact Abs.set_other _ _ hca
      · by_cases hca : c = a
        · subst hca; rw [Abs.set_snaps, hs]; rfl
        · rw [Abs.set_other _ _ hca]
  | swap a b tmp =>
    obtain ⟨h1, s, h2, t, h3, h4, h5, h6⟩ := L
    have h2' := h2
    have h3' := h3
    rw [R.snaps] at h1 h2 h3
    rcases swapAny_spec C R h1 h2 h3 h4 h5.movable h6 with
      ⟨w', σ', h', R', _, _, ⟨s', t', ga, gb, va, vb, ma, mb, la, lb⟩, oth⟩ | ⟨hu, w', σ', h', R', ⟨s', t', ga, gb⟩, oth⟩ | ⟨hu, hn, h'⟩
    · refine Or.inl ⟨w', σ', h', R', ?_, ?_, ?_⟩
      · funext c
        simp only [specStep, Abs.vals, upd]
        by_cases hb : c = b
        · subst c; simp [gb, vb, h2]
        · by_cases ha : c = a
          · subst c; simp [hb, ga, va, h3]
          · simp [ha, hb, oth c ha hb]
      · funext c
        simp only [specMeta, Abs.metas]
        by_cases ha : c = a
        · subst c; simp [ga, h2, h3, ma, la, moveAssignAl]
        · by_cases hb : c = b
          · subst c; simp [ha, gb, h2, h3, mb, lb, moveAssignAl]
          · simp [ha, hb, oth c ha hb]
      · intro c hc; exact oth c (fun h => hc (Or.inl h)) (fun h => hc (Or.inr h))
    · refine Or.inr (Or.inl ⟨w', σ', h', R', ?_, ?_⟩)
      · intro c hc
        exact oth c (fun h => hc ⟨Or.inl h, s, t, h2', h3', hu⟩) (fun h => hc ⟨Or.inr h, s, t, h2', h3', hu⟩)
      · intro c
        by_cases ha : c = a
        · subst c; simp [ga, h2]
        · by_cases hb : c = b
          · subst c; simp [gb, h3]
          · rw [oth c ha hb]
    · exact Or.inr (Or.inr ⟨⟨s, t, h2', h3', hu, hn⟩, h'⟩)
  | materialize a ms al o =>
    obtain ⟨h1, h2, hcp, t, h3, hi, ob, hob, hnt⟩ := L
    rw [R.snaps] at h1 h3
    obtain ⟨tt, v, v', htt, hv, hr, _⟩ := refTo_spec R h3 hob hi
    rcases materialize_spec (al := al) C R h1 h3 h2 hcp hi hob hr hnt with ⟨w', h', R'⟩ | ⟨_, w', nb', h', R'⟩
    · have g : ∃ s', (copied cfg σ a ⟨ms, al, none, none⟩ ob).snaps = upd σ.snaps a (some s') ∧
          s'.val = some (ob.ty, ob.val) ∧ s'.ms = ms ∧ s'.al = al := by
        unfold copied
        split
        · exact ⟨_, rfl, rfl, rfl, rfl⟩
        · exact ⟨_, rfl, rfl, rfl, rfl⟩
      obtain ⟨s', g1, g2, g3, g4⟩ := g
      refine Or.inl ⟨w', _, by simp [exec, hr, h'], R', ?_, ?_, ?_⟩
      · rw [vals_upd g1, g2]; simp [specStep, Abs.vals, h3, Snap.val, hob]
      · rw [metas_upd g1, g3, g4]; rfl
      · intro c hc; rw [g1, upd_other _ _ _ _ hc]
    · exact Or.inr (Or.inl ⟨w', _, by simp [exec, hr, h'], keepAll R' rfl⟩)

theorem Rep_init : Rep cfg World.init ⟨fun _ => none, 0, 0, 0⟩ :=
  ⟨WF_init, by funext c; simp [snap, World.init], rfl, rfl, rfl⟩

theorem Rep.of_wf {w : World} (W : WF cfg w) : Rep cfg w ⟨snap w, w.nextBlk, w.nextObj, w.copies⟩ :=
  ⟨W, rfl, rfl, rfl, rfl⟩

theorem Reachable.wf (C : CfgOk cfg) {w : World} (h : Reachable cfg w) : WF cfg w := by
  induction h with
  | init => exact WF_init
  | ok _ L he ih =>
    rcases step_spec C (Rep.of_wf ih) _ L with ⟨w', σ', h', S⟩ | ⟨w', σ', h', S⟩ | ⟨_, h'⟩
    · rw [he] at h'; cases h'; exact S.rep.wf
    · rw [he] at h'; cases h'
    · rw [he] at h'; cases h'
  | exn _ L he ih =>
    rcases step_spec C (Rep.of_wf ih) _ L with ⟨w', σ', h', S⟩ | ⟨w', σ', h', S⟩ | ⟨_, h'⟩
    · rw [he] at h'; cases h'
    · rw [he] at h'; cases h'; exact S.rep.wf
    · rw [he] at h'; cases h'

end AnyAny.Mem
