import Verif.Lemmas.AnyMemOps2
namespace AnyAny.Mem
open AnyAny.TypeList
variable {cfg : Cfg}

theorem Abs.del_set {σ : Abs} {a : Nat} {s : Snap} (h : σ.snaps a = none) : (σ.set a s).del a = σ := by
  obtain ⟨sn, _, _, _⟩ := σ
  simp only [Abs.set, Abs.del] at *
  congr 1
  funext c; simp only [upd]; split <;> simp_all

theorem onFail_ok {α} {m : M α} {c : M Unit} {w w' : World} {x : α} (h : m w = .ok x w') :
    onFail m c w = .ok x w' := by simp [onFail, h]

/-- What a constructor body starts from. -/
theorem construct_unfold {w : World} {σ : Abs} {a al : Nat} {ms : List Method}
    (R : Rep cfg w σ) (hs : σ.snaps a = none) (hd : .destroy ∈ ms) :
    ∃ w0, (∀ body, construct a ms al body w = onFail body (dropSlot a) w0) ∧
      Rep cfg w0 (σ.set a ⟨ms, al, none, none⟩) ∧
      (∀ c, c ≠ a → w0.anys c = w.anys c) ∧ w0.tick = w.tick := by
  have hn : w.anys a = none := by
    have := congrFun R.snaps a; rw [hs] at this
    simpa [snap] using this
  refine ⟨_, ?_, newSlot_spec R hs hd, ?_, rfl⟩
  · intro body; simp [construct, getW, hn, setAny]
  · intro c hc; simp [upd, hc]

theorem construct_exn {w : World} {σ : Abs} {a al nb' cp' : Nat} {ms : List Method} {body : M Unit}
    (hs : σ.snaps a = none) (hb : body w = .exn w')
    (R : Rep cfg w' { σ.set a ⟨ms, al, none, none⟩ with nb := nb', cp := cp' }) :
    ∃ w'', onFail body (dropSlot a) w = .exn w'' ∧ Rep cfg w'' { σ with nb := nb', cp := cp' } := by
  refine ⟨{ w' with anys := upd w'.anys a none }, by simp [onFail, hb, dropSlot], ?_⟩
  have hh : ({ σ.set a ⟨ms, al, none, none⟩ with nb := nb', cp := cp' } : Abs).snaps a = some ⟨ms, al, none, none⟩ := by
    simp [Abs.set]
  have := dropSlot_spec R hh rfl rfl
  have e : ({ σ.set a ⟨ms, al, none, none⟩ with nb := nb', cp := cp' } : Abs).del a = { σ with nb := nb', cp := cp' } := by
    obtain ⟨sn, _, _, _⟩ := σ
    simp only [Abs.set, Abs.del] at *
    congr 1
    funext c; simp only [upd]; split <;> simp_all
  rw [e] at this; exact this

theorem allocCtor_spec {w : World} {σ : Abs} {a al : Nat} {ms : List Method} (R : Rep cfg w σ)
    (hs : σ.snaps a = none) (hd : .destroy ∈ ms) :
    ∃ w', allocCtor a ms al w = .ok () w' ∧ Rep cfg w' (σ.set a ⟨ms, al, none, none⟩) := by
  obtain ⟨w0, h0, R0, _⟩ := construct_unfold (al := al) R hs hd
  exact ⟨w0, by rw [allocCtor, h0]; simp [onFail], R0⟩

/-- State after constructing an any with a value. -/
def constructed (cfg : Cfg) (σ : Abs) (a : Nat) (ms : List Method) (al t v : Nat) (force : Bool) : Abs :=
  placed cfg σ a ⟨ms, al, none, none⟩ t v force

theorem constructBody_spec {w : World} {σ : Abs} {a al t v : Nat} {ms : List Method} {arg : Arg}
    (force nothrow : Bool) (R : Rep cfg w σ) (hs : σ.snaps a = none) (hd : .destroy ∈ ms)
    (halign : (cfg.ty t).align ≤ cfg.allocAlign) (harg : ArgOk σ a arg v) :
    (∃ w', construct a ms al (emplaceInEmpty cfg a t force arg nothrow) w = .ok () w' ∧
      Rep cfg w' (constructed cfg σ a ms al t v force)) ∨
    ((nothrow && (fits cfg t && !force)) = false ∧ ∃ w' nb',
      construct a ms al (emplaceInEmpty cfg a t force arg nothrow) w = .exn w' ∧
      Rep cfg w' { σ with nb := nb' }) := by
  obtain ⟨w0, h0, R0, _⟩ := construct_unfold (al := al) R hs hd
  rw [h0]
  rcases emplaceInEmpty_spec force nothrow R0 (Abs.set_snaps _ _ _) rfl rfl halign
    (harg.set (fun c hc => Abs.set_other _ _ hc)) with ⟨w', he, R'⟩ | ⟨hn, w', nb', he, R'⟩
  · refine Or.inl ⟨w', by simp [onFail, he], ?_⟩
    rw [placed_set] at R'; exact R'
  · obtain ⟨w'', h'', R''⟩ := construct_exn (cp' := σ.cp) hs he (by simpa [Abs.set] using R')
    exact Or.inr ⟨hn, w'', nb', h'', R''⟩

theorem valueCtor_spec {w : World} {σ : Abs} {a al t v : Nat} {ms : List Method} {arg : Arg}
    (nothrow : Bool) (R : Rep cfg w σ) (hs : σ.snaps a = none) (hd : .destroy ∈ ms)
    (halign : (cfg.ty t).align ≤ cfg.allocAlign) (harg : ArgOk σ a arg v) :
    (∃ w', valueCtor cfg a ms al t arg nothrow w = .ok () w' ∧
      Rep cfg w' (constructed cfg σ a ms al t v false)) ∨
    ((nothrow && fits cfg t) = false ∧ ∃ w' nb',
      valueCtor cfg a ms al t arg nothrow w = .exn w' ∧ Rep cfg w' { σ with nb := nb' }) := by
  rcases constructBody_spec (al := al) false nothrow R hs hd halign harg with ⟨w', he, R'⟩ | ⟨hn, w', nb', he, R'⟩
  · exact Or.inl ⟨w', noexceptIf_ok he, R'⟩
  · have hn' : (nothrow && fits cfg t) = false := by simpa using hn
    exact Or.inr ⟨hn', w', nb', by rw [valueCtor, hn']; exact noexceptIf_exn he, R'⟩

theorem forceCtor_spec {w : World} {σ : Abs} {a t v : Nat} {ms : List Method} {arg : Arg}
    (nothrow : Bool) (R : Rep cfg w σ) (hs : σ.snaps a = none) (hd : .destroy ∈ ms)
    (halign : (cfg.ty t).align ≤ cfg.allocAlign) (harg : ArgOk σ a arg v) :
    (∃ w', forceCtor cfg a ms t arg nothrow w = .ok () w' ∧
      Rep cfg w' (constructed cfg σ a ms cfg.defaultAlloc t v true)) ∨
    ((nothrow && fits cfg t) = false ∧ ∃ w' nb',
      forceCtor cfg a ms t arg nothrow w = .exn w' ∧ Rep cfg w' { σ with nb := nb' }) ∨
    ((nothrow && fits cfg t) = true ∧ forceCtor cfg a ms t arg nothrow w = .term) := by
  rcases constructBody_spec (al := cfg.defaultAlloc) true nothrow R hs hd halign harg with ⟨w', he, R'⟩ | ⟨hn, w', nb', he, R'⟩
  · exact Or.inl ⟨w', noexceptIf_ok he, R'⟩
  · cases hn' : (nothrow && fits cfg t)
    · exact Or.inr (Or.inl ⟨rfl, w', nb', by rw [forceCtor, hn']; exact noexceptIf_exn he, R'⟩)
    · exact Or.inr (Or.inr ⟨rfl, by rw [forceCtor, hn']; exact noexceptIf_exn_true he⟩)

/-- State after copy construction at `a` from an any with state `t`. -/
def copyConstructed (cfg : Cfg) (σ : Abs) (a : Nat) (ms : List Method) (t : Snap) : Abs :=
  match t.obj with
  | none => σ.set a ⟨ms, cfg.soccc t.al, none, none⟩
  | some ob => copied cfg σ a ⟨ms, cfg.soccc t.al, none, none⟩ ob

theorem copied_set (σ : Abs) (a : Nat) (s s' : Snap) (ob : Obj) :
    copied cfg (σ.set a s') a s ob = copied cfg σ a s ob := by
  simp only [copied, Abs.set_set, Abs.set_nb, Abs.set_no, Abs.set_cp]

theorem copyCtor_spec {w : World} {σ : Abs} {a o : Nat} {ms : List Method} {t : Snap} (C : CfgOk cfg)
    (R : Rep cfg w σ) (hs : σ.snaps a = none) (ht : σ.snaps o = some t) (hd : .destroy ∈ ms)
    (hcp : .copy 0 ∈ t.ms) (hi : ms <:+: t.ms) :
    (∃ w', copyCtor cfg a ms o w = .ok () w' ∧ Rep cfg w' (copyConstructed cfg σ a ms t)) ∨
    (t.obj.isSome ∧ ∃ w' nb', copyCtor cfg a ms o w = .exn w' ∧ Rep cfg w' { σ with nb := nb', cp := σ.cp + 1 }) := by
  have hne : a ≠ o := by rintro rfl; simp [hs] at ht
  obtain ⟨tt, E⟩ := R.det ht
  obtain ⟨w0, h0, R0, hoth, _⟩ := construct_unfold (al := cfg.soccc tt.al) R hs hd
  simp only [copyCtor, bind_apply, getAny_some E.get, h0]
  rw [← E.al] at R0
  cases hto : t.obj with
  | none =>
    refine Or.inl ⟨w0, ?_, by simpa [copyConstructed, hto] using R0⟩
    simp [E.objNone hto, onFail]
  | some ob =>
    obtain ⟨v, hv, hcell, hty, hok, _⟩ := E.objSome _ hto
    have hs0 := Abs.set_snaps σ a ⟨ms, cfg.soccc t.al, none, none⟩
    have ht0 : (σ.set a ⟨ms, cfg.soccc t.al, none, none⟩).snaps o = some t := by
      rw [Abs.set_other _ _ (Ne.symm hne)]; exact ht
    obtain ⟨st, D⟩ := R0.det hs0
    have htt0 : w0.anys o = some tt := by rw [hoth o (Ne.symm hne)]; exact E.get
    have hslot : slotTy tt (.copy 0) w0 = .ok ob.ty w0 := by
      rw [hty]; exact slotTy_ok hv hok (by rw [← E.ms]; exact hcp) w0
    have hbody : ∀ r, copyInto cfg a ob.ty tt.vp st.vp st.al st.ms tt.ms v w0 = r →
       (match tt.vt with
        | none => (pure () : M Unit)
        | some v => do
          let s ← getAny a
          let ty ← slotTy tt (.copy 0)
          let p ← copyFn cfg ty tt.vp a s.vp s.al
          modifyAny a (fun s => { s with vp := p })
          let v' ← subtablePtr ms tt.ms v
          modifyAny a (fun s => { s with vt := some v' })) w0 = r := by
      intro r hr
      rw [← hr]
      simp only [hv, bind_apply, getAny_some D.get, hslot, copyInto, ← D.ms]
    rcases copyInto_spec R0 hne hs0 ht0 rfl rfl hto (C.align _) C.copyAlloc hi D.get htt0 hv with ⟨w', h', R'⟩ | ⟨w', nb', h', R'⟩
    · refine Or.inl ⟨w', ?_, ?_⟩
      · exact onFail_ok (hbody _ h')
      · rw [copied_set] at R'
        simpa [copyConstructed, hto] using R'
    · obtain ⟨w'', h'', R''⟩ := construct_exn (cp' := σ.cp + 1) hs (hbody _ h') (by simpa [Abs.set] using R')
      exact Or.inr ⟨rfl, w'', nb', h'', R''⟩

theorem transMoveCtorBody_spec {w : World} {σ : Abs} {a o al : Nat} {ms : List Method} {t : Snap}
    (R : Rep cfg w σ) (hs : σ.snaps a = none) (ht : σ.snaps o = some t) (hd : .destroy ∈ ms)
    (hal : t.obj.isSome → t.mem.isSome → allocEq cfg t.al al = true)
    (hmv : t.obj.isSome → t.mem = none → HasMove t.ms) (hi : ms <:+: t.ms) :
    ∃ w', construct a ms al (moveValueFrom cfg true a o) w = .ok () w' ∧
      Rep cfg w' (moved (σ.set a ⟨ms, al, none, none⟩) a ⟨ms, al, none, none⟩ o t) := by
  have hne : a ≠ o := by rintro rfl; simp [hs] at ht
  obtain ⟨w0, h0, R0, _⟩ := construct_unfold (al := al) R hs hd
  rw [h0]
  obtain ⟨w', h', R'⟩ := moveValueFrom_spec R0 hne (Abs.set_snaps _ _ _)
    (by rw [Abs.set_other _ _ (Ne.symm hne)]; exact ht) rfl rfl hal hmv hi
  exact ⟨w', by simp [onFail, h'], R'⟩

theorem MoveAssignable.movable {ms : List Method} (h : MoveAssignable cfg ms) : Movable cfg ms :=
  h.imp_right And.left

/-- A movable any whose value is in the buffer has a move function. -/
theorem Rep.hasMove {w : World} {σ : Abs} {o : Nat} {t : Snap} (R : Rep cfg w σ)
    (ht : σ.snaps o = some t) (hmv : Movable cfg t.ms) (ho : t.obj.isSome) (hm : t.mem = none) : HasMove t.ms := by
  rcases hmv with h | h
  · exact h
  · obtain ⟨ob, hob⟩ := Option.isSome_iff_exists.1 ho
    obtain ⟨b, n, h'⟩ := R.mem_of_soos ht hob h
    simp [hm] at h'

theorem moveCtor_spec {w : World} {σ : Abs} {a o : Nat} {t : Snap}
    (R : Rep cfg w σ) (hs : σ.snaps a = none) (ht : σ.snaps o = some t)
    (hmv : Movable cfg t.ms) :
    ∃ w', moveCtor cfg a o w = .ok () w' ∧
      Rep cfg w' (moved (σ.set a ⟨t.ms, t.al, none, none⟩) a ⟨t.ms, t.al, none, none⟩ o t) := by
  obtain ⟨tt, E⟩ := R.det ht
  obtain ⟨w', h', R'⟩ := transMoveCtorBody_spec (al := t.al) R hs ht (R.destroyIn ht)
    (fun _ _ => allocEq_refl _) (R.hasMove ht hmv) (List.infix_refl _)
  refine ⟨w', noexceptIf_ok ?_, R'⟩
  simp only [bind_apply, getAny_some E.get, ← E.ms, ← E.al, h']

theorem transMoveCtor_spec {w : World} {σ : Abs} {a o : Nat} {ms : List Method} {t : Snap}
    (R : Rep cfg w σ) (hs : σ.snaps a = none) (ht : σ.snaps o = some t) (hd : .destroy ∈ ms)
    (hal : t.obj.isSome → t.mem.isSome → allocEq cfg t.al cfg.defaultAlloc = true)
    (hmv : t.obj.isSome → t.mem = none → HasMove t.ms) (hi : ms <:+: t.ms) :
    ∃ w', transMoveCtor cfg a ms o w = .ok () w' ∧
      Rep cfg w' (moved (σ.set a ⟨ms, cfg.defaultAlloc, none, none⟩) a ⟨ms, cfg.defaultAlloc, none, none⟩ o t) := by
  obtain ⟨w', h', R'⟩ := transMoveCtorBody_spec (al := cfg.defaultAlloc) R hs ht hd hal hmv hi
  exact ⟨w', noexceptIf_ok h', R'⟩

theorem destructor_spec {w : World} {σ : Abs} {a : Nat} {s : Snap} (R : Rep cfg w σ)
    (hs : σ.snaps a = some s) :
    ∃ w', destructor cfg a w = .ok () w' ∧ Rep cfg w' (σ.del a) := by
  obtain ⟨w1, h1, R1, _⟩ := reset_spec R hs
  refine ⟨{ w1 with anys := upd w1.anys a none }, noexceptIf_ok (by simp only [bind_apply, h1, dropSlot]), ?_⟩
  have := dropSlot_spec R1 (Abs.set_snaps _ _ _) rfl rfl
  simpa [Abs.del, Abs.set] using this

/-- The allocators are really different and not exchanged by move assignment. -/
abbrev Unequal (cfg : Cfg) (s t : Snap) : Prop := AllocsDiffer cfg s.al t.al

/-- The memory of the target is large enough for the value of the source, which is in memory too. -/
def Reuse (s t : Snap) : Prop := ∃ b n c k, s.mem = some (b, n) ∧ t.mem = some (c, k) ∧ k ≤ n

/-- State after `a = std::move(o)`. -/
def moveAssigned (cfg : Cfg) (σ : Abs) (a : Nat) (s : Snap) (o : Nat) (t : Snap) : Abs :=
  if Unequal cfg s t then
    let s0 : Snap := { s with obj := none, mem := none }
    match t.obj, t.mem, s.mem with
    | some ob, some (_, k), some (_, n) =>
      if k ≤ n then { σ.set2 o { t with obj := none } a { s with obj := some ⟨σ.no, ob.ty, ob.val⟩ } with no := σ.no + 1 }
      else movedFresh cfg (σ.set a s0) a s0 o t
    | _, _, _ => movedFresh cfg (σ.set a s0) a s0 o t
  else
    let s0 : Snap := { s with obj := none, mem := none, al := if cfg.alwaysEq then s.al else t.al }
    moved (σ.set a s0) a s0 o t

theorem getAny_det {w : World} {a : Nat} {s : Snap} {st : AnySt} (D : Det cfg w a s st) :
    getAny a w = .ok st w := getAny_some D.get

theorem moveAssign_spec {w : World} {σ : Abs} {a o : Nat} {s t : Snap} (C : CfgOk cfg)
    (R : Rep cfg w σ) (hne : a ≠ o) (hs : σ.snaps a = some s) (ht : σ.snaps o = some t)
    (hms : s.ms = t.ms) (hmv : Movable cfg t.ms)
    (hal : cfg.soos = 0 → t.obj.isSome → ¬ Unequal cfg s t) :
    (∃ w', moveAssign cfg a o w = .ok () w' ∧ Rep cfg w' (moveAssigned cfg σ a s o t) ∧
      (Unequal cfg s t → t.mem.isSome → ∀ ob, t.obj = some ob →
        (Reuse s t ∧ ((cfg.ty ob.ty).nothrowReloc = false → cfg.faults w.tick = false)) ∨
        (¬ Reuse s t ∧ cfg.faults w.tick = false ∧ ((cfg.ty ob.ty).nothrowReloc = false → cfg.faults (w.tick + 1) = false)))) ∨
    (Unequal cfg s t ∧ t.mem.isSome ∧ t.obj.isSome ∧ ∃ w', moveAssign cfg a o w = .exn w' ∧
      Rep cfg w' (σ.set a { s with obj := none, mem := none }) ∧ ¬ Reuse s t ∧ cfg.faults w.tick = true) ∨
    (Unequal cfg s t ∧ ∃ ob, t.obj = some ob ∧ (cfg.ty ob.ty).nothrowReloc = false ∧
      moveAssign cfg a o w = .term ∧ t.mem.isSome ∧
      ((Reuse s t ∧ cfg.faults w.tick = true) ∨
       (¬ Reuse s t ∧ cfg.faults w.tick = false ∧ cfg.faults (w.tick + 1) = true))) := by
  have hi : ∀ m al ob, (⟨s.ms, al, m, ob⟩ : Snap).ms <:+: t.ms := fun _ _ _ => by
    simp only [hms]; exact List.infix_refl _
  have hmvU : Unequal cfg s t → t.obj.isSome → HasMove t.ms := fun hU ho => by
    rcases hmv with h | h
    · exact h
    · exact absurd hU (hal h ho)
  by_cases hU : Unequal cfg s t
  · obtain ⟨hU1, hU2, hU3⟩ := id hU
    obtain ⟨w1, h1, R1, hk1⟩ := destroyValue_spec R hs
    have hs1 := Abs.set_snaps σ a { s with obj := none }
    have ht1 : (σ.set a { s with obj := none }).snaps o = some t := by
      rw [Abs.set_other _ _ (Ne.symm hne)]; exact ht
    obtain ⟨st, D⟩ := R1.det hs1
    obtain ⟨tt, E⟩ := R1.det ht1
    have hal1 : st.al ≠ tt.al := by rw [← D.al, ← E.al]; exact hU3
    -- the branch without reuse of the memory of `a`
    have fresh : ∀ r, (∀ k n b c ob, t.obj = some ob → t.mem = some (b, k) → s.mem = some (c, n) → ¬ k ≤ n) →
        (((if memAlloc a st then deallocateMemory cfg a else pure ()) >>= fun _ => moveValueFrom cfg false a o) : M Unit) w1 = r →
        moveAssign cfg a o w = noexceptIf false (fun _ => r) w := by
      intro r hno hr
      have hmov : movableAlloc cfg = false := by simp [movableAlloc, hU1, hU2]
      simp only [moveAssign, hmov, noexceptIf, hne, hU1, hU2, Bool.false_eq_true, if_false, bind_apply, h1,
        getAny_det D, getAny_det E, hal1, ne_eq, not_false_eq_true, if_true]
      rw [← hr]
      by_cases hb : (tt.vt.isSome && memAlloc o tt && memAlloc a st) = true
      · simp only [hb, if_true]
        simp only [Bool.and_eq_true] at hb
        obtain ⟨⟨hb1, hb2⟩, hb3⟩ := hb
        rw [E.vtIsSome] at hb1
        rw [Rep.memAlloc E] at hb2
        have hb3' := hb3
        rw [Rep.memAlloc D] at hb3
        obtain ⟨ob, hob⟩ := Option.isSome_iff_exists.1 hb1
        obtain ⟨⟨b, k⟩, hk⟩ := Option.isSome_iff_exists.1 hb2
        obtain ⟨⟨c, n⟩, hn⟩ := Option.isSome_iff_exists.1 hb3
        have := hno k n b c ob hob hk hn
        simp [readSize_det D hn, readSize_det E hk, this, hb3']
      · simp only [Bool.not_eq_true] at hb
        simp only [hb, Bool.false_eq_true, if_false]
        cases hma : memAlloc a st <;> simp
    have runFresh : (∀ k n b c ob, t.obj = some ob → t.mem = some (b, k) → s.mem = some (c, n) → ¬ k ≤ n) →
       (∃ w', moveAssign cfg a o w = .ok () w' ∧ Rep cfg w' (movedFresh cfg (σ.set a { s with obj := none, mem := none }) a { s with obj := none, mem := none } o t) ∧
         (t.mem.isSome → ∀ ob, t.obj = some ob → ¬ Reuse s t ∧ cfg.faults w.tick = false ∧ ((cfg.ty ob.ty).nothrowReloc = false → cfg.faults (w.tick + 1) = false))) ∨
       (Unequal cfg s t ∧ t.mem.isSome ∧ t.obj.isSome ∧ ∃ w', moveAssign cfg a o w = .exn w' ∧
          Rep cfg w' (σ.set a { s with obj := none, mem := none }) ∧ ¬ Reuse s t ∧ cfg.faults w.tick = true) ∨
       (Unequal cfg s t ∧ ∃ ob, t.obj = some ob ∧ (cfg.ty ob.ty).nothrowReloc = false ∧
          moveAssign cfg a o w = .term ∧ t.mem.isSome ∧ ¬ Reuse s t ∧ cfg.faults w.tick = false ∧ cfg.faults (w.tick + 1) = true) := by
      intro hno
      have hnr : ∀ ob, t.obj = some ob → ¬ Reuse s t := by
        rintro ob hob ⟨b, n, c, k, h1, h2, h3⟩
        exact hno _ _ _ _ _ hob h2 h1 h3
      have hdel : ∃ w2, ((if memAlloc a st then deallocateMemory cfg a else pure ()) : M Unit) w1 = .ok () w2 ∧
          Rep cfg w2 (σ.set a { s with obj := none, mem := none }) ∧ w2.tick = w.tick := by
        cases hm : s.mem with
        | none =>
          refine ⟨w1, by simp [Rep.memAlloc D, hm], ?_, hk1⟩
          have : ({ s with obj := none, mem := none } : Snap) = { s with obj := none } := by
            obtain ⟨_, _, _, _⟩ := s; simp_all
          rw [this]; exact R1
        | some p =>
          obtain ⟨b, n⟩ := p
          obtain ⟨w2, h2, R2, hk2⟩ := deallocateMemory_spec R1 hs1 rfl hm
          exact ⟨w2, by simp [Rep.memAlloc D, hm, h2], by simpa using R2, hk2.trans hk1⟩
      obtain ⟨w2, h2, R2, hk2⟩ := hdel
      have hs2 := Abs.set_snaps σ a { s with obj := none, mem := none }
      have ht2 : (σ.set a { s with obj := none, mem := none }).snaps o = some t := by
        rw [Abs.set_other _ _ (Ne.symm hne)]; exact ht
      rcases moveValueFromFalse_spec R2 hne hs2 ht2 rfl rfl
        (fun h0 hh => absurd hU (hal h0 hh)) (hmvU hU) (fun _ _ => C.align _) (hi _ _ _) with
        ⟨w', h', R', hq⟩ | ⟨h0, hm1, hm2, w', h', R', hq⟩ | ⟨ob, hob, hn, h', hm1, hq1, hq2⟩
      · have := fresh _ hno (by rw [bind_apply, h2])
        refine Or.inl ⟨w', by rw [this]; simp [noexceptIf, h'], R', fun hm ob hob => ⟨hnr ob hob, ?_⟩⟩
        rw [← hk2]
        exact hq (fun h0 => hal h0 (by simp [hob]) hU) hm ob hob
      · have := fresh _ hno (by rw [bind_apply, h2])
        obtain ⟨ob, hob⟩ := Option.isSome_iff_exists.1 hm2
        exact Or.inr (Or.inl ⟨hU, hm1, hm2, w', by rw [this]; simp [noexceptIf, h'], R', hnr ob hob, by rw [← hk2]; exact hq⟩)
      · have := fresh _ hno (by rw [bind_apply, h2])
        exact Or.inr (Or.inr ⟨hU, ob, hob, hn, by rw [this]; simp [noexceptIf, h'], hm1, hnr ob hob, by rw [← hk2]; exact hq1, by rw [← hk2]; exact hq2⟩)
    unfold moveAssigned
    simp only [hU, if_true]
    split
    · rename_i ob b k c n hob hk hn
      split
      · rename_i hkn
        obtain ⟨v, hv, _, hty, hok, _⟩ := E.objSome _ hob
        have hsuit : Suits cfg { s with obj := none } ob.ty := by
          refine ⟨by simp [hn], ?_⟩
          intro b' n' hbn
          simp only [hn, Option.some.injEq, Prod.mk.injEq] at hbn
          obtain ⟨_, rfl⟩ := hbn
          exact ⟨Nat.le_trans ((R.fit ht hob).2 _ _ hk) hkn, C.align _⟩
        have hmf := getMoveFn_det (w' := w1) E hob (hmvU hU (by simp [hob]))
        have hmseq : st.ms = tt.ms := by rw [← D.ms, ← E.ms]; exact hms
        have hrun : moveAssign cfg a o w = noexceptIf false (fun _ => moveObj cfg a o ob.ty tt.vp st.vp st.ms tt.ms v w1) w := by
          have hmov : movableAlloc cfg = false := by simp [movableAlloc, hU1, hU2]
          have hb : (tt.vt.isSome && memAlloc o tt && memAlloc a st) = true := by
            rw [E.vtIsSome, Rep.memAlloc E, Rep.memAlloc D, hob, hk, hn]; rfl
          simp only [moveAssign, hmov, noexceptIf, hne, hU1, hU2, Bool.false_eq_true, if_false, bind_apply, h1,
            getAny_det D, getAny_det E, hal1, ne_eq, not_false_eq_true, if_true, hb, readSize_det D hn, readSize_det E hk,
            pure_apply, ge_iff_le, hkn, decide_true, hmf, moveObj, subtablePtr, hmseq]
          simp only [hv]
        rcases moveObj_spec R1 hne hs1 ht1 rfl hob hsuit (by simp [hn, hk]) (hi _ _ _) D.get E.get hv with ⟨w', h', R', hq⟩ | ⟨hn', h', hq⟩
        · refine Or.inl ⟨w', by rw [hrun, h']; simp [noexceptIf], ?_, fun _ _ ob' hob' => Or.inl ⟨⟨c, n, b, k, hn, hk, hkn⟩, ?_⟩⟩
          rotate_left
          · rw [hob] at hob'; cases hob'; rw [← hk1]; exact hq
          have hcomm : ∀ x y z, upd (upd (upd σ.snaps a x) o y) a z = upd (upd σ.snaps o y) a z := by
            intro x y z; funext c; simp only [upd]; split <;> simp_all
          simpa [Abs.set2, Abs.set, hcomm, hob, hk, hn] using R'
        · exact Or.inr (Or.inr ⟨trivial, ob, hob, hn', by rw [hrun, h']; simp [noexceptIf], by simp [hk], Or.inl ⟨⟨c, n, b, k, hn, hk, hkn⟩, by rw [← hk1]; exact hq⟩⟩)
      · rename_i hkn
        have := runFresh (by
          intro k' n' b' c' ob' h1' h2' h3'
          rw [hk] at h2'; rw [hn] at h3'
          simp only [Option.some.injEq, Prod.mk.injEq] at h2' h3'
          obtain ⟨_, rfl⟩ := h2'; obtain ⟨_, rfl⟩ := h3'; exact hkn)
        rcases this with ⟨w', h, R', hq⟩ | ⟨_, h⟩ | ⟨_, ob, h1, h2, h3, h4, h5⟩
        · exact Or.inl ⟨w', h, R', fun _ hm ob hob => Or.inr (hq hm ob hob)⟩
        · exact Or.inr (Or.inl ⟨trivial, h⟩)
        · exact Or.inr (Or.inr ⟨trivial, ob, h1, h2, h3, h4, Or.inr h5⟩)
    · rename_i hx
      have := runFresh (by
          intro k' n' b' c' ob' h1' h2' h3'
          exact absurd h3' (hx ob' b' k' c' n' h1' h2'))
      rcases this with ⟨w', h, R', hq⟩ | ⟨_, h⟩ | ⟨_, ob, h1, h2, h3, h4, h5⟩
      · exact Or.inl ⟨w', h, R', fun _ hm ob hob => Or.inr (hq hm ob hob)⟩
      · exact Or.inr (Or.inl ⟨trivial, h⟩)
      · exact Or.inr (Or.inr ⟨trivial, ob, h1, h2, h3, h4, Or.inr h5⟩)
  · refine Or.inl ?_
    suffices h : ∃ w', moveAssign cfg a o w = .ok () w' ∧ Rep cfg w' (moveAssigned cfg σ a s o t) by
      obtain ⟨w', h1, h2⟩ := h
      exact ⟨w', h1, h2, fun hc => absurd hc hU⟩
    simp only [moveAssigned, hU, if_false]
    obtain ⟨w1, h1, R1, _⟩ := reset_spec R hs
    have hs1 := Abs.set_snaps σ a { s with obj := none, mem := none }
    have ht1 : (σ.set a { s with obj := none, mem := none }).snaps o = some t := by
      rw [Abs.set_other _ _ (Ne.symm hne)]; exact ht
    by_cases hae : cfg.alwaysEq = true
    · obtain ⟨w', h', R'⟩ := moveValueFrom_spec R1 hne hs1 ht1 rfl rfl
        (fun _ _ => by simp [allocEq, hae]) (R.hasMove ht hmv) (hi _ _ _)
      refine ⟨w', noexceptIf_ok ?_, by simpa [hae] using R'⟩
      simp only [hne, if_false, hae, if_true, bind_apply, h1, h']
    · have hae' : cfg.alwaysEq = false := by simpa using hae
      simp only [hae', Bool.false_eq_true, if_false]
      by_cases hp : cfg.pocma = true
      · -- propagate
        obtain ⟨st, D⟩ := R1.det hs1
        obtain ⟨tt, E⟩ := R1.det ht1
        have hset : ∃ w2, ((if st.al ≠ tt.al then modifyAny a (fun s => { s with al := tt.al }) else pure ()) : M Unit) w1 = .ok () w2 ∧
            Rep cfg w2 (σ.set a { s with obj := none, mem := none, al := t.al }) := by
          by_cases he : st.al = tt.al
          · refine ⟨w1, by simp [he], ?_⟩
            have : ({ s with obj := none, mem := none, al := t.al } : Snap) = { s with obj := none, mem := none } := by
              have : t.al = s.al := by rw [E.al, ← he, ← D.al]
              rw [this]
            rw [this]; exact R1
          · obtain ⟨w2, h2, R2⟩ := setAl_spec (al := tt.al) R1 hs1 rfl rfl
            refine ⟨w2, by simp only [ne_eq, he, not_false_eq_true, if_true, h2], ?_⟩
            rw [← E.al] at R2
            simpa using R2
        obtain ⟨w2, h2, R2⟩ := hset
        have ht2 : (σ.set a { s with obj := none, mem := none, al := t.al }).snaps o = some t := by
          rw [Abs.set_other _ _ (Ne.symm hne)]; exact ht
        obtain ⟨w', h', R'⟩ := moveValueFrom_spec R2 hne (Abs.set_snaps _ _ _) ht2 rfl rfl
          (fun _ _ => allocEq_refl _) (R.hasMove ht hmv) (hi _ _ _)
        refine ⟨w', noexceptIf_ok ?_, R'⟩
        simp only [hne, if_false, hae', Bool.false_eq_true, hp, if_true, bind_apply, h1, getAny_det D, getAny_det E]
        by_cases he : st.al = tt.al
        · simp only [he, ne_eq, not_true_eq_false, if_false, pure_apply] at h2 ⊢
          simp at h2; subst h2; exact h'
        · simp only [he, ne_eq, not_false_eq_true, if_true] at h2 ⊢
          rw [bind_apply, h2]; exact h'
      · have hp' : cfg.pocma = false := by simpa using hp
        have hals : s.al = t.al := by
          exact Classical.byContradiction fun hc => hU ⟨hae', hp', hc⟩
        obtain ⟨w0, h0, R0, _⟩ := destroyValue_spec R hs
        have hs0 := Abs.set_snaps σ a { s with obj := none }
        have ht0 : (σ.set a { s with obj := none }).snaps o = some t := by
          rw [Abs.set_other _ _ (Ne.symm hne)]; exact ht
        obtain ⟨st, D⟩ := R0.det hs0
        obtain ⟨tt, E⟩ := R0.det ht0
        obtain ⟨w1', h1', R1', _⟩ := reset_spec R0 hs0
        have heq : (σ.set a { s with obj := none }).set a { s with obj := none, mem := none } =
            σ.set a { s with obj := none, mem := none, al := t.al } := by
          rw [Abs.set_set, ← hals]
        rw [heq] at R1'
        have ht2 : (σ.set a { s with obj := none, mem := none, al := t.al }).snaps o = some t := by
          rw [Abs.set_other _ _ (Ne.symm hne)]; exact ht
        obtain ⟨w', h', R'⟩ := moveValueFrom_spec R1' hne (Abs.set_snaps _ _ _) ht2 rfl rfl
          (fun _ _ => allocEq_refl _) (R.hasMove ht hmv) (hi _ _ _)
        refine ⟨w', noexceptIf_ok ?_, R'⟩
        have hale : st.al = tt.al := by rw [← D.al, ← E.al]; exact hals
        simp only [hne, if_false, hae', Bool.false_eq_true, hp', bind_apply, h0, getAny_det D, getAny_det E,
          hale, ne_eq, not_true_eq_false, h1', h']

end AnyAny.Mem
