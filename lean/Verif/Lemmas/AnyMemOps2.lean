import Verif.Lemmas.AnyMemOps
namespace AnyAny.Mem
open AnyAny.TypeList
variable {cfg : Cfg}

@[simp] theorem Abs.set2_fst (σ : Abs) (o : Nat) (t : Snap) (a : Nat) (s : Snap) :
    (σ.set2 o t a s).snaps a = some s := by simp [Abs.set2]
theorem Abs.set2_snd (σ : Abs) {o : Nat} (t : Snap) {a : Nat} (s : Snap) (h : o ≠ a) :
    (σ.set2 o t a s).snaps o = some t := by simp [Abs.set2, upd, h]
theorem Abs.set2_other (σ : Abs) {o c : Nat} (t : Snap) {a : Nat} (s : Snap) (h : c ≠ a) (h' : c ≠ o) :
    (σ.set2 o t a s).snaps c = σ.snaps c := by simp [Abs.set2, upd, h, h']

theorem getMoveFn_det {w w' : World} {o : Nat} {t : Snap} {tt : AnySt} {ob : Obj}
    (D : Det cfg w o t tt) (hto : t.obj = some ob) (hmv : HasMove t.ms) :
    getMoveFn tt w' = .ok ob.ty w' := by
  obtain ⟨v, hv, _, hty, hok, _⟩ := D.objSome _ hto
  rw [hty]; exact getMoveFn_ok hv hok (by rw [← D.ms]; exact hmv) w'

/-- A non-empty any of a class without buffer owns memory. -/
theorem Rep.mem_of_soos {w : World} {σ : Abs} {a : Nat} {s : Snap} {o : Obj} (R : Rep cfg w σ)
    (hs : σ.snaps a = some s) (ho : s.obj = some o) (h0 : cfg.soos = 0) : ∃ b n, s.mem = some (b, n) := by
  cases hm : s.mem with
  | some p => exact ⟨p.1, p.2, rfl⟩
  | none =>
    have := (R.fit hs ho).1 hm
    have hp := (cfg.ty o.ty).sizePos
    simp [fits] at this; omega

/-- The state after the value of `o` was moved into the empty any `a` by taking over its memory, or
by relocating it into the buffer of `a`. -/
def moved (σ : Abs) (a : Nat) (s : Snap) (o : Nat) (t : Snap) : Abs :=
  match t.obj, t.mem with
  | none, _ => σ
  | some _, some _ => σ.set2 o { t with mem := none, obj := none } a { s with mem := t.mem, obj := t.obj }
  | some ob, none => { σ.set2 o { t with obj := none } a { s with obj := some ⟨σ.no, ob.ty, ob.val⟩ } with no := σ.no + 1 }

theorem moveValueFrom_spec {w : World} {σ : Abs} {a o : Nat} {s t : Snap} (R : Rep cfg w σ)
    (hne : a ≠ o) (hs : σ.snaps a = some s) (ht : σ.snaps o = some t) (ho : s.obj = none)
    (hm : s.mem = none) (hal : t.obj.isSome → t.mem.isSome → allocEq cfg t.al s.al = true)
    (hmv : t.obj.isSome → t.mem = none → HasMove t.ms)
    (hi : s.ms <:+: t.ms) :
    ∃ w', moveValueFrom cfg true a o w = .ok () w' ∧ Rep cfg w' (moved σ a s o t) := by
  obtain ⟨st, D⟩ := R.det hs
  obtain ⟨tt, E⟩ := R.det ht
  have hga := getAny_some D.get
  have hgo := getAny_some E.get
  have hvn := D.objNone ho
  have hma : memAlloc a st = false := by rw [Rep.memAlloc D, hm]; rfl
  have hmo := Rep.memAlloc E
  cases hto : t.obj with
  | none =>
    refine ⟨w, ?_, by simpa [moved, hto] using R⟩
    simp [moveValueFrom, noexceptIf, hga, hgo, hvn, hma, E.objNone hto]
  | some ob =>
    obtain ⟨v, hv, hcell, hty, hok, _⟩ := E.objSome _ hto
    cases htm : t.mem with
    | some p =>
      obtain ⟨b, n⟩ := p
      obtain ⟨w', h', _, R'⟩ := steal_spec R hne hs ht ho hm hto htm (hal (by simp [hto]) (by simp [htm])) hi D.get E.get hv
      refine ⟨w', noexceptIf_ok ?_, by simpa [moved, hto, htm] using R'⟩
      rw [← h']
      simp only [bind_apply, hga, hvn, hma, Option.isSome_none, Bool.or_self, Bool.false_eq_true, if_false, hgo, hv]
      rw [htm] at hmo
      by_cases h0 : cfg.soos = 0
      · simp only [h0, if_true, steal, bind_apply]
        repeat' (split <;> try rfl)
        all_goals simp_all
      · simp only [h0, if_false, hmo, Option.isSome_some, Bool.not_true, Bool.false_eq_true, if_true, steal, bind_apply]
        repeat' (split <;> try rfl)
        all_goals simp_all
    | none =>
      have h0 : cfg.soos ≠ 0 := fun h => by
        obtain ⟨b, n, hh⟩ := R.mem_of_soos ht hto h; simp [htm] at hh
      have hfit := (R.fit ht hto).1 htm
      have hsuit : Suits cfg s ob.ty := ⟨fun _ => hfit, by simp [hm]⟩
      have hmf := getMoveFn_det (w' := w) E hto (hmv (by simp [hto]) htm)
      rcases moveObj_spec R hne hs ht ho hto hsuit (by simp [hm, htm]) hi D.get E.get hv with ⟨w', h', R', _⟩ | ⟨hn, _, _⟩
      · refine ⟨w', noexceptIf_ok ?_, by simpa [moved, hto, htm] using R'⟩
        rw [← h']
        rw [htm] at hmo
        simp only [bind_apply, hga, hvn, hma, Option.isSome_none, Bool.or_self, Bool.false_eq_true, if_false, hgo, hv,
          h0, hmo, Bool.not_false, if_true, hmf, moveObj]
      · simp [TyInfo.nothrowReloc] at hn
        simp [fits] at hfit
        simp_all

/-- The same when the memory of `o` cannot be taken over: new memory of the same size is allocated. -/
def movedFresh (cfg : Cfg) (σ : Abs) (a : Nat) (s : Snap) (o : Nat) (t : Snap) : Abs :=
  match t.obj, t.mem with
  | some ob, some (_, n) =>
    if cfg.soos = 0 then moved σ a s o t
    else { σ.set2 o { t with obj := none } a { s with mem := some (σ.nb, n), obj := some ⟨σ.no, ob.ty, ob.val⟩ } with nb := σ.nb + 1, no := σ.no + 1 }
  | _, _ => moved σ a s o t

theorem moveValueFrom_false_of_true {w w' : World} {a o : Nat} {s t : Snap}
    {st tt : AnySt} (D : Det cfg w a s st) (E : Det cfg w o t tt)
    (h : moveValueFrom cfg true a o w = .ok () w')
    (hc : t.obj = none ∨ t.mem = none ∨ cfg.soos = 0) : moveValueFrom cfg false a o w = .ok () w' := by
  have hga := getAny_some D.get
  have hgo := getAny_some E.get
  have hmo := Rep.memAlloc E
  rw [← h]
  have hinner : ∀ (m : M Unit) (w : World) w', noexceptIf true m w = .ok () w' → m w = .ok () w' := by
    intro m w w' hh
    unfold noexceptIf at hh
    split at hh
    · simp at hh
    · exact hh
  have h2 := hinner _ _ _ h
  refine Eq.trans (noexceptIf_ok (x := ()) (w' := w') ?_) h.symm
  rw [← h2]
  simp only [bind_apply, hga]
  split
  · rfl
  · simp only [bind_apply, hgo]
    rcases hc with hc | hc | hc
    · simp only [E.objNone hc]
    · rw [hc] at hmo
      simp only [hmo, Option.isSome_none, Bool.not_false, if_true]
    · simp only [hc, if_true]

theorem moveValueFromFalse_spec {w : World} {σ : Abs} {a o : Nat} {s t : Snap} (R : Rep cfg w σ)
    (hne : a ≠ o) (hs : σ.snaps a = some s) (ht : σ.snaps o = some t) (ho : s.obj = none)
    (hm : s.mem = none) (hal : cfg.soos = 0 → t.obj.isSome → allocEq cfg t.al s.al = true)
    (hmv : t.obj.isSome → HasMove t.ms)
    (halign : ∀ ob, t.obj = some ob → (cfg.ty ob.ty).align ≤ cfg.allocAlign)
    (hi : s.ms <:+: t.ms) :
    (∃ w', moveValueFrom cfg false a o w = .ok () w' ∧ Rep cfg w' (movedFresh cfg σ a s o t) ∧
      (cfg.soos ≠ 0 → t.mem.isSome → ∀ ob, t.obj = some ob → cfg.faults w.tick = false ∧
        ((cfg.ty ob.ty).nothrowReloc = false → cfg.faults (w.tick + 1) = false))) ∨
    (cfg.soos ≠ 0 ∧ t.mem.isSome ∧ t.obj.isSome ∧ ∃ w', moveValueFrom cfg false a o w = .exn w' ∧ Rep cfg w' σ ∧
      cfg.faults w.tick = true) ∨
    (∃ ob, t.obj = some ob ∧ (cfg.ty ob.ty).nothrowReloc = false ∧
      moveValueFrom cfg false a o w = .term ∧ t.mem.isSome ∧ cfg.faults w.tick = false ∧ cfg.faults (w.tick + 1) = true) := by
  obtain ⟨st, D⟩ := R.det hs
  obtain ⟨tt, E⟩ := R.det ht
  have hga := getAny_some D.get
  have hgo := getAny_some E.get
  by_cases hc : t.obj = none ∨ t.mem = none ∨ cfg.soos = 0
  · refine Or.inl ?_
    obtain ⟨w', h', R'⟩ := moveValueFrom_spec R hne hs ht ho hm
      (by intro h1 h2
          rcases hc with hc | hc | hc
          · simp [hc] at h1
          · simp [hc] at h2
          · exact hal hc h1)
      (fun h1 _ => hmv h1) hi
    refine ⟨w', moveValueFrom_false_of_true D E h' hc, ?_, ?_⟩
    rotate_left
    · intro h1 h2 ob h3
      rcases hc with hc | hc | hc
      · simp [hc] at h3
      · simp [hc] at h2
      · exact absurd hc h1
    have : movedFresh cfg σ a s o t = moved σ a s o t := by
      unfold movedFresh
      rcases hc with hc | hc | hc
      · simp [hc]
      · simp [hc]
      · simp only [hc, if_true]; split <;> rfl
    rw [this]; exact R'
  · have h1 : t.obj ≠ none := fun h => hc (Or.inl h)
    have h2 : t.mem ≠ none := fun h => hc (Or.inr (Or.inl h))
    have h0 : cfg.soos ≠ 0 := fun h => hc (Or.inr (Or.inr h))
    obtain ⟨ob, hto⟩ := Option.ne_none_iff_exists'.1 h1
    obtain ⟨⟨b, n⟩, htm⟩ := Option.ne_none_iff_exists'.1 h2
    have hvn := D.objNone ho
    have hma : memAlloc a st = false := by rw [Rep.memAlloc D, hm]; rfl
    have hmo : memAlloc o tt = true := by rw [Rep.memAlloc E, htm]; rfl
    obtain ⟨v, hv, hcell, hty, hok, _⟩ := E.objSome _ hto
    have hrs := readSize_det E htm
    have hunf : moveValueFrom cfg false a o w = noexceptIf false (acquire cfg st.al a n >>= fun _ => do
          let s1 ← getAny a
          onFail (do
              let ty ← getMoveFn tt
              relocate cfg ty tt.vp s1.vp)
            (do
              let s ← getAny a
              let n ← readSize o
              deallocate cfg s.al s.vp n
              modifyAny a (fun s => { s with vp := .data a }))
          let v' ← subtablePtr st.ms tt.ms v
          modifyAny a (fun s => { s with vt := some v' })
          modifyAny o (fun t => { t with vt := none })) w := by
      simp only [moveValueFrom, noexceptIf, bind_apply, hga, hvn, hma, Option.isSome_none, Bool.or_self,
        Bool.false_eq_true, if_false, hgo, hv, h0, hmo, Bool.not_true, hrs, acquire]
      cases hall : allocate cfg st.al n w with
      | ok bb w1 =>
        simp only []
        cases hmod : modifyAny a (fun s => { s with vp := .blk bb }) w1 with
        | ok _ w2 =>
          simp only []
          cases hws : writeSize cfg a n w2 with
          | ok _ w3 =>
            simp only []
            have hg3 : ∃ s3, getAny a w3 = .ok s3 w3 ∧ s3.vp = .blk bb := by
              have hm1 : w2.anys a = (w1.anys a).map (fun s => { s with vp := .blk bb }) := by
                simp only [modifyAny, bind_apply, getAny, setAny] at hmod
                split at hmod <;> rename_i h
                · split at h
                  · simp at h; obtain ⟨rfl, rfl⟩ := h
                    simp at hmod; rw [← hmod]; simp_all
                  · simp at h
                all_goals simp at hmod
              simp only [writeSize] at hws
              split at hws
              · rename_i s2 h2
                split at hws
                · simp at hws
                  rw [← hws]
                  refine ⟨{ s2 with buf := .size n }, by simp [getAny], ?_⟩
                  rw [hm1] at h2
                  cases hw1 : w1.anys a with
                  | none => simp [hw1] at h2
                  | some s1 => simp [hw1] at h2; rw [← h2]
                · simp at hws
              · simp at hws
            obtain ⟨s3, hg3, hvp⟩ := hg3
            simp only [hg3, hvp]
          | _ => rfl
        | _ => rfl
      | _ => rfl
    rcases acquire_spec (n := n) (al := st.al) R hs ho hm (by rw [D.al]; exact allocEq_refl _) with ⟨w1, h1, R1, hf1, hk1⟩ | ⟨w1, h1, R1, _, _, hf1⟩
    · have hs1 : ({ σ.set a { s with mem := some (σ.nb, n) } with nb := σ.nb + 1 } : Abs).snaps a = some { s with mem := some (σ.nb, n) } := by simp [Abs.set]
      have ht1 : ({ σ.set a { s with mem := some (σ.nb, n) } with nb := σ.nb + 1 } : Abs).snaps o = some t := by
        simp [Abs.set, upd, Ne.symm hne, ht]
      obtain ⟨st1, D1⟩ := R1.det hs1
      obtain ⟨tt1, E1⟩ := R1.det ht1
      have hsuit : Suits cfg { s with mem := some (σ.nb, n) } ob.ty := by
        refine ⟨by simp, ?_⟩
        intro b' n' hbn; simp at hbn; obtain ⟨_, rfl⟩ := hbn
        exact ⟨(R.fit ht hto).2 _ _ htm, halign _ hto⟩
      have hms : st1.ms = st.ms := by rw [← D1.ms, ← D.ms]
      have hvp : tt1.vp = tt.vp := by rw [← E1.loc, ← E.loc]
      have hmst : tt1.ms = tt.ms := by rw [← E1.ms, ← E.ms]
      have htt : w1.anys o = w.anys o := by
        simp only [acquire, bind_apply, allocate, throwPoint] at h1
        split at h1 <;> rename_i hA
        · split at hA <;> rename_i hB
          · split at hB <;> simp at hB
            simp at hA; obtain ⟨rfl, rfl⟩ := hA
            simp only [modifyAny, bind_apply, getAny, setAny, writeSize] at h1
            subst hB
            simp [D.get] at h1
            split at h1
            · simp at h1; rw [← h1]; simp [upd, Ne.symm hne]
            · simp at h1
          all_goals simp at hA
        all_goals simp at h1
      have htteq : tt1 = tt := by
        have := E1.get; rw [htt, E.get] at this; exact (Option.some.inj this).symm
      subst htteq
      have hmf := getMoveFn_det (w' := w1) E1 hto (hmv (by simp [hto]))
      rcases moveObj_spec R1 hne hs1 ht1 ho hto hsuit (by simp [htm]) hi D1.get E1.get hv with ⟨w', h', R', hq⟩ | ⟨hn, h', hq⟩
      · refine Or.inl ⟨w', ?_, ?_, fun _ _ ob' h3 => ⟨hf1, fun h4 => by rw [hto] at h3; cases h3; rw [← hk1]; exact hq h4⟩⟩
        · rw [hunf]
          refine noexceptIf_ok ?_
          rw [← h']
          simp only [bind_apply, h1, getAny_some D1.get, onFail, hmf, moveObj, hms]
          have : ∀ x, relocate cfg ob.ty tt1.vp st1.vp w1 ≠ .exn x := by
            intro x; unfold relocate noexceptIf; intro hh; split at hh <;> simp_all
          cases hr : relocate cfg ob.ty tt1.vp st1.vp w1 with
          | exn x => exact absurd hr (this x)
          | _ => rfl
        · simp only [movedFresh, hto, htm, h0, if_false]
          have hcomm : ∀ x y z, upd (upd (upd σ.snaps a x) o y) a z = upd (upd σ.snaps o y) a z := by
            intro x y z; funext c; simp only [upd]; split <;> simp_all
          simpa [Abs.set2, Abs.set, hcomm, htm, hto] using R'
      · refine Or.inr (Or.inr ⟨ob, hto, hn, ?_, by simp [htm], hf1, by rw [← hk1]; exact hq⟩)
        rw [hunf]
        refine noexceptIf_term ?_
        rw [← h']
        simp only [bind_apply, h1, getAny_some D1.get, onFail, hmf, moveObj, hms]
        have : ∀ x, relocate cfg ob.ty tt1.vp st1.vp w1 ≠ .exn x := by
          intro x; unfold relocate noexceptIf; intro hh; split at hh <;> simp_all
        cases hr : relocate cfg ob.ty tt1.vp st1.vp w1 with
        | exn x => exact absurd hr (this x)
        | _ => rfl
    · refine Or.inr (Or.inl ⟨h0, by simp [htm], by simp [hto], w1, ?_, R1, hf1⟩)
      rw [hunf]
      refine noexceptIf_exn ?_
      simp only [bind_apply, h1]

end AnyAny.Mem
