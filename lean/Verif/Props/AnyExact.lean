import Verif.Props.AnyDefects
/-
The defects of Props/AnyDefects.lean in general: not one execution that goes wrong, but every execution of
that form, from every reachable state. Together with the `_partial` theorems these say exactly when the
claims hold.
-/
namespace AnyAny.Mem

variable {cfg : Cfg}

/-! ### C21: arguments that refer to the own value -/

/-- `m` neither throws nor counts calls, and if there is no object at `p` there is none afterwards. -/
private def Quiet {α} (p : Ptr) (m : M α) : Prop :=
  ∀ w, cellAt w p = none → m w = .ub ∨ ∃ x w', m w = .ok x w' ∧ cellAt w' p = none ∧ w'.tick = w.tick

/-- Without an object at `p`, `m` is undefined. -/
private def Stuck {α} (p : Ptr) (m : M α) : Prop := ∀ w, cellAt w p = none → m w = .ub

/-- The same if the next call that may throw does not throw. -/
private def StuckF {α} (cfg : Cfg) (p : Ptr) (m : M α) : Prop :=
  ∀ w, cellAt w p = none → cfg.faults w.tick = false → m w = .ub

private theorem Stuck.f {α} {p : Ptr} {m : M α} (h : Stuck p m) : StuckF cfg p m := fun w hw _ => h w hw

private theorem Quiet.stuck {α β} {p : Ptr} {m : M α} {k : α → M β} (hm : Quiet p m) (hk : ∀ x, Stuck p (k x)) :
    Stuck p (m >>= k) := by
  intro w hw
  rcases hm w hw with h | ⟨x, w', h, hc, _⟩
  · simp [bind_apply, h]
  · simp only [bind_apply, h]; exact hk x w' hc

private theorem Quiet.stuckF {α β} {p : Ptr} {m : M α} {k : α → M β} (hm : Quiet p m) (hk : ∀ x, StuckF cfg p (k x)) :
    StuckF cfg p (m >>= k) := by
  intro w hw hf
  rcases hm w hw with h | ⟨x, w', h, hc, ht⟩
  · simp [bind_apply, h]
  · simp only [bind_apply, h]; exact hk x w' hc (by rw [ht]; exact hf)

private theorem quiet_getAny (p : Ptr) (a : Nat) : Quiet p (getAny a) := by
  intro w hw
  unfold getAny
  split
  · exact .inr ⟨_, _, rfl, hw, rfl⟩
  · exact .inl rfl

private theorem quiet_readSize (p : Ptr) (a : Nat) : Quiet p (readSize a) := by
  intro w hw
  unfold readSize
  split
  · split
    · exact .inr ⟨_, _, rfl, hw, rfl⟩
    · exact .inl rfl
  · exact .inl rfl

private theorem quiet_writeSize (p : Ptr) (a n : Nat) : Quiet p (writeSize cfg a n) := by
  intro w hw
  unfold writeSize
  split
  · split
    · refine .inr ⟨_, _, rfl, ?_, rfl⟩
      cases p with
      | data c =>
        simp only [cellAt, upd]
        split
        · rfl
        · exact hw
      | blk b => exact hw
    · exact .inl rfl
  · exact .inl rfl

private theorem quiet_modifyAny (p : Ptr) (a : Nat) (f : AnySt → AnySt) (hf : ∀ s, (f s).buf = s.buf) :
    Quiet p (modifyAny a f) := by
  intro w hw
  simp only [modifyAny, bind_apply, getAny]
  cases ha : w.anys a with
  | none => exact .inl rfl
  | some s =>
    refine .inr ⟨_, _, rfl, ?_, rfl⟩
    cases p with
    | data c =>
      simp only [cellAt, upd] at hw ⊢
      split
      · rename_i hc
        subst hc
        simpa [hf, ha] using hw
      · exact hw
    | blk b => exact hw

private theorem quiet_deallocateMemory (p : Ptr) (a : Nat) : Quiet p (deallocateMemory cfg a) := by
  intro w hw
  simp only [deallocateMemory, bind_apply]
  rcases quiet_getAny p a w hw with h | ⟨s, w1, h, h1, t1⟩
  · exact .inl (by simp [h])
  · simp only [h]
    split
    · exact .inl rfl
    · simp only [bind_apply]
      rcases quiet_readSize p a w1 h1 with h | ⟨n, w2, h, h2, t2⟩
      · exact .inl (by simp [h])
      · simp only [h]
        cases hd : deallocate cfg s.al s.vp n w2 with
        | ub => exact .inl rfl
        | exn _ | term => unfold deallocate at hd; (repeat' split at hd) <;> cases hd
        | ok u w3 =>
          have h3 : cellAt w3 p = none ∧ w3.tick = w2.tick := by
            unfold deallocate at hd
            (repeat' split at hd) <;> cases hd
            refine ⟨?_, rfl⟩
            cases p with
            | data c => exact h2
            | blk b =>
              simp only [cellAt, upd]
              split
              · rfl
              · exact h2
          rcases quiet_modifyAny p a (fun s => { s with vp := .data a }) (fun _ => rfl) w3 h3.1 with h | ⟨x, w4, h, h4, t4⟩
          · exact .inl (by simp [h])
          · exact .inr ⟨x, w4, by simp [h], h4, by rw [t4, h3.2, t2, t1]⟩

private theorem stuck_constructAt (p q : Ptr) (t : Nat) (n : Bool) : Stuck p (constructAt cfg q t (.ref p) n) := by
  intro w hw
  simp only [constructAt, bind_apply, getW]
  split
  · simp [bind_apply, evalArg, hw]
  · rfl

private theorem stuck_bind {α β} {p : Ptr} {m : M α} {k : α → M β} (h : Stuck p m) : Stuck p (m >>= k) := by
  intro w hw; simp [bind_apply, h w hw]

private theorem stuck_constructValue (p : Ptr) (a t : Nat) (n : Bool) : Stuck p (constructValue cfg a t (.ref p) n) :=
  (quiet_getAny p a).stuck fun s => stuck_bind (stuck_constructAt p s.vp t n)

private theorem allocate_stuck {α} {p : Ptr} {al n : Nat} {k : Nat → M α} (hk : ∀ b, Stuck p (k b)) :
    StuckF cfg p (allocate cfg al n >>= k) := by
  intro w hw hf
  simp only [bind_apply, allocate, throwPoint, hf, Bool.false_eq_true, if_false]
  refine hk _ _ ?_
  cases p with
  | data c => exact hw
  | blk b =>
    simp only [cellAt, upd] at hw ⊢
    split
    · rfl
    · exact hw

private theorem stuckF_emplaceInEmpty (p : Ptr) (a t : Nat) (f n : Bool) : StuckF cfg p (emplaceInEmpty cfg a t f (.ref p) n) := by
  unfold emplaceInEmpty
  split
  · exact (stuck_constructValue p a t n).f
  · refine (quiet_getAny p a).stuckF fun s => allocate_stuck fun b => (quiet_modifyAny p a (fun s => { s with vp := .blk b }) (fun _ => rfl)).stuck fun _ =>
      (quiet_writeSize p a _).stuck fun _ => ?_
    split
    · exact stuck_constructValue p a t n
    · intro w hw; simp [onFail, stuck_constructValue p a t n w hw]

/-- C21: emplacing or assigning from a reference to the any's own value is undefined behaviour, from every reachable
state and for every type with a destructor, unless an allocation throws first. -/
theorem C21_own_value_fails (C : CfgOk cfg) {w : World} (h : Reachable cfg w) {a t : Nat} {o : Obj} {n : Bool}
    (hv : content w a = some o) (hd : (cfg.ty o.ty).trivDestr = false) (hf : cfg.faults w.tick = false) :
    exec cfg (.emplace a t (.valueOf a) n) w = .ub := by
  obtain ⟨st, v, ha, hvt, hcell, hty, hok, _⟩ := content_full (h.wf C) hv
  have A := (h.wf C).any a st ha
  have hsl := slotTy_ok hvt hok A.destroyIn w
  -- the value is gone after `destroy_value`
  obtain ⟨w1, h1, hc1, ht1⟩ : ∃ w1, destroyValue cfg a w = .ok () w1 ∧ cellAt w1 st.vp = none ∧ w1.tick = w.tick := by
    have hd' : (cfg.ty v.ty).trivDestr = false := by rw [← hty]; exact hd
    rcases A.shape with hb | ⟨b, k, hb, hk, _⟩
    · refine ⟨{ w with anys := upd w.anys a (some { st with vt := none, buf := .raw }), dtors := upd w.dtors o.id (w.dtors o.id + 1) }, ?_, ?_, rfl⟩
      · rw [hb] at hcell
        simp [destroyValue, hvt, hsl, hd', modifyAny, destroyAt, hcell, hty, hb, setCell, ha, getAny, Buf.ofCell]
      · simp [hb, cellAt, Buf.cell]
    · refine ⟨{ w with anys := upd w.anys a (some { st with vt := none }), blks := upd w.blks b (some { k with cell := none }), dtors := upd w.dtors o.id (w.dtors o.id + 1) }, ?_, ?_, rfl⟩
      · rw [hb] at hcell
        simp [destroyValue, hvt, hsl, hd', modifyAny, destroyAt, hcell, hty, hb, setCell, ha, getAny, hk]
      · simp [hb, cellAt]
  have key : StuckF cfg st.vp (do
      let s ← getAny a
      if !memAlloc a s then emplaceInEmpty cfg a t false (.ref st.vp) n
      else
        let k ← readSize a
        if k < (cfg.ty t).size then
          deallocateMemory cfg a
          emplaceInEmpty cfg a t false (.ref st.vp) n
        else constructValue cfg a t (.ref st.vp) n : M Unit) := by
    refine (quiet_getAny _ a).stuckF fun s => ?_
    split
    · exact stuckF_emplaceInEmpty _ _ _ _ _
    · refine (quiet_readSize _ a).stuckF fun k => ?_
      split
      · exact (quiet_deallocateMemory _ a).stuckF fun _ => stuckF_emplaceInEmpty _ _ _ _ _
      · exact (stuck_constructValue _ _ _ _).f
  have := key w1 hc1 (by rw [ht1]; exact hf)
  simp only [exec, argOf, bind_apply, getAny_some ha, pure_apply, emplace, emplaceDecayed, noexceptIf, h1]
  simp only [bind_apply] at this
  rw [this]

/-- An any holding a value of a type with a destructor. -/
example : ∃ w, Reachable exCfg w ∧ ((content w 0).any (fun o => !(exCfg.ty o.ty).trivDestr) = true ∧ exCfg.faults w.tick = false) :=
  run_witness (ops := [.valueCtor 0 exMs 1 1 (.lit 7) false]) (by decide +kernel)

/-! ### C63: memory of another allocator -/

/-- Destroying a non-empty any whose memory comes from an allocator unequal to its own is undefined. -/
private theorem foreign_dtor {w : World} {a b : Nat} {st : AnySt} {k : Blk} (ha : w.anys a = some st) (hv : st.vt.isSome)
    (hb : st.vp = .blk b) (hk : w.blks b = some k) (hal : allocEq cfg k.al st.al = false) : exec cfg (.dtor a) w = .ub := by
  obtain ⟨v, hv⟩ := Option.isSome_iff_exists.1 hv
  have key : destroyValue cfg a w = .ub ∨
      ∃ w' k', destroyValue cfg a w = .ok () w' ∧ w'.anys a = some { st with vt := none } ∧ w'.blks b = some k' ∧ k'.al = k.al := by
    simp only [destroyValue, bind_apply, getAny_some ha, hv, Option.isNone_some, Bool.false_eq_true, if_false]
    have hs : slotTy st .destroy w = .ub ∨ slotTy st .destroy w = .ok v.ty w := by
      simp only [slotTy, hv]
      cases TypeList.numberOfFirst Method.destroy st.ms with
      | none => exact .inl rfl
      | some i =>
        simp only []
        split
        · exact .inr rfl
        · exact .inl rfl
    rcases hs with hs | hs
    · exact .inl (by simp [bind_apply, hs])
    · simp only [bind_apply, hs]
      by_cases ht : (cfg.ty v.ty).trivDestr = true
      · refine .inr ⟨{ w with anys := upd w.anys a (some { st with vt := none }) }, k, ?_, by simp, hk, rfl⟩
        simp [ht, modifyAny, ha, getAny]
      · simp only [ht, if_false, Bool.false_eq_true, bind_apply, destroyAt, hb, cellAt, hk, Option.bind_some]
        cases hc : k.cell with
        | none => exact .inl rfl
        | some o =>
          simp only []
          by_cases ho : o.ty = v.ty
          · refine .inr ⟨{ w with anys := upd w.anys a (some { st with vt := none }), blks := upd w.blks b (some { k with cell := none }), dtors := upd w.dtors o.id (w.dtors o.id + 1) }, { k with cell := none }, ?_, by simp [hb], by simp, rfl⟩
            simp [ho, setCell, hk, modifyAny, getAny, ha]
          · exact .inl (by simp [ho])
  simp only [exec, destructor, noexceptIf, reset, bind_apply]
  rcases key with h | ⟨w', k', h, h1, h2, h3⟩
  · simp [h]
  · have hm : memAlloc a { st with vt := none } = true := by simp [memAlloc, hb]
    simp only [h, getAny_some h1, hm, if_true, deallocateMemory, bind_apply, Option.isSome_none, Bool.not_true, Bool.or_self,
      Bool.false_eq_true, if_false]
    cases hr : readSize a w' with
    | ub => rfl
    | exn _ | term => unfold readSize at hr; (repeat' split at hr) <;> cases hr
    | ok n w2 =>
      have : w2 = w' := by unfold readSize at hr; (repeat' split at hr) <;> cases hr; rfl
      subst this
      simp [deallocate, hb, h2, h3, hal]

private theorem steal_foreign {w : World} {σ : Abs} {a o b n : Nat} {s t : Snap} {st tt : AnySt} {v : VtPtr}
    {ob : Obj} (R : Rep cfg w σ) (hne : a ≠ o)
    (hs : σ.snaps a = some s) (ht : σ.snaps o = some t) (ho : s.obj = none) (hm : s.mem = none)
    (hto : t.obj = some ob) (htm : t.mem = some (b, n)) (hal : allocEq cfg t.al s.al = false)
    (hi : s.ms <:+: t.ms) (hst : w.anys a = some st) (htt : w.anys o = some tt) (hv : tt.vt = some v) :
    ∃ w', steal cfg a o tt.vp st.ms tt.ms v w = .ok () w' ∧ exec cfg (.dtor a) w' = .ub := by
  obtain ⟨st', D⟩ := R.det hs
  have : st' = st := by have := D.get; rw [hst] at this; injection this with this; exact this.symm
  subst this
  obtain ⟨tt', E⟩ := R.det ht
  have : tt' = tt := by have := E.get; rw [htt] at this; injection this with this; exact this.symm
  subst this
  have hfree := D.ok.empty (D.objNone ho)
  rw [D.memNone hm] at hfree
  simp only [cellAt, hst, Option.bind_some] at hfree
  obtain ⟨k, hb, hk, hn, hbuf, hkal⟩ := E.memSome b n htm
  obtain ⟨v0, hv1, hcell, hty, hvt, _⟩ := E.objSome ob hto
  rw [hv] at hv1; injection hv1 with hv1; subst hv1
  have hi' : st'.ms <:+: tt'.ms := by rw [← D.ms, ← E.ms]; exact hi
  obtain ⟨v', hsub, hty', hvt'⟩ := VtOk.subtable hvt hi' w
  have hsubw : ∀ w2, subtablePtr st'.ms tt'.ms v w2 = .ok v' w2 := by
    intro w2
    unfold subtablePtr at hsub ⊢
    by_cases he : st'.ms = tt'.ms
    · simp only [he, ↓reduceIte, pure_apply, Res.ok.injEq, and_true] at hsub ⊢; exact hsub
    · simp only [he, ↓reduceIte] at hsub ⊢
      cases hfs : TypeList.findSubsequence st'.ms tt'.ms with
      | none => simp [hfs] at hsub
      | some i => simp only [hfs, pure_apply, Res.ok.injEq, and_true] at hsub ⊢; exact hsub
  refine ⟨{ w with anys := upd (upd w.anys o (some { tt' with vp := .data o, vt := none })) a (some { st' with vp := tt'.vp, buf := .size n, vt := some v' }) }, ?_, ?_⟩
  · simp [steal, modifyAny, getAny, htt, upd, hne, Ne.symm hne, hst, readSize, hbuf, writeSize, hfree, hsubw]
    funext c; simp only [upd]; grind
  · refine foreign_dtor (upd_same _ _ _) rfl hb hk ?_
    simp only [allocEq, Bool.or_eq_false_iff, beq_eq_false_iff_ne] at hal
    simp only [allocEq, hal.1, Bool.false_or, beq_iff_eq] at hkal ⊢
    simp only [beq_eq_false_iff_ne]
    show k.al ≠ st'.al
    rw [hkal, ← E.al, ← D.al]; exact hal.2

/-- C63: a transmutating move from any any that owns memory of an allocator unequal to the default-constructed one gives an
object whose destruction is undefined behaviour. -/
theorem C63_transmove_foreign_fails (C : CfgOk cfg) {w : World} (h : Reachable cfg w) {a o x : Nat} {ms ms' : List Method}
    (ha : ¬ alive w a) (hd : .destroy ∈ ms) (hms : methodsOf w o = some ms') (hi : ms <:+: ms') (hx : allocOf w o = some x)
    (hv : (content w o).isSome) (hm : (memOf w o).isSome) (hal : allocEq cfg x cfg.defaultAlloc = false) :
    ∃ w', exec cfg (.transMoveCtor a ms o) w = .ok () w' ∧ exec cfg (.dtor a) w' = .ub := by
  have R := h.rep C
  have hs : (absOf w).snaps a = none := (snap_none ha).1
  have hao : alive w o := by
    unfold alive
    cases hh : w.anys o with
    | none => simp [methodsOf, hh] at hms
    | some _ => rfl
  obtain ⟨t, ht, h1, h2, h3, h4, _⟩ := snap_some hao
  have ht : (absOf w).snaps o = some t := ht
  have hne : a ≠ o := by rintro rfl; exact ha hao
  obtain ⟨w0, h0, R0, _⟩ := construct_unfold (al := cfg.defaultAlloc) R hs hd
  have hs0 := Abs.set_snaps (absOf w) a ⟨ms, cfg.defaultAlloc, none, none⟩
  have ht0 : ((absOf w).set a ⟨ms, cfg.defaultAlloc, none, none⟩).snaps o = some t := by
    rw [Abs.set_other _ _ (Ne.symm hne)]; exact ht
  obtain ⟨st, D⟩ := R0.det hs0
  obtain ⟨tt, E⟩ := R0.det ht0
  rw [h1] at hv; rw [h2] at hm
  obtain ⟨ob, hto⟩ := Option.isSome_iff_exists.1 hv
  obtain ⟨⟨b, n⟩, htm⟩ := Option.isSome_iff_exists.1 hm
  obtain ⟨v, hvv, _⟩ := E.objSome _ hto
  rw [h3] at hms; rw [h4] at hx
  cases hms; cases hx
  obtain ⟨w', he, hu⟩ := steal_foreign R0 hne hs0 ht0 rfl rfl hto htm hal hi D.get E.get hvv
  refine ⟨w', ?_, hu⟩
  have hma : memAlloc a st = false := by rw [Rep.memAlloc D]; rfl
  have hmo : memAlloc o tt = true := by rw [Rep.memAlloc E, htm]; rfl
  have : moveValueFrom cfg true a o w0 = .ok () w' := by
    refine noexceptIf_ok ?_
    rw [← he]
    simp only [bind_apply, getAny_det D, D.objNone rfl, hma, Option.isSome_none, Bool.or_self, Bool.false_eq_true, if_false,
      getAny_det E, hvv]
    by_cases hz : cfg.soos = 0
    · simp only [hz, if_true, steal, bind_apply]
      repeat' (split <;> try rfl)
      all_goals simp_all
    · simp only [hz, if_false, hmo, Bool.not_true, Bool.false_eq_true, if_true, steal, bind_apply]
      repeat' (split <;> try rfl)
      all_goals simp_all
  simp [exec, transMoveCtor, noexceptIf, h0, onFail, this]

/-- The situation of the theorem: a value in memory of allocator 1, moved into a class with fewer methods whose
default allocator is 0. -/
example : ∃ w, Reachable exCfg w ∧ (¬ alive w 1 ∧ Method.destroy ∈ exSub ∧ methodsOf w 0 = some exMs2 ∧ exSub <:+: exMs2 ∧
    (content w 0).isSome ∧ (memOf w 0).isSome ∧ allocOf w 0 = some 1 ∧ allocEq exCfg 1 exCfg.defaultAlloc = false) :=
  run_witness (ops := [.valueCtor 0 exMs2 1 2 (.lit 7) false]) (P := fun w => ¬ alive w 1 ∧ Method.destroy ∈ exSub ∧ methodsOf w 0 = some exMs2 ∧ exSub <:+: exMs2 ∧
    (content w 0).isSome ∧ (memOf w 0).isSome ∧ allocOf w 0 = some 1 ∧ allocEq exCfg 1 exCfg.defaultAlloc = false) (by decide +kernel)

/-- C63: with `SooS = 0`, move assignment between really different allocators from any non-empty any gives an object whose
destruction is undefined behaviour, unless the target already has enough memory (then the value is moved into it). -/
theorem C63_steal_foreign_fails (C : CfgOk cfg) (h0 : cfg.soos = 0) {w : World} (h : Reachable cfg w) {a o x y : Nat}
    (hne : a ≠ o) (hms : methodsOf w a = methodsOf w o) (hx : allocOf w a = some x) (hy : allocOf w o = some y)
    (hd : AllocsDiffer cfg x y) (hv : (content w o).isSome)
    (hr : ∀ b n c k, memOf w a = some (b, n) → memOf w o = some (c, k) → n < k) :
    ∃ w', exec cfg (.moveAssign a o) w = .ok () w' ∧ exec cfg (.dtor a) w' = .ub := by
  have R := h.rep C
  have al : ∀ {c z}, allocOf w c = some z → alive w c := by
    intro c z hz
    unfold alive
    cases hh : w.anys c with
    | none => simp [allocOf, hh] at hz
    | some _ => rfl
  obtain ⟨s, hs, s1, s2, s3, s4, _⟩ := snap_some (al hx)
  obtain ⟨t, ht, t1, t2, t3, t4, _⟩ := snap_some (al hy)
  have hs : (absOf w).snaps a = some s := hs
  have ht : (absOf w).snaps o = some t := ht
  rw [s4] at hx; cases hx
  rw [t4] at hy; cases hy
  rw [s3, t3, Option.some.injEq] at hms
  rw [t1] at hv
  rw [s2, t2] at hr
  obtain ⟨ob, hto⟩ := Option.isSome_iff_exists.1 hv
  obtain ⟨c, k, htm⟩ := R.mem_of_soos ht hto h0
  obtain ⟨hd1, hd2, hd3⟩ := hd
  obtain ⟨w1, e1, R1, _⟩ := destroyValue_spec R hs
  have hs1 := Abs.set_snaps (absOf w) a { s with obj := none }
  have ht1 : ((absOf w).set a { s with obj := none }).snaps o = some t := by
    rw [Abs.set_other _ _ (Ne.symm hne)]; exact ht
  obtain ⟨st, D⟩ := R1.det hs1
  obtain ⟨tt, E⟩ := R1.det ht1
  have hal1 : st.al ≠ tt.al := by rw [← D.al, ← E.al]; exact hd3
  -- the memory of the target is released
  obtain ⟨w2, e2, R2⟩ : ∃ w2, ((if memAlloc a st then deallocateMemory cfg a else pure ()) : M Unit) w1 = .ok () w2 ∧
      Rep cfg w2 ((absOf w).set a { s with obj := none, mem := none }) := by
    cases hm : s.mem with
    | none =>
      refine ⟨w1, by simp [Rep.memAlloc D, hm], ?_⟩
      have : ({ s with obj := none, mem := none } : Snap) = { s with obj := none } := by
        obtain ⟨_, _, _, _⟩ := s; simp_all
      rw [this]; exact R1
    | some p =>
      obtain ⟨b, n⟩ := p
      obtain ⟨w2, h2, R2, _⟩ := deallocateMemory_spec R1 hs1 rfl hm
      exact ⟨w2, by simp [Rep.memAlloc D, hm, h2], by simpa using R2⟩
  have hs2 := Abs.set_snaps (absOf w) a { s with obj := none, mem := none }
  have ht2 : ((absOf w).set a { s with obj := none, mem := none }).snaps o = some t := by
    rw [Abs.set_other _ _ (Ne.symm hne)]; exact ht
  obtain ⟨st2, D2⟩ := R2.det hs2
  obtain ⟨tt2, E2⟩ := R2.det ht2
  obtain ⟨v, hvv, _⟩ := E2.objSome _ hto
  have hae : allocEq cfg t.al s.al = false := by
    simp only [allocEq, hd1, Bool.false_or, beq_eq_false_iff_ne]; exact Ne.symm hd3
  obtain ⟨w', he, hu⟩ := steal_foreign R2 hne hs2 ht2 rfl rfl hto htm hae (by simp only [hms]; exact List.infix_refl _)
    D2.get E2.get hvv
  have hmv : moveValueFrom cfg false a o w2 = .ok () w' := by
    have hma : memAlloc a st2 = false := by rw [Rep.memAlloc D2]; rfl
    refine noexceptIf_ok ?_
    rw [← he]
    simp only [bind_apply, getAny_det D2, D2.objNone rfl, hma, Option.isSome_none, Bool.or_self, Bool.false_eq_true, if_false,
      getAny_det E2, hvv, h0, if_true, steal]
    repeat' (split <;> try rfl)
    all_goals simp_all
  refine ⟨w', ?_, hu⟩
  have hmov : movableAlloc cfg = false := by simp [movableAlloc, hd1, hd2]
  simp only [exec, moveAssign, hmov, noexceptIf, hne, hd1, hd2, Bool.false_eq_true, if_false, bind_apply, e1,
    getAny_det D, getAny_det E, hal1, ne_eq, not_false_eq_true, if_true]
  by_cases hb : (tt.vt.isSome && memAlloc o tt && memAlloc a st) = true
  · simp only [hb, if_true]
    simp only [Bool.and_eq_true] at hb
    obtain ⟨⟨hb1, hb2⟩, hb3⟩ := hb
    have hb3' := hb3
    rw [Rep.memAlloc D] at hb3
    obtain ⟨⟨b, n⟩, hn⟩ := Option.isSome_iff_exists.1 hb3
    have := hr b n c k hn htm
    have hnk : ¬ k ≤ n := by omega
    simp only [hb3', if_true] at e2
    simp [readSize_det D hn, readSize_det E htm, hnk, hb3', e2, hmv]
  · simp only [Bool.not_eq_true] at hb
    simp only [hb, Bool.false_eq_true, if_false, pure_apply]
    cases hma : memAlloc a st with
    | true => simp only [hma, if_true] at e2; simp [e2, hmv]
    | false => simp only [hma, Bool.false_eq_true, if_false, pure_apply, Res.ok.injEq, true_and] at e2; subst e2; simp [hmv]

/-- The situation of the theorem: the target is empty and has no memory. -/
example : ∃ w, Reachable exCfg0 w ∧ (methodsOf w 1 = methodsOf w 0 ∧ allocOf w 1 = some 2 ∧ allocOf w 0 = some 1 ∧
    AllocsDiffer exCfg0 2 1 ∧ (content w 0).isSome ∧ memOf w 1 = none) :=
  run_witness (ops := [.valueCtor 0 exMs 1 2 (.lit 7) false, .allocCtor 1 exMs 2]) (by decide +kernel)

/-! ### C09, C15: the outcome of move assignment -/

/-- The source holds its value in memory of an allocator that the target cannot take over: move
assignment then has to move the value, not the pointer. -/
def MovesValue (cfg : Cfg) (w : World) (a o : Nat) : Prop :=
  ∃ x y, allocOf w a = some x ∧ allocOf w o = some y ∧ AllocsDiffer cfg x y ∧ (content w o).isSome ∧ (memOf w o).isSome

/-- The target already has memory, at least as large as the memory of the source. -/
def HasRoom (w : World) (a o : Nat) : Prop :=
  ∃ b n c k, memOf w a = some (b, n) ∧ memOf w o = some (c, k) ∧ k ≤ n

/-- The type of the value of `o` may throw when it is relocated. -/
def ThrowingMove (cfg : Cfg) (w : World) (o : Nat) : Prop := ∃ ob, content w o = some ob ∧ (cfg.ty ob.ty).nothrowReloc = false

/-- C09/C15: the outcome of every legal move assignment, exactly. `cfg.faults n` says whether the `n`-th
call of user code or of the allocator throws; `w.tick` is the number of calls made so far.
* It throws iff it has to move the value, there is no room in the target and the allocation throws.
* It terminates iff it has to move the value, the type may throw when moved, and that move throws.
* It returns in all other cases. -/
theorem C09_move_assignment_exact (C : CfgOk cfg) {w : World} (h : Reachable cfg w) {a o : Nat}
    (L : Legal cfg w (.moveAssign a o)) :
    ((∃ w', exec cfg (.moveAssign a o) w = .exn w') ↔
      MovesValue cfg w a o ∧ ¬ HasRoom w a o ∧ cfg.faults w.tick = true) ∧
    (exec cfg (.moveAssign a o) w = .term ↔
      MovesValue cfg w a o ∧ ThrowingMove cfg w o ∧
        ((HasRoom w a o ∧ cfg.faults w.tick = true) ∨
         (¬ HasRoom w a o ∧ cfg.faults w.tick = false ∧ cfg.faults (w.tick + 1) = true))) ∧
    ((∃ w', exec cfg (.moveAssign a o) w = .ok () w') ∨ (∃ w', exec cfg (.moveAssign a o) w = .exn w') ∨
      exec cfg (.moveAssign a o) w = .term) := by
  have R := h.rep C
  obtain ⟨s, hs, t, ht, hms, hmv, hal⟩ := L
  obtain ⟨a1, a2, a3, a4, a5, a6⟩ := of_snap hs
  obtain ⟨o1, o2, o3, o4, o5, o6⟩ := of_snap ht
  have hMV : MovesValue cfg w a o ↔ Unequal cfg s t ∧ t.obj.isSome ∧ t.mem.isSome := by
    simp only [MovesValue, a5, o5, o2, o3, Option.some.injEq]
    constructor
    · rintro ⟨x, y, rfl, rfl, h⟩; exact h
    · intro h; exact ⟨_, _, rfl, rfl, h⟩
  have hHR : HasRoom w a o ↔ Reuse s t := by simp only [HasRoom, Reuse, a3, o3]
  have hTM : ThrowingMove cfg w o ↔ ∃ ob, t.obj = some ob ∧ (cfg.ty ob.ty).nothrowReloc = false := by
    simp only [ThrowingMove, o2]
  rw [hMV, hHR, hTM]
  by_cases hne : a = o
  · subst hne
    have hst : s = t := by rw [hs] at ht; exact Option.some.inj ht
    have hU : ¬ Unequal cfg s t := fun hh => hh.2.2 (by rw [hst])
    have he : exec cfg (.moveAssign a a) w = .ok () w := moveAssign_self a
    rw [he]
    simp [hU]
  · have he : exec cfg (.moveAssign a o) w = moveAssign cfg a o w := rfl
    rw [he]
    rcases moveAssign_spec C R hne hs ht hms hmv.movable (fun h _ => hal h) with
      ⟨w', h', _, hq⟩ | ⟨hU, hm, ho, w', h', _, hr, hf⟩ | ⟨hU, ob, hob, hn, h', hm, hq⟩
    · rw [h']
      refine ⟨⟨by simp, ?_⟩, ⟨by simp, ?_⟩, Or.inl ⟨w', rfl⟩⟩
      · rintro ⟨⟨hU, ho, hm⟩, hr, hf⟩
        obtain ⟨ob, hob⟩ := Option.isSome_iff_exists.1 ho
        rcases hq hU hm ob hob with h1 | h1
        · exact absurd h1.1 hr
        · rw [hf] at h1; exact absurd h1.2.1 (by simp)
      · rintro ⟨⟨hU, ho, hm⟩, ⟨ob, hob, hn⟩, hc⟩
        rcases hq hU hm ob hob with ⟨h1, h2⟩ | ⟨h1, h2, h3⟩ <;> rcases hc with ⟨g1, g2⟩ | ⟨g1, g2, g3⟩
        · rw [h2 hn] at g2; cases g2
        · exact absurd h1 g1
        · exact absurd g1 h1
        · rw [h3 hn] at g3; cases g3
    · rw [h']
      refine ⟨⟨fun _ => ⟨⟨hU, ho, hm⟩, hr, hf⟩, fun _ => ⟨w', rfl⟩⟩, ⟨by simp, ?_⟩, Or.inr (Or.inl ⟨w', rfl⟩)⟩
      rintro ⟨_, _, hc⟩
      rcases hc with hc | hc
      · exact absurd hc.1 hr
      · rw [hc.2.1] at hf; cases hf
    · rw [h']
      refine ⟨⟨by simp, ?_⟩, ⟨fun _ => ⟨⟨hU, by simp [hob], hm⟩, ⟨ob, hob, hn⟩, hq⟩, fun _ => rfl⟩, Or.inr (Or.inr rfl)⟩
      rintro ⟨_, hr, hf⟩
      rcases hq with hq | hq
      · exact absurd hq.1 hr
      · rw [hq.2.1] at hf; cases hf

/-- All three outcomes occur: the second call of user code or allocator throws (the allocation of the
assignment), the third (the move constructor), or none. -/
example :
    (∃ w, Reachable (exCfgF 3) w ∧ (Legal (exCfgF 3) w (.moveAssign 1 0) ∧ (exec (exCfgF 3) (.moveAssign 1 0) w).isExn = true)) ∧
    (∃ w, Reachable (exCfgF 3) w ∧ (Legal (exCfgF 3) w (.moveAssign 1 0) ∧ (exec (exCfgF 3) (.moveAssign 1 0) w).isTerm = true)) ∧
    (∃ w, Reachable exCfg w ∧ (Legal exCfg w (.moveAssign 1 0) ∧ (exec exCfg (.moveAssign 1 0) w).isOk = true)) :=
  ⟨run_witness (ops := [.valueCtor 0 exMs 1 2 (.lit 7) false, .valueCtor 1 exMs 2 1 (.lit 5) false]) (by decide +kernel),
   run_witness (ops := [.valueCtor 0 exMs 1 4 (.lit 7) false, .allocCtor 1 exMs 2]) (by decide +kernel),
   run_witness (ops := [.valueCtor 0 exMs 1 4 (.lit 7) false, .allocCtor 1 exMs 2]) (by decide +kernel)⟩

/-- C09: a move assignment that throws always loses the value of the target, and nothing else. -/
theorem C09_move_assignment_loses (C : CfgOk cfg) {w w' : World} (h : Reachable cfg w) {a o : Nat}
    (L : Legal cfg w (.moveAssign a o)) (he : exec cfg (.moveAssign a o) w = .exn w') :
    content w' a = none ∧ memOf w' a = none ∧ methodsOf w' a = methodsOf w a ∧ allocOf w' a = allocOf w a ∧
    ∀ c, c ≠ a → snap w' c = snap w c := by
  have R := h.rep C
  obtain ⟨s, hs, t, ht, hms, hmv, hal⟩ := L
  obtain ⟨a1, a2, a3, a4, a5, a6⟩ := of_snap hs
  have he' : moveAssign cfg a o w = .exn w' := he
  by_cases hne : a = o
  · subst hne; rw [moveAssign_self] at he'; cases he'
  rcases moveAssign_spec C R hne hs ht hms hmv.movable (fun h _ => hal h) with
      ⟨w1, h', _⟩ | ⟨_, _, _, w1, h', R', _⟩ | ⟨_, ob, _, _, h', _⟩
  · rw [he'] at h'; cases h'
  · rw [he'] at h'; cases h'
    have g := Abs.set_snaps (absOf w) a { s with obj := none, mem := none }
    rw [← R'.snaps] at g
    obtain ⟨b1, b2, b3, b4, b5, b6⟩ := of_snap g
    refine ⟨b2, b3, by rw [b4, a4], by rw [b5, a5], fun c hc => ?_⟩
    rw [show snap w' c = _ from congrFun R'.snaps c]
    exact Abs.set_other _ _ hc
  · rw [he'] at h'; cases h'

/-- C14: whenever move assignment has to move the value although `is_stable_pointers()` is true for the
source, the target gets a new object at another address: a pointer to the old value does not follow it. -/
theorem C14_unequal_allocators_fail (C : CfgOk cfg) {w w' : World} (h : Reachable cfg w) {a o : Nat}
    (L : Legal cfg w (.moveAssign a o)) (hm : MovesValue cfg w a o) (he : exec cfg (.moveAssign a o) w = .ok () w') :
    isStablePointers o w = .ok true w ∧
    (∃ ob ob', content w o = some ob ∧ content w' a = some ob' ∧ ob'.id = w.nextObj ∧ ob'.id ≠ ob.id ∧
      ob'.ty = ob.ty ∧ ob'.val = ob.val) ∧
    addrOf w' a ≠ addrOf w o ∧ content w' o = none := by
  have R := h.rep C
  obtain ⟨s, hs, t, ht, hms, hmv, hal⟩ := L
  obtain ⟨a1, a2, a3, a4, a5, a6⟩ := of_snap hs
  obtain ⟨o1, o2, o3, o4, o5, o6⟩ := of_snap ht
  obtain ⟨x, y, hx, hy, hd, ho, hmem⟩ := hm
  rw [a5] at hx; rw [o5] at hy; cases hx; cases hy
  have hne : a ≠ o := by
    rintro rfl; rw [hs] at ht; cases ht; exact hd.2.2 rfl
  have hU : Unequal cfg s t := hd
  have h0 : cfg.soos ≠ 0 := fun h0 => hal h0 hU
  have he' : moveAssign cfg a o w = .ok () w' := he
  rw [o2] at ho; rw [o3] at hmem
  obtain ⟨ob, hob⟩ := Option.isSome_iff_exists.1 ho
  obtain ⟨⟨c, k⟩, hk⟩ := Option.isSome_iff_exists.1 hmem
  rcases moveAssign_spec C R hne hs ht hms hmv.movable (fun h _ => hal h) with
      ⟨w1, h', R', _⟩ | ⟨_, _, _, w1, h', _⟩ | ⟨_, _, _, _, h', _⟩ <;> rw [he'] at h' <;> cases h'
  have key : ∃ m, m.isSome ∧ snap w' a = some ⟨s.ms, s.al, m, some ⟨w.nextObj, ob.ty, ob.val⟩⟩ ∧
      snap w' o = some ⟨t.ms, t.al, some (c, k), none⟩ := by
    have g := R'.snaps
    have ga := congrFun g a
    have go := congrFun g o
    simp only [moveAssigned, hU, if_true, hob, hk, movedFresh, h0, if_false] at ga go
    have hno : (absOf w).no = w.nextObj := rfl
    have hnb : (absOf w).nb = w.nextBlk := rfl
    cases hsm : s.mem with
    | none =>
      simp only [hsm] at ga go
      exact ⟨some (w.nextBlk, k), rfl, by rw [show snap w' a = _ from ga]; simp [Abs.set2, Abs.set, hno, hnb], by rw [show snap w' o = _ from go]; simp [Abs.set2, upd, Ne.symm hne, Abs.set, hk]⟩
    | some p =>
      obtain ⟨b, n⟩ := p
      simp only [hsm] at ga go
      by_cases hkn : k ≤ n
      · simp only [hkn, if_true] at ga go
        exact ⟨some (b, n), rfl, by rw [show snap w' a = _ from ga]; simp [Abs.set2, Abs.set, hno, hsm], by rw [show snap w' o = _ from go]; simp [Abs.set2, upd, Ne.symm hne, Abs.set, hk]⟩
      · simp only [hkn, if_false] at ga go
        exact ⟨some (w.nextBlk, k), rfl, by rw [show snap w' a = _ from ga]; simp [Abs.set2, Abs.set, hno, hnb], by rw [show snap w' o = _ from go]; simp [Abs.set2, upd, Ne.symm hne, Abs.set, hk]⟩
  obtain ⟨m, hmS, ka, ko⟩ := key
  obtain ⟨⟨b, n⟩, rfl⟩ := Option.isSome_iff_exists.1 hmS
  obtain ⟨p1, p2, p3, p4, p5, p6⟩ := of_snap ka
  obtain ⟨q1, q2, q3, q4, q5, q6⟩ := of_snap ko
  obtain ⟨_, _, _, _, _, _, _, hlt, _⟩ := content_full R.wf (show content w o = some ob by rw [o2, hob])
  obtain ⟨u1, v1, m1, m2, _⟩ := memOf_some R'.wf p3
  obtain ⟨u2, v2, m3, m4, _⟩ := memOf_some R'.wf q3
  obtain ⟨u3, v3, m5, m6, _⟩ := memOf_some R.wf (show memOf w o = some (c, k) by rw [o3, hk])
  refine ⟨by rw [isStable_spec R ht, hk]; rfl, ⟨ob, _, by rw [o2, hob], p2, rfl, by simp; omega, rfl, rfl⟩, ?_, q2⟩
  simp only [addrOf, m1, m5, Option.map_some, m2, m6, ne_eq, Option.some.injEq, Ptr.blk.injEq]
  rintro rfl
  exact hne (R'.wf.blkInj a u1 o u2 b m1 m3 m2 m4)

example : ∃ w, Reachable exCfg w ∧ (Legal exCfg w (.moveAssign 1 0) ∧ allocOf w 1 = some 2 ∧ allocOf w 0 = some 1 ∧
    AllocsDiffer exCfg 2 1 ∧ (content w 0).isSome ∧ (memOf w 0).isSome ∧ (exec exCfg (.moveAssign 1 0) w).isOk = true) :=
  run_witness (ops := [.valueCtor 0 exMs 1 2 (.lit 7) false, .allocCtor 1 exMs 2]) (by decide +kernel)

/-! ### C15: `force_stable_pointers` -/

/-- C15: constructing a small type from arguments that do not throw, with `force_stable_pointers`, is
declared `noexcept` but allocates: it terminates exactly when that allocation throws. -/
theorem C15_force_stable_exact (C : CfgOk cfg) {w : World} (h : Reachable cfg w) {a t : Nat} {ms : List Method} {arg : ArgSrc}
    (L : Legal cfg w (.forceCtor a ms t arg true)) (hf : fits cfg t = true) :
    (exec cfg (.forceCtor a ms t arg true) w = .term ↔ cfg.faults w.tick = true) ∧
    ((∃ w', exec cfg (.forceCtor a ms t arg true) w = .ok () w') ↔ cfg.faults w.tick = false) := by
  have R := h.rep C
  obtain ⟨h1, h2, h3⟩ := L
  obtain ⟨ar, har, harg⟩ := argOf_spec R h3
  obtain ⟨w0, h0, R0, _, ht0⟩ := construct_unfold (al := cfg.defaultAlloc) R h1 h2
  have hs0 := Abs.set_snaps (absOf w) a ⟨ms, cfg.defaultAlloc, none, none⟩
  have harg0 := harg.set (σ' := (absOf w).set a ⟨ms, cfg.defaultAlloc, none, none⟩) (fun c hc => Abs.set_other _ _ hc)
  obtain ⟨st, D⟩ := R0.det hs0
  have hex : exec cfg (.forceCtor a ms t arg true) w =
      noexceptIf true (onFail (emplaceInEmpty cfg a t true ar true) (dropSlot a)) w0 := by
    simp [exec, har, forceCtor, hf, noexceptIf, h0]
  have hunf : emplaceInEmpty cfg a t true ar true w0 =
      ((acquire cfg st.al a (cfg.ty t).size) >>= fun _ => constructValue cfg a t ar true) w0 := by
    simp only [emplaceInEmpty, acquire, bind_assoc', Bool.not_true, Bool.and_false, Bool.false_eq_true, if_false, if_true]
    rw [bind_apply, getAny_some D.get]
  rw [hex]
  rcases acquire_spec (n := (cfg.ty t).size) (al := st.al) R0 hs0 rfl rfl (by rw [D.al]; exact allocEq_refl _) with
    ⟨w1, e1, R1, f1, _⟩ | ⟨w1, e1, R1, _, _, f1⟩
  · rw [ht0] at f1
    generalize hσ : (absOf w).set a ⟨ms, cfg.defaultAlloc, none, none⟩ = σ at *
    have hs1 : ({ σ.set a { (⟨ms, cfg.defaultAlloc, none, none⟩ : Snap) with mem := some (σ.nb, (cfg.ty t).size) } with nb := σ.nb + 1 } : Abs).snaps a = some { (⟨ms, cfg.defaultAlloc, none, none⟩ : Snap) with mem := some (σ.nb, (cfg.ty t).size) } := by simp [Abs.set]
    rcases constructValue_spec (t := t) (arg := ar) true R1 hs1 rfl ⟨by simp, by
        intro b n hbn; simp at hbn; obtain ⟨_, rfl⟩ := hbn; exact ⟨Nat.le_refl _, C.align t⟩⟩
      ((harg0.set (fun c hc => by simp [Abs.set, upd, hc])).eval R1) with ⟨w', he, R'⟩ | ⟨hn, _⟩
    · have : noexceptIf true (onFail (emplaceInEmpty cfg a t true ar true) (dropSlot a)) w0 = .ok () w' := by
        simp [noexceptIf, onFail, hunf, e1, he]
      rw [this]; simp [f1]
    · cases hn
  · rw [ht0] at f1
    have : noexceptIf true (onFail (emplaceInEmpty cfg a t true ar true) (dropSlot a)) w0 = .term := by
      simp [noexceptIf, onFail, hunf, e1, dropSlot]
    rw [this]; simp [f1]

example : Legal (exCfgF 0) .init (.forceCtor 0 exMs 0 (.lit 1) true) ∧ fits (exCfgF 0) 0 = true ∧ (exCfgF 0).faults 0 = true ∧
    Legal exCfg .init (.forceCtor 0 exMs 0 (.lit 1) true) ∧ exCfg.faults 0 = false := by decide +kernel

/-! ### C61: over-aligned types -/

/-- C61: in every state, constructing an any with a value of a type that needs more alignment than the
byte allocator gives, and that is not placed in the buffer, is undefined behaviour, unless the
allocation throws. -/
theorem C61_overaligned_fails {w : World} {a al t : Nat} {ms : List Method} {x : Nat} {n : Bool}
    (ha : w.anys a = none) (hd : .destroy ∈ ms) (hal : cfg.allocAlign < (cfg.ty t).align) (hf : fits cfg t = false) :
    exec cfg (.valueCtor a ms al t (.lit x) n) w = .ub ∨ cfg.faults w.tick = true := by
  by_cases hq : cfg.faults w.tick = true
  · exact Or.inr hq
  · refine Or.inl ?_
    have : ¬ (cfg.ty t).align ≤ cfg.allocAlign := by omega
    cases n <;> simp [exec, argOf, valueCtor, hf, noexceptIf, construct, ha, hd, emplaceInEmpty, getAny, allocate, throwPoint, hq, modifyAny, writeSize, onFail, constructValue, constructAt, storageOk, this, Buf.cell, cellFree]

/-- A type with size and alignment 64. -/
example : let cfg : Cfg := { exCfg with ty := fun _ => ⟨64, 64, true, true, true, true, by decide, by decide⟩ }
    World.init.anys 0 = none ∧ Method.destroy ∈ exMs ∧ cfg.allocAlign < (cfg.ty 0).align ∧ fits cfg 0 = false ∧
    cfg.faults World.init.tick = false := by decide +kernel

/-! ### C22: materialising a reference whose copy throws -/

/-- C22: constructing an any from a reference to a value whose copy throws is undefined behaviour whenever the
type needs destruction: the destructor runs on an object that was never constructed. (If it needs none,
or if nothing throws, see `C22_materialize_partial`.) -/
theorem C22_throwing_copy_always_fails (C : CfgOk cfg) {w : World} (h : Reachable cfg w) {a o al : Nat} {ms : List Method}
    (ha : ¬ alive w a) (hd : .destroy ∈ ms) (hcp : .copy 0 ∈ ms) {msO : List Method} (hmo : methodsOf w o = some msO)
    (hi : ms <:+: msO) {ob : Obj} (hob : content w o = some ob) (hnt : (cfg.ty ob.ty).trivDestr = false)
    (hct : copyThrows cfg w.tick ob.ty = true) : exec cfg (.materialize a ms al o) w = .ub := by
  have R := h.rep C
  have hs : (absOf w).snaps a = none := (snap_none ha).1
  have hao : alive w o := by
    unfold alive
    cases hh : w.anys o with
    | none => simp [methodsOf, hh] at hmo
    | some _ => rfl
  obtain ⟨t, ht, h1, h2, h3, h4, _⟩ := snap_some hao
  have ht : (absOf w).snaps o = some t := ht
  rw [h3] at hmo; cases hmo
  rw [h1] at hob
  obtain ⟨_, _, _, _, _, hr, _⟩ := refTo_spec R ht hob hi
  simp only [exec, bind_apply, hr]
  exact materialize_ub C R hs ht hd hcp hi hob hr hnt hct

example : ∃ w, Reachable (exCfgF 1) w ∧ (¬ alive w 1 ∧ Method.destroy ∈ exMs ∧ Method.copy 0 ∈ exMs ∧ methodsOf w 0 = some exMs ∧
    (content w 0).map (·.ty) = some 1 ∧ ((exCfgF 1).ty 1).trivDestr = false ∧ copyThrows (exCfgF 1) w.tick 1 = true) :=
  run_witness (ops := [.valueCtor 0 exMs 0 1 (.lit 7) false]) (by decide +kernel)

end AnyAny.Mem
