import Verif.Props.AnyOps
/-
Property C135: assigning to an any that owns enough memory allocates nothing and keeps the memory. True for values (`a = v`, `emplace`); false for the assignment of
anys. `fits cfg t`: values of type `t` are stored in the buffer of the any.
-/
namespace AnyAny.Mem
variable {cfg : Cfg}

/-! ### Values -/

/-- Operations that give an any a value of at most `n` bytes (`a = v` is `emplace`, C73), or take its value away but not its memory. -/
def PutsAtMost (cfg : Cfg) (n a : Nat) : Op → Prop
  | .emplace b t _ _ => b = a ∧ (cfg.ty t).size ≤ n
  | .destroyValue b => b = a
  | _ => False

/-- **C135 (partial: values).** An any that owns `n` bytes can be assigned any number of values of at most `n` bytes, whether constructors throw or not: nothing is
allocated, and the memory stays. Missing: assignment of anys, false. -/
theorem C135_values_partial (C : CfgOk cfg) {w w' : World} (h : Reachable cfg w) {a b n : Nat} (hm : memOf w a = some (b, n)) {ops : List Op}
    (ho : ∀ op ∈ ops, PutsAtMost cfg n a op) (hr : run cfg ops w = .done w') : memOf w' a = some (b, n) ∧ w'.nextBlk = w.nextBlk := by
  induction ops generalizing w with
  | nil =>
    have h' : Outcome.done w = .done w' := hr
    cases h'
    exact ⟨hm, rfl⟩
  | cons op ops ih =>
    simp only [run] at hr
    split at hr
    · rename_i L
      have step : ∀ w1, (exec cfg op w = .ok () w1 ∨ exec cfg op w = .exn w1) → memOf w1 a = some (b, n) ∧ w1.nextBlk = w.nextBlk := by
        intro w1 h1
        have hop := ho op (by simp)
        cases op with
        | emplace c t arg nt =>
          obtain ⟨rfl, hsz⟩ := hop
          obtain ⟨w2, h2, h3, _, h4, _⟩ := C11_emplace_reuses_memory C h L hm hsz
          rcases h1 with h1 | h1 <;> rcases h2 with ⟨h2, _⟩ | h2 <;> rw [h1] at h2 <;> cases h2 <;> exact ⟨h3, h4⟩
        | destroyValue c =>
          obtain rfl : c = a := hop
          have ha : alive w c := by
            obtain ⟨s, hs⟩ := Option.isSome_iff_exists.1 (show (snap w c).isSome from L)
            exact (of_snap hs).1
          obtain ⟨w2, h2, _, _, h3, _, h4, _⟩ := C12_destroy_value C h ha
          have h2' : exec cfg (.destroyValue c) w = .ok () w2 := h2
          rcases h1 with h1 | h1 <;> rw [h1] at h2' <;> cases h2'
          exact ⟨h3.trans hm, h4⟩
        | _ => exact hop.elim
      have go : ∀ w1, (exec cfg op w = .ok () w1 ∨ exec cfg op w = .exn w1) → run cfg ops w1 = .done w' →
          memOf w' a = some (b, n) ∧ w'.nextBlk = w.nextBlk := by
        intro w1 h1 h2
        obtain ⟨s1, s2⟩ := step w1 h1
        have hw1 : Reachable cfg w1 := by
          rcases h1 with h1 | h1
          · exact .ok h L h1
          · exact .exn h L h1
        obtain ⟨g1, g2⟩ := ih hw1 s1 (fun o m => ho o (by simp [m])) h2
        exact ⟨g1, g2.trans s2⟩
      cases hx : exec cfg op w with
      | ok u w1 => rw [hx] at hr; exact go w1 (.inl hx) hr
      | exn w1 => rw [hx] at hr; exact go w1 (.inr hx) hr
      | ub => rw [hx] at hr; cases hr
      | term => rw [hx] at hr; cases hr
    · cases hr

/-! ### Copy assignment -/

theorem propagated_al (s t : Snap) : (propagated cfg s t).al = propagatedAl cfg s.al t.al := by
  unfold propagated propagatedAl
  by_cases hc : (!cfg.alwaysEq && cfg.pocca) = true
  · by_cases he : s.al = t.al
    · simp [he]
    · simp [hc, he]
  · simp [hc]

theorem copyConstructed_nb (σ : Abs) (a : Nat) (ms : List Method) (t : Snap) :
    (copyConstructed cfg σ a ms t).nb = σ.nb + (if t.obj.any fun ob => !fits cfg ob.ty then 1 else 0) := by
  unfold copyConstructed copied
  cases t.obj with
  | none => simp [Abs.set]
  | some ob => cases hf : fits cfg ob.ty <;> simp [hf, Abs.set]

theorem moved_nb (σ : Abs) (a o : Nat) (s t : Snap) : (moved σ a s o t).nb = σ.nb := by
  unfold moved
  split <;> rfl

theorem moveAssigned_nb (σ : Abs) (a o : Nat) (s t : Snap) : σ.nb ≤ (moveAssigned cfg σ a s o t).nb := by
  have hf : ∀ σ' s', σ'.nb = σ.nb → σ.nb ≤ (movedFresh cfg σ' a s' o t).nb := by
    intro σ' s' h
    unfold movedFresh
    split
    · split
      · rw [moved_nb, h]; exact Nat.le_refl _
      · simp only; omega
    · rw [moved_nb, h]; exact Nat.le_refl _
  unfold moveAssigned
  split
  · simp only
    split
    · split
      · exact Nat.le_refl _
      · exact hf _ _ rfl
    · exact hf _ _ rfl
  · simp only
    rw [moved_nb]
    exact Nat.le_refl _

theorem copyAssign_rep (C : CfgOk cfg) {w w' : World} (h : Reachable cfg w) {a o tmp : Nat} (L : Legal cfg w (.copyAssign a o tmp))
    (he : exec cfg (.copyAssign a o tmp) w = .ok () w') :
    a ≠ tmp ∧ ∃ s t, snap w a = some s ∧ snap w o = some t ∧ Rep cfg w' (copyAssigned cfg (absOf w) a s t tmp) := by
  obtain ⟨h1, s, h2, t, h3, h4, h5, h6⟩ := L
  have R := h.rep C
  have hU : Unequal cfg (propagated cfg s t) (copySnap cfg (absOf w) t.ms t) ↔ AllocsDiffer cfg (propagatedAl cfg s.al t.al) (cfg.soccc t.al) := by
    unfold Unequal; rw [propagated_al]; rfl
  refine ⟨by rintro rfl; simp [h1] at h2, s, t, h2, h3, ?_⟩
  have he' : copyAssign cfg a o tmp w = .ok () w' := he
  rcases copyAssign_spec C R h1 h2 h3 h4 h5 (fun h0 _ => by rw [hU]; exact h6 h0) with
    ⟨w1, h', R'⟩ | ⟨_, w1, nb', h', _⟩ | ⟨_, _, w1, σ', h', _⟩ | ⟨_, ob, _, _, h'⟩ <;> rw [he'] at h' <;> cases h'
  exact R'

/-- **C135 fails: copy assignment of a value that does not fit the buffer always allocates**, however much memory the target owns, with every allocator, also for
`a = a`. -/
theorem C135_copy_fails (C : CfgOk cfg) {w w' : World} (h : Reachable cfg w) {a o tmp : Nat} (L : Legal cfg w (.copyAssign a o tmp))
    (he : exec cfg (.copyAssign a o tmp) w = .ok () w') {ob : Obj} (hc : content w o = some ob) (hf : fits cfg ob.ty = false) :
    w.nextBlk < w'.nextBlk := by
  obtain ⟨_, s, t, h2, h3, R'⟩ := copyAssign_rep C h L he
  have hto : t.obj = some ob := by rw [← (of_snap h3).2.1, hc]
  rw [R'.nb]
  unfold copyAssigned
  refine Nat.lt_of_lt_of_le ?_ (moveAssigned_nb _ _ _ _ _)
  show w.nextBlk < (copyConstructed cfg (absOf w) tmp t.ms t).nb
  rw [copyConstructed_nb, hto]
  simp [hf]
  exact Nat.lt_succ_of_le (Nat.le_of_eq (h.rep C).nb)

/-- **C135, exactly (copy assignment, allocators that are equal or propagated, as `std::allocator`).** Whatever the target owned is given back. Afterwards it owns a
new block of exactly the size of the value, if this does not fit the buffer, and nothing otherwise; that block is the only allocation. -/
theorem C135_copy_exact (C : CfgOk cfg) {w w' : World} (h : Reachable cfg w) {a o tmp x y : Nat} (L : Legal cfg w (.copyAssign a o tmp))
    (he : exec cfg (.copyAssign a o tmp) w = .ok () w') (hx : allocOf w a = some x) (hy : allocOf w o = some y)
    (hd : ¬ AllocsDiffer cfg (propagatedAl cfg x y) (cfg.soccc y)) :
    memOf w' a = (content w o).bind (fun ob => if fits cfg ob.ty then none else some (w.nextBlk, (cfg.ty ob.ty).size)) ∧
      w'.nextBlk = w.nextBlk + (if (content w o).any fun ob => !fits cfg ob.ty then 1 else 0) := by
  obtain ⟨hne, s, t, h2, h3, R'⟩ := copyAssign_rep C h L he
  have R := h.rep C
  obtain ⟨_, _, _, _, q1, _⟩ := of_snap h2
  obtain ⟨_, c1, _, _, q2, _⟩ := of_snap h3
  rw [q1] at hx
  rw [q2] at hy
  cases hx
  cases hy
  have hU : ¬ Unequal cfg (propagated cfg s t) (copySnap cfg (absOf w) t.ms t) := by
    unfold Unequal; rw [propagated_al]; exact hd
  have hnb : (absOf w).nb = w.nextBlk := R.nb.symm
  rw [c1]
  constructor
  · have hsn : snap w' a = (copyAssigned cfg (absOf w) a s t tmp).snaps a := by rw [R'.snaps]
    unfold copyAssigned moveAssigned at hsn
    rw [if_neg hU] at hsn
    simp only [Abs.del, upd, hne, if_false] at hsn
    unfold moved copySnap at hsn
    cases hto : t.obj with
    | none =>
      simp only [hto, Option.map_none, Option.bind_none, Abs.set, upd, if_true] at hsn ⊢
      rw [(of_snap hsn).2.2.1]
    | some ob =>
      cases hf : fits cfg ob.ty <;>
        simp only [hto, hf, Option.map_some, Option.bind_some, if_true, if_false, Bool.false_eq_true, Abs.set2, Abs.set, upd] at hsn ⊢ <;>
        rw [(of_snap hsn).2.2.1]
      rw [hnb]
  · rw [R'.nb]
    unfold copyAssigned moveAssigned
    rw [if_neg hU]
    simp only [Abs.del]
    rw [moved_nb]
    show (copyConstructed cfg (absOf w) tmp t.ms t).nb = _
    rw [copyConstructed_nb, hnb]

/-- **C135 fails: a program that assigns the same any `k` times** to an any with enough memory allocates at least `k` times. -/
theorem C135_rounds_fails (C : CfgOk cfg) {a o tmp : Nat} (hne : o ≠ a) {ob : Obj} (hf : fits cfg ob.ty = false) (W : Nat → World) (k : Nat)
    (h : Reachable cfg (W 0)) (hc : content (W 0) o = some ob) (hL : ∀ i, i < k → Legal cfg (W i) (.copyAssign a o tmp))
    (he : ∀ i, i < k → exec cfg (.copyAssign a o tmp) (W i) = .ok () (W (i + 1))) : (W 0).nextBlk + k ≤ (W k).nextBlk := by
  have key : ∀ i, i ≤ k → Reachable cfg (W i) ∧ content (W i) o = some ob ∧ (W 0).nextBlk + i ≤ (W i).nextBlk := by
    intro i
    induction i with
    | zero => intro _; exact ⟨h, hc, Nat.le_refl _⟩
    | succ i ih =>
      intro hi
      obtain ⟨r1, r2, r3⟩ := ih (by omega)
      have L := hL i (by omega)
      have e := he i (by omega)
      refine ⟨.ok r1 L e, ?_, ?_⟩
      · have hs := (C08_copy_assignment C r1 L e).2.2.1 o hne
        obtain ⟨_, s, _, t, h3, _⟩ := L
        rw [(of_snap (hs.trans h3)).2.1, ← (of_snap h3).2.1, r2]
      · have := C135_copy_fails C r1 L e r2 hf
        omega
  exact (key k (Nat.le_refl _)).2.2

/-! ### Move assignment -/

/-- **C135, exactly (move assignment, allocators that are equal or propagated).** Nothing is allocated. What the target owned is given back, and it gets the memory of the
other any, if this has a value. -/
theorem C135_move_exact (C : CfgOk cfg) {w w' : World} (h : Reachable cfg w) {a o x y : Nat} (hne : a ≠ o) (L : Legal cfg w (.moveAssign a o))
    (he : exec cfg (.moveAssign a o) w = .ok () w') (hx : allocOf w a = some x) (hy : allocOf w o = some y) (hd : ¬ AllocsDiffer cfg x y) :
    memOf w' a = (content w o).bind (fun _ => memOf w o) ∧ w'.nextBlk = w.nextBlk := by
  obtain ⟨s, h2, t, h3, h4, h5, h6⟩ := L
  have R := h.rep C
  obtain ⟨_, _, _, _, q1, _⟩ := of_snap h2
  obtain ⟨_, c1, m1, _, q2, _⟩ := of_snap h3
  rw [q1] at hx
  rw [q2] at hy
  cases hx
  cases hy
  have he' : moveAssign cfg a o w = .ok () w' := he
  rcases moveAssign_spec C R hne h2 h3 h4 h5.movable (fun h _ => h6 h) with ⟨w1, h', R', _⟩ | ⟨hu, _⟩ | ⟨hu, _⟩
  · rw [he'] at h'
    cases h'
    rw [c1, m1]
    constructor
    · have hsn : snap w' a = (moveAssigned cfg (absOf w) a s o t).snaps a := by rw [R'.snaps]
      unfold moveAssigned at hsn
      rw [if_neg hd] at hsn
      unfold moved at hsn
      cases hto : t.obj with
      | none =>
        simp only [hto, Option.bind_none, Abs.set, upd, if_true] at hsn ⊢
        rw [(of_snap hsn).2.2.1]
      | some ob =>
        cases hm : t.mem <;> simp only [hto, hm, Option.bind_some, Abs.set2, upd, if_true] at hsn ⊢ <;> rw [(of_snap hsn).2.2.1]
    · rw [R'.nb]
      unfold moveAssigned
      rw [if_neg hd]
      simp only
      rw [moved_nb]
      exact R.nb.symm
  · exact absurd hu hd
  · exact absurd hu hd

/-- **C135, exactly (move assignment of a value in memory, different allocators that are not propagated).** Memory of the target that is at least as large as that of the
other any is used; otherwise it is given back and exactly one block, as large as that of the other any, is allocated. -/
theorem C135_move_other_exact (C : CfgOk cfg) {w w' : World} (h : Reachable cfg w) {a o x y c k : Nat} {ob : Obj} (L : Legal cfg w (.moveAssign a o))
    (he : exec cfg (.moveAssign a o) w = .ok () w') (hx : allocOf w a = some x) (hy : allocOf w o = some y) (hd : AllocsDiffer cfg x y)
    (hc : content w o = some ob) (hm : memOf w o = some (c, k)) :
    (∀ b n, memOf w a = some (b, n) → k ≤ n → memOf w' a = some (b, n) ∧ w'.nextBlk = w.nextBlk) ∧
      ((∀ b n, memOf w a = some (b, n) → n < k) → memOf w' a = some (w.nextBlk, k) ∧ w'.nextBlk = w.nextBlk + 1) := by
  have hne : a ≠ o := by
    rintro rfl
    rw [hx] at hy
    cases hy
    exact hd.2.2 rfl
  obtain ⟨s, h2, t, h3, h4, h5, h6⟩ := L
  have R := h.rep C
  obtain ⟨_, _, m0, _, q1, _⟩ := of_snap h2
  obtain ⟨_, c1, m1, _, q2, _⟩ := of_snap h3
  rw [q1] at hx
  rw [q2] at hy
  cases hx
  cases hy
  have hto : t.obj = some ob := c1.symm.trans hc
  have htm : t.mem = some (c, k) := m1.symm.trans hm
  have hz : cfg.soos ≠ 0 := fun h0 => h6 h0 hd
  have hnb : (absOf w).nb = w.nextBlk := R.nb.symm
  have he' : moveAssign cfg a o w = .ok () w' := he
  rw [m0]
  rcases moveAssign_spec C R hne h2 h3 h4 h5.movable (fun h _ => h6 h) with ⟨w1, h', R', _⟩ | ⟨_, _, _, w1, h', _⟩ | ⟨_, _, _, _, h', _⟩
  · rw [he'] at h'
    cases h'
    have hsn : snap w' a = (moveAssigned cfg (absOf w) a s o t).snaps a := by rw [R'.snaps]
    have hn := R'.nb
    have hd' : Unequal cfg s t := hd
    unfold moveAssigned at hsn hn
    rw [if_pos hd'] at hsn hn
    cases hsm : s.mem with
    | none =>
      simp only [hto, htm, hsm, movedFresh, hz, if_false, Abs.set2, Abs.set, upd, if_true] at hsn hn
      refine ⟨fun b n e => (by cases e), fun _ => ⟨?_, ?_⟩⟩
      · rw [(of_snap hsn).2.2.1, hnb]
      · rw [hn, hnb]
    | some p =>
      obtain ⟨b, n⟩ := p
      by_cases hk : k ≤ n
      · simp only [hto, htm, hsm, hk, if_true, Abs.set2, upd] at hsn hn
        refine ⟨fun b' n' e _ => ⟨?_, hn.trans hnb⟩, fun hlt => absurd (hlt b n rfl) (by omega)⟩
        rw [(of_snap hsn).2.2.1, ← e]
      · simp only [hto, htm, hsm, hk, movedFresh, hz, if_false, Abs.set2, Abs.set, upd, if_true] at hsn hn
        refine ⟨fun b' n' e hk' => ?_, fun _ => ⟨?_, ?_⟩⟩
        · cases e; exact absurd hk' hk
        · rw [(of_snap hsn).2.2.1, hnb]
        · rw [hn, hnb]
  · rw [he'] at h'; cases h'
  · rw [he'] at h'; cases h'

/-! ### Swap -/

/-- **C135, exactly (`std::swap`, allocators that are equal or propagated).** Nothing is allocated, and the memory is exchanged with the values; memory of an any without
value is given back. -/
theorem C135_swap_exact (C : CfgOk cfg) {w w' : World} (h : Reachable cfg w) {a b tmp x y : Nat} (hab : a ≠ b) (L : Legal cfg w (.swap a b tmp))
    (he : exec cfg (.swap a b tmp) w = .ok () w') (hx : allocOf w a = some x) (hy : allocOf w b = some y) (hd : ¬ AllocsDiffer cfg x y) :
    memOf w' a = (content w b).bind (fun _ => memOf w b) ∧ memOf w' b = (content w a).bind (fun _ => memOf w a) ∧ w'.nextBlk = w.nextBlk := by
  have R := h.rep C
  obtain ⟨htmp, s, hs, t, ht, hms, hmv, hal⟩ := L
  obtain ⟨_, cs, mms, _, qs, _⟩ := of_snap hs
  obtain ⟨_, ct, mt, _, qt, _⟩ := of_snap ht
  rw [qs] at hx
  rw [qt] at hy
  cases hx
  cases hy
  have hne : a ≠ tmp := by rintro rfl; simp [htmp] at hs
  have hneb : b ≠ tmp := by rintro rfl; simp [htmp] at ht
  have hmvs : MoveAssignable cfg s.ms := by rw [hms]; exact hmv
  have hd' : ¬ AllocsDiffer cfg t.al s.al := fun h => hd h.symm
  -- the temporary
  obtain ⟨w1, h1, R1⟩ := moveCtor_spec R htmp hs hmvs.movable
  have hr1 : Reachable cfg w1 := .ok h (op := .moveCtor tmp a) ⟨htmp, s, hs, hmvs.movable⟩ h1
  obtain ⟨u1, s1, gu1, gs1, mu1, ms1, au1, as1, vu1, os1, oth1, cp1, nb1, _, _, _⟩ :=
    moved_facts (σ := absOf w) (s := ⟨s.ms, s.al, none, none⟩) (Ne.symm hne) hs rfl rfl
  have hu1 : u1.mem = s.obj.bind (fun _ => s.mem) ∧ (u1.obj = none ↔ s.obj = none) := by
    have g := gu1
    unfold moved at g
    cases hso : s.obj with
    | none =>
      simp only [hso, Abs.set, upd, if_true, Option.some.injEq] at g
      subst g
      simp
    | some ob =>
      cases hsm : s.mem <;> simp only [hso, hsm, Abs.set2, upd, if_true, Option.some.injEq] at g <;> subst g <;> simp
  rw [← R1.snaps] at gu1 gs1 oth1
  have gt1 : snap w1 b = some t := by rw [oth1 b hneb (Ne.symm hab)]; exact ht
  have L2 : Legal cfg w1 (.moveAssign a b) := ⟨s1, gs1, t, gt1, by rw [ms1]; exact hms, hmv, fun _ => by rw [as1]; exact hd⟩
  -- a = std::move(b)
  have A1 := (of_snap gs1).2.2.2.2.1
  have B1 := (of_snap gt1).2.2.2.2.1
  rw [as1] at A1
  obtain ⟨w2, h2⟩ := C07_returns C hr1 L2 A1 B1 hd
  have hr2 : Reachable cfg w2 := .ok hr1 L2 h2
  obtain ⟨m2, n2⟩ := C135_move_exact C hr1 hab L2 h2 A1 B1 hd
  obtain ⟨_, _, _, _, oth2, _⟩ := C07_move_assignment C hr1 hab L2 h2
  have gu2 : snap w2 tmp = some u1 := by rw [oth2 tmp (Ne.symm hneb) (Ne.symm hne)]; exact gu1
  obtain ⟨t2, gt2, mt2, at2⟩ : ∃ t2, snap w2 b = some t2 ∧ t2.ms = t.ms ∧ t2.al = t.al := by
    have R1' := hr1.rep C
    rcases moveAssign_spec C R1' hab gs1 gt1 (by rw [ms1]; exact hms) hmv.movable (fun _ _ => by unfold Unequal; rw [as1]; exact hd) with
      ⟨w2', h2', R2, _⟩ | ⟨hU, _⟩ | ⟨hU, _⟩
    · have h2x : moveAssign cfg a b w1 = .ok () w2 := h2
      rw [h2x] at h2'
      cases h2'
      obtain ⟨_, t2, M⟩ := moveAssigned_facts (cfg := cfg) (σ := absOf w1) (s := s1) hab gt1
      have g := M.geto
      rw [← R2.snaps] at g
      exact ⟨t2, g, M.mso, M.alo⟩
    · exact absurd hU (by unfold Unequal; rw [as1]; exact hd)
    · exact absurd hU (by unfold Unequal; rw [as1]; exact hd)
  have L3 : Legal cfg w2 (.moveAssign b tmp) :=
    ⟨t2, gt2, u1, gu2, by rw [mt2, mu1]; exact hms.symm, by rw [mu1]; exact hmvs, fun _ => by rw [at2, au1]; exact hd'⟩
  -- b = std::move(tmp)
  have A2 := (of_snap gt2).2.2.2.2.1
  have B2 := (of_snap gu2).2.2.2.2.1
  rw [at2] at A2
  rw [au1] at B2
  obtain ⟨w3, h3⟩ := C07_returns C hr2 L3 A2 B2 hd'
  have hr3 : Reachable cfg w3 := .ok hr2 L3 h3
  obtain ⟨m3, n3⟩ := C135_move_exact C hr2 hneb L3 h3 A2 B2 hd'
  obtain ⟨_, al3, _, _, oth3, _⟩ := C07_move_assignment C hr2 hneb L3 h3
  -- the destructor of the temporary
  have R3 := hr3.rep C
  obtain ⟨u3, gu3⟩ : ∃ u3, snap w3 tmp = some u3 := by
    cases hz : snap w3 tmp with
    | some u => exact ⟨u, rfl⟩
    | none =>
      obtain ⟨st, D⟩ := (hr2.rep C).det (show (absOf w2).snaps tmp = some u1 from gu2)
      unfold alive at al3
      unfold snap at hz
      simp_all
  obtain ⟨w4, h4, R4⟩ := destructor_spec R3 (show (absOf w3).snaps tmp = some u3 from gu3)
  have hw : swapAny cfg a b tmp w = .ok () w4 := by
    simp only [swapAny, bind_apply, h1]
    refine finallyDo_ok (w1 := w3) ?_ h4
    have h2x : moveAssign cfg a b w1 = .ok () w2 := h2
    have h3x : moveAssign cfg b tmp w2 = .ok () w3 := h3
    simp only [bind_apply, h2x, h3x]
  have he' : swapAny cfg a b tmp w = .ok () w' := he
  rw [he'] at hw
  cases hw
  have keep : ∀ c, c ≠ tmp → snap w' c = snap w3 c := by
    intro c hc
    have : snap w' c = ((absOf w3).del tmp).snaps c := by rw [R4.snaps]
    rw [this]
    simp only [Abs.del, upd_other _ _ _ _ hc]
    rfl
  have mem_of_snap : ∀ {v v' : World} {c : Nat} {z : Snap}, snap v c = some z → snap v' c = snap v c → memOf v' c = memOf v c := by
    intro v v' c z h h'
    rw [(of_snap h).2.2.1, (of_snap (h'.trans h)).2.2.1]
  obtain ⟨sa2, gsa2⟩ : ∃ z, snap w2 a = some z := by
    have := (C07_move_assignment C hr1 hab L2 h2).1
    cases hz : snap w2 a with
    | some u => exact ⟨u, rfl⟩
    | none =>
      unfold alive at this
      unfold snap at hz
      simp_all
  obtain ⟨sb3, gsb3⟩ : ∃ z, snap w3 b = some z := by
    have := (C07_move_assignment C hr2 hneb L3 h3).1
    cases hz : snap w3 b with
    | some u => exact ⟨u, rfl⟩
    | none =>
      unfold alive at this
      unfold snap at hz
      simp_all
  have ka : snap w3 a = snap w2 a := oth3 a hne hab
  refine ⟨?_, ?_, ?_⟩
  · rw [mem_of_snap (ka.trans gsa2) (keep a hne), mem_of_snap gsa2 ka, m2, (of_snap gt1).2.1, (of_snap gt1).2.2.1, ct, mt]
  · rw [mem_of_snap gsb3 (keep b hneb), m3, (of_snap gu2).2.1, (of_snap gu2).2.2.1, cs, mms, hu1.1]
    cases hso : s.obj with
    | none => rw [hu1.2.2 hso]; rfl
    | some ob =>
      cases hu : u1.obj with
      | none => rw [hu1.2.1 hu] at hso; cases hso
      | some _ => rfl
  · have e4 : w'.nextBlk = w3.nextBlk := by
      rw [R4.nb]
      exact R3.nb.symm
    have e1 : w1.nextBlk = w.nextBlk := by
      rw [R1.nb, nb1]
      exact R.nb.symm
    rw [e4, n3, n2, e1]

/-- **C135, exactly (`std::swap(a, a)`).** With every allocator: nothing is allocated, and the memory stays, unless there is no value in it. -/
theorem C135_swap_self_exact (C : CfgOk cfg) {w w' : World} (h : Reachable cfg w) {a tmp : Nat} (L : Legal cfg w (.swap a a tmp))
    (he : exec cfg (.swap a a tmp) w = .ok () w') : memOf w' a = (content w a).bind (fun _ => memOf w a) ∧ w'.nextBlk = w.nextBlk := by
  have R := h.rep C
  obtain ⟨htmp, s, hs, t, ht, hms, hmv, hal⟩ := L
  obtain rfl : s = t := by rw [hs] at ht; exact Option.some.inj ht
  obtain ⟨_, cs, mms, _, _, _⟩ := of_snap hs
  have hne : a ≠ tmp := by rintro rfl; simp [htmp] at hs
  have hd : ¬ AllocsDiffer cfg s.al s.al := fun h => h.2.2 rfl
  obtain ⟨w1, h1, R1⟩ := moveCtor_spec R htmp hs hmv.movable
  have hr1 : Reachable cfg w1 := .ok h (op := .moveCtor tmp a) ⟨htmp, s, hs, hmv.movable⟩ h1
  obtain ⟨u1, s1, gu1, gs1, mu1, ms1, au1, as1, vu1, os1, oth1, cp1, nb1, _, _, _⟩ :=
    moved_facts (σ := absOf w) (s := ⟨s.ms, s.al, none, none⟩) (Ne.symm hne) hs rfl rfl
  have hu1 : u1.mem = s.obj.bind (fun _ => s.mem) ∧ (u1.obj = none ↔ s.obj = none) := by
    have g := gu1
    unfold moved at g
    cases hso : s.obj with
    | none =>
      simp only [hso, Abs.set, upd, if_true, Option.some.injEq] at g
      subst g
      simp
    | some ob =>
      cases hsm : s.mem <;> simp only [hso, hsm, Abs.set2, upd, if_true, Option.some.injEq] at g <;> subst g <;> simp
  rw [← R1.snaps] at gu1 gs1
  have L3 : Legal cfg w1 (.moveAssign a tmp) :=
    ⟨s1, gs1, u1, gu1, by rw [ms1, mu1], by rw [mu1]; exact hmv, fun _ => by rw [as1, au1]; exact hd⟩
  have A2 := (of_snap gs1).2.2.2.2.1
  have B2 := (of_snap gu1).2.2.2.2.1
  rw [as1] at A2
  rw [au1] at B2
  obtain ⟨w3, h3⟩ := C07_returns C hr1 L3 A2 B2 hd
  have hr3 : Reachable cfg w3 := .ok hr1 L3 h3
  obtain ⟨m3, n3⟩ := C135_move_exact C hr1 hne L3 h3 A2 B2 hd
  obtain ⟨al3a, al3, _⟩ := C07_move_assignment C hr1 hne L3 h3
  have R3 := hr3.rep C
  have some_snap : ∀ c, alive w3 c → ∃ z, snap w3 c = some z := by
    intro c hc
    cases hz : snap w3 c with
    | some u => exact ⟨u, rfl⟩
    | none =>
      unfold alive at hc
      unfold snap at hz
      simp_all
  obtain ⟨u3, gu3⟩ := some_snap tmp al3
  obtain ⟨s3, gs3⟩ := some_snap a al3a
  obtain ⟨w4, h4, R4⟩ := destructor_spec R3 (show (absOf w3).snaps tmp = some u3 from gu3)
  have hw : swapAny cfg a a tmp w = .ok () w4 := by
    simp only [swapAny, bind_apply, h1]
    refine finallyDo_ok (w1 := w3) ?_ h4
    have h3x : moveAssign cfg a tmp w1 = .ok () w3 := h3
    simp only [bind_apply, moveAssign_self, h3x]
  have he' : swapAny cfg a a tmp w = .ok () w' := he
  rw [he'] at hw
  cases hw
  have keep : snap w' a = some s3 := by
    have : snap w' a = ((absOf w3).del tmp).snaps a := by rw [R4.snaps]
    rw [this]
    simp only [Abs.del, upd_other _ _ _ _ hne]
    exact gs3
  constructor
  · rw [(of_snap keep).2.2.1, ← (of_snap gs3).2.2.1, m3, (of_snap gu1).2.1, (of_snap gu1).2.2.1, cs, mms, hu1.1]
    cases hso : s.obj with
    | none => rw [hu1.2.2 hso]; rfl
    | some ob =>
      cases hu : u1.obj with
      | none => rw [hu1.2.1 hu] at hso; cases hso
      | some _ => rfl
  · have e4 : w'.nextBlk = w3.nextBlk := by
      rw [R4.nb]
      exact R3.nb.symm
    have e1 : w1.nextBlk = w.nextBlk := by
      rw [R1.nb, nb1]
      exact R.nb.symm
    rw [e4, n3, e1]

/-! ### Examples -/

-- the target owns 100 bytes, the value needs 40
example : ∃ w, Reachable exCfg w ∧ ((memOf w 1).any (fun p => p.2 == 100) = true ∧ Legal exCfg w (.copyAssign 1 0 9) ∧
    ((content w 0).any fun ob => !fits exCfg ob.ty) = true ∧ (exec exCfg (.copyAssign 1 0 9) w).isOk = true) :=
  run_witness (ops := [.valueCtor 0 exMs 1 2 (.lit 7) false, .allocCtor 1 exMs 1, .replaceWithBytes 1 100]) (by decide +kernel)

example : ∃ w, Reachable exCfg w ∧ ((memOf w 1).any (fun p => p.2 == 100) = true ∧ Legal exCfg w (.moveAssign 1 0) ∧
    (exec exCfg (.moveAssign 1 0) w).isOk = true ∧
    (run exCfg [.emplace 1 2 (.lit 3) false, .destroyValue 1, .emplace 1 1 (.lit 4) false] w).world?.isSome = true) :=
  run_witness (ops := [.valueCtor 0 exMs 1 2 (.lit 7) false, .allocCtor 1 exMs 1, .replaceWithBytes 1 100]) (by decide +kernel)

-- `std::swap` of a value in memory and memory without value
example : ∃ w, Reachable exCfg w ∧ (Legal exCfg w (.swap 0 1 9) ∧ (memOf w 0).isSome ∧ (content w 0).isSome ∧ (memOf w 1).isSome ∧ content w 1 = none ∧
    (exec exCfg (.swap 0 1 9) w).isOk = true ∧ Legal exCfg w (.swap 0 0 9) ∧ (exec exCfg (.swap 0 0 9) w).isOk = true) :=
  run_witness (ops := [.valueCtor 0 exMs 1 2 (.lit 7) false, .allocCtor 1 exMs 1, .replaceWithBytes 1 100]) (by decide +kernel)

-- different allocators: memory that is large enough, no memory
example : ∃ w, Reachable exCfg w ∧ (allocOf w 0 = some 1 ∧ allocOf w 1 = some 2 ∧ AllocsDiffer exCfg 2 1 ∧ (content w 0).isSome ∧ (memOf w 0).isSome ∧
    (memOf w 1).any (fun p => p.2 == 100) = true ∧ Legal exCfg w (.moveAssign 1 0) ∧ (exec exCfg (.moveAssign 1 0) w).isOk = true) :=
  run_witness (ops := [.valueCtor 0 exMs 1 2 (.lit 7) false, .allocCtor 1 exMs 2, .replaceWithBytes 1 100]) (by decide +kernel)

example : ∃ w, Reachable exCfg w ∧ (allocOf w 0 = some 1 ∧ allocOf w 1 = some 2 ∧ (content w 0).isSome ∧ (memOf w 0).isSome ∧
    memOf w 1 = none ∧ Legal exCfg w (.moveAssign 1 0) ∧ (exec exCfg (.moveAssign 1 0) w).isOk = true) :=
  run_witness (ops := [.valueCtor 0 exMs 1 2 (.lit 7) false, .allocCtor 1 exMs 2]) (by decide +kernel)

end AnyAny.Mem
