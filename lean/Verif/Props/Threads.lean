import Verif.Lemmas.Frame
import Verif.Lemmas.ReadOnly
import Verif.Props.Throws
import Verif.Props.AnyOps
/-
C74: different any objects can be used by different threads.
-/
namespace AnyAny.Mem

variable {cfg : Cfg}

theorem legal_congr {w w' : World} {op : Op} (hs : ∀ a ∈ op.addrs, snap w' a = snap w a) (ht : w'.tick = w.tick)
    (L : Legal cfg w op) : Legal cfg w' op := by
  have hc : ∀ c, snap w' c = snap w c → (content w c).isSome → (content w' c).isSome := by
    intro c h h1
    unfold snap at h
    cases hw : w.anys c with
    | none => unfold content at h1; rw [hw] at h1; cases h1
    | some s =>
      rw [hw] at h
      cases hw' : w'.anys c with
      | none => rw [hw'] at h; cases h
      | some s' =>
        rw [hw'] at h
        have := congrArg (Option.map Snap.obj) h
        simp only [Option.map_some, Option.some.injEq] at this
        rw [this]; exact h1
  cases op with
  | valueCtor a ms al t arg n =>
    cases arg with
    | lit v => simp only [Op.addrs, List.mem_cons, List.not_mem_nil, or_false, forall_eq] at hs; simpa only [Legal, hs, ArgSrc.Valid] using L
    | valueOf c =>
      simp only [Op.addrs, List.mem_cons, List.not_mem_nil, or_false, forall_eq_or_imp, forall_eq] at hs
      simp only [Legal, hs.1, ArgSrc.Valid] at L ⊢
      exact ⟨L.1, L.2.1, L.2.2.1, hc c hs.2 L.2.2.2⟩
  | forceCtor a ms t arg n =>
    cases arg with
    | lit v => simp only [Op.addrs, List.mem_cons, List.not_mem_nil, or_false, forall_eq] at hs; simpa only [Legal, hs, ArgSrc.Valid] using L
    | valueOf c =>
      simp only [Op.addrs, List.mem_cons, List.not_mem_nil, or_false, forall_eq_or_imp, forall_eq] at hs
      simp only [Legal, hs.1, ArgSrc.Valid] at L ⊢
      exact ⟨L.1, L.2.1, L.2.2.1, hc c hs.2 L.2.2.2⟩
  | emplace a t arg n =>
    cases arg with
    | lit v => simp only [Op.addrs, List.mem_cons, List.not_mem_nil, or_false, forall_eq] at hs; simpa only [Legal, hs, ArgSrc.Valid] using L
    | valueOf c =>
      simp only [Op.addrs, List.mem_cons, List.not_mem_nil, or_false, forall_eq_or_imp, forall_eq] at hs
      simp only [Legal, hs.1, ArgSrc.Valid] at L ⊢
      exact ⟨L.1, L.2.1, hc c hs.2 L.2.2⟩
  | _ =>
    simp only [Op.addrs, List.mem_cons, List.not_mem_nil, or_false, forall_eq_or_imp, forall_eq] at hs
    simpa only [Legal, hs, ht] using L

/-! ### The memory of the operands -/

section
variable {F : Nat → Bool} {w : World}

theorem only_anys {a : Nat} (h : F a = true) : (only F w).anys a = w.anys a := by simp only [only, h, if_true]

theorem only_anys_none {a : Nat} (h : F a = false) : (only F w).anys a = none := by simp [only, h]

theorem only_blks {b : Nat} (h : OwnedBy F w b) : (only F w).blks b = w.blks b := by simp only [only, h, if_true]

theorem only_blks_none {b : Nat} (h : ¬ OwnedBy F w b) : (only F w).blks b = none := by simp only [only, h, if_false]

theorem only_blk (W : WF cfg w) {a b : Nat} {s : AnySt} (h : F a = true) (hs : w.anys a = some s) (hv : s.vp = .blk b) :
    OwnedBy F w b := by
  rcases (W.any a s hs).shape with h1 | ⟨b', k, h1, h2, _⟩
  · rw [h1] at hv; cases hv
  · rw [h1] at hv; cases hv
    exact ⟨a, k.size, h, by simp only [memOf, hs, Option.bind_some, h1, h2, Option.map_some]⟩

theorem only_cell (W : WF cfg w) {a : Nat} {s : AnySt} (h : F a = true) (hs : w.anys a = some s) :
    cellAt (only F w) s.vp = cellAt w s.vp := by
  cases hv : s.vp with
  | data c =>
    rcases (W.any a s hs).shape with h1 | ⟨b', k, h1, _⟩
    · rw [h1] at hv; cases hv; simp only [cellAt, only_anys h]
    · rw [h1] at hv; cases hv
  | blk b => simp only [cellAt, only_blks (only_blk W h hs hv)]

theorem only_content (W : WF cfg w) {a : Nat} (h : F a = true) : content (only F w) a = content w a := by
  unfold content
  rw [only_anys h]
  cases hs : w.anys a with
  | none => rfl
  | some s => simp only [Option.bind_some, only_cell W h hs]

theorem only_content_none {a : Nat} (h : F a = false) : content (only F w) a = none := by
  unfold content; rw [only_anys_none h]; rfl

theorem only_snap (W : WF cfg w) {a : Nat} (h : F a = true) : snap (only F w) a = snap w a := by
  unfold snap
  rw [only_content W h, only_anys h]
  cases hs : w.anys a with
  | none => rfl
  | some s =>
    simp only [Option.map_some, memOf, only_anys h, hs, Option.bind_some]
    cases hv : s.vp with
    | data c => rfl
    | blk b => simp only [only_blks (only_blk W h hs hv)]

open Classical in
/-- The same with counters that take the removed objects and memory for destroyed. -/
noncomputable def onlyFix (F : Nat → Bool) (w : World) : World :=
  { only F w with
    frees := fun b => if ((only F w).blks b).isSome then 0 else if b < w.nextBlk then 1 else 0
    dtors := fun i => if ∃ a o, content (only F w) a = some o ∧ o.id = i then 0 else if i < w.nextObj then 1 else 0 }

theorem onlyFix_wf (W : WF cfg w) : WF cfg (onlyFix F w) := by
  have hany : ∀ {a s}, (only F w).anys a = some s → F a = true ∧ w.anys a = some s := by
    intro a s h
    cases hf : F a with
    | false => rw [only_anys_none hf] at h; cases h
    | true => rw [only_anys hf] at h; exact ⟨rfl, h⟩
  have hcont : ∀ {a o}, content (only F w) a = some o → F a = true ∧ content w a = some o := by
    intro a o h
    cases hf : F a with
    | false => rw [only_content_none hf] at h; cases h
    | true => rw [only_content W hf] at h; exact ⟨rfl, h⟩
  have hown : ∀ {b k}, (only F w).blks b = some k → OwnedBy F w b ∧ w.blks b = some k := by
    intro b k h
    by_cases ho : OwnedBy F w b
    · rw [only_blks ho] at h; exact ⟨ho, h⟩
    · rw [only_blks_none ho] at h; cases h
  refine { any := ?_, blkInj := ?_, objInj := ?_, owned := ?_, freed := ?_, beyondBlk := ?_, destroyed := ?_, beyondObj := ?_, once := ?_ }
  · intro a s h
    obtain ⟨hf, hs⟩ := hany h
    have A := W.any a s hs
    have hcell : cellAt (onlyFix F w) s.vp = cellAt w s.vp := only_cell W hf hs
    refine ⟨A.destroyIn, ?_, ?_, ?_⟩
    · rcases A.shape with h1 | ⟨b, k, h1, h2, h3⟩
      · exact .inl h1
      · exact .inr ⟨b, k, h1, (only_blks (only_blk W hf hs h1)).trans h2, h3⟩
    · intro v hv
      obtain ⟨o, h1, h2, h3, h4, h5, h6, h7, h8⟩ := A.full v hv
      refine ⟨o, hcell.trans h1, h2, h3, h4, h5, ?_, h7, fun b k hb hk => h8 b k hb ?_⟩
      · have : ∃ a o', content (only F w) a = some o' ∧ o'.id = o.id :=
          ⟨a, o, by rw [only_content W hf]; simp only [content, hs, Option.bind_some, hv, Option.isSome_some, if_true, h1], rfl⟩
        simp only [onlyFix, this, if_true]
      · exact (only_blks (only_blk W hf hs hb)).symm.trans hk
    · intro hv; rw [hcell]; exact A.empty hv
  · intro a s c t b h1 h2; exact W.blkInj a s c t b (hany h1).2 (hany h2).2
  · intro a c o p h1 h2; exact W.objInj a c o p (hcont h1).2 (hcont h2).2
  · intro b k h
    obtain ⟨⟨a, n, hf, hm⟩, _⟩ := hown h
    unfold memOf at hm
    cases hs : w.anys a with
    | none => rw [hs] at hm; cases hm
    | some s =>
      rw [hs] at hm
      simp only [Option.bind_some] at hm
      refine ⟨a, s, (only_anys hf).trans hs, ?_⟩
      cases hv : s.vp with
      | data c => rw [hv] at hm; cases hm
      | blk b' =>
        rw [hv] at hm
        obtain ⟨k', _, hk⟩ := Option.map_eq_some_iff.1 hm
        rw [(Prod.mk.inj hk).1]
  · intro b hb
    have hb : b < w.nextBlk := hb
    simp only [onlyFix, hb, if_true]
    split <;> rename_i hh <;> simp [hh]
  · intro b hb
    have hb : w.nextBlk ≤ b := hb
    have hn : (only F w).blks b = none := by
      cases h : (only F w).blks b with
      | none => rfl
      | some k => have := (hown h).2; rw [(W.beyondBlk b hb).1] at this; cases this
    refine ⟨hn, ?_⟩
    simp only [onlyFix, hn, Option.isSome_none, Bool.false_eq_true, if_false]
    rw [if_neg (by omega)]
  · intro i hi _
    have hi : i < w.nextObj := hi
    by_cases hc : ∃ a o, content (only F w) a = some o ∧ o.id = i
    · exact .inr ⟨by simp only [onlyFix, hc, if_true], hc⟩
    · left; simp only [onlyFix, hc, if_false, hi, if_true]
  · intro i hi
    have hi : w.nextObj ≤ i := hi
    by_cases hc : ∃ a o, content (only F w) a = some o ∧ o.id = i
    · simp only [onlyFix, hc, if_true]
    · simp only [onlyFix, hc, if_false]; rw [if_neg (by omega)]
  · intro i _
    by_cases hc : ∃ a o, content (only F w) a = some o ∧ o.id = i
    · simp only [onlyFix, hc, if_true]; omega
    · simp only [onlyFix, hc, if_false]; split <;> omega

end

open Classical in
/-- The rest of the world. -/
private noncomputable def rest (F : Nat → Bool) (w : World) : Frame where
  anys a := if F a then none else w.anys a
  blks b := if OwnedBy F w b then none else w.blks b

private theorem sim_rest {F : Nat → Bool} {w : World} (W : WF cfg w) : Sim (rest F w) (onlyFix F w) w := by
  refine ⟨fun a => ?_, fun b => ?_, fun a h => ?_, fun b h => ?_, rfl, rfl, rfl, rfl, rfl⟩
  · cases hf : F a with
    | true => simp [rest, hf, onlyFix, only]
    | false => simp [rest, hf, onlyFix, only]
  · by_cases ho : OwnedBy F w b
    · simp [rest, ho, onlyFix, only]
    · simp [rest, ho, onlyFix, only]
  · cases hf : F a with
    | true => simp [rest, hf] at h
    | false => simp [onlyFix, only, hf]
  · by_cases ho : OwnedBy F w b
    · simp [rest, ho] at h
    · refine ⟨by simp [onlyFix, only, ho], ?_⟩
      simp only [rest, ho, if_false] at h
      apply Nat.lt_of_not_le
      intro hb
      rw [(W.beyondBlk b hb).1] at h; cases h

/-- The results of an operation in the whole world and in the world that has only the objects `F`: same outcome, and the whole world
changed exactly as the part did. -/
structure SamePart (F : Nat → Bool) (w w1 w' : World) : Prop where
  /-- the objects `F` are as in the part -/
  inside : ∀ a, F a = true → w'.anys a = w1.anys a
  /-- the other objects are as before -/
  outside : ∀ a, F a = false → w'.anys a = w.anys a
  /-- memory that belonged to other objects is as before; all the rest is as in the part -/
  memOutside : ∀ b, (w.blks b).isSome → ¬ OwnedBy F w b → w'.blks b = w.blks b
  memInside : ∀ b, (w.blks b = none ∨ OwnedBy F w b) → w'.blks b = w1.blks b
  /-- the part did not get anything else -/
  partOnly : (∀ a, F a = false → w1.anys a = none) ∧ ∀ b, (w.blks b).isSome → ¬ OwnedBy F w b → w1.blks b = none
  /-- the same number of allocations, constructions and calls -/
  counters : w'.nextBlk = w1.nextBlk ∧ w'.nextObj = w1.nextObj ∧ w'.tick = w1.tick ∧ w'.born = w1.born

private theorem touches_addrs {op : Op} {c : Nat} (h : touches op c) : c ∈ op.addrs := by
  cases op with
  | valueCtor a ms al t arg n => cases arg <;> simp_all [touches, Op.addrs]
  | forceCtor a ms t arg n => cases arg <;> simp_all [touches, Op.addrs]
  | emplace a t arg n => cases arg <;> simp_all [touches, Op.addrs]
  | castCopy => cases h
  | moveCtor | transMoveCtor | moveAssign => rcases h with rfl | rfl <;> simp [Op.addrs]
  | swap => rcases h with rfl | rfl <;> simp [Op.addrs]
  | _ => simp_all [touches, Op.addrs]

private theorem touches_writes {op : Op} {c : Nat} (h : touches op c) : c ∈ op.writes cfg ∨ ∃ m x, op = .invoke c m x := by
  cases op with
  | castCopy => cases h
  | invoke a m x => exact .inr ⟨m, x, by rw [show c = a from h]⟩
  | moveCtor | transMoveCtor | moveAssign => rcases h with rfl | rfl <;> simp [Op.writes]
  | swap => rcases h with rfl | rfl <;> simp [Op.writes]
  | _ => simp_all [touches, Op.writes]

private theorem samePart {F : Nat → Bool} {w w0 w1 w' : World} (s1 : Sim (rest F w) w0 w') (s2 : Sim ⟨fun _ => none, fun _ => none⟩ w0 w1)
    (hn : ∀ a, F a = false → w0.anys a = none) : SamePart F w w1 w' := by
  have e1 : ∀ a, w1.anys a = w0.anys a := fun a => s2.anys a
  have e2 : ∀ b, w1.blks b = w0.blks b := fun b => s2.blks b
  refine ⟨fun a h => ?_, fun a h => ?_, fun b h1 h2 => ?_, fun b h => ?_, ⟨fun a h => ?_, fun b h1 h2 => ?_⟩,
    s1.nextBlk.trans s2.nextBlk.symm, s1.nextObj.trans s2.nextObj.symm, s1.tick.trans s2.tick.symm, s1.born.trans s2.born.symm⟩
  · rw [s1.anys, e1]; simp [rest, h]
  · rw [s1.anys, hn a h]; simp [rest, h]
  · rw [s1.blks]; simp only [rest, h2, if_false]
    obtain ⟨k, hk⟩ := Option.isSome_iff_exists.1 h1
    rw [hk]; rfl
  · rw [s1.blks, e2]
    rcases h with h | h <;> simp [rest, h]
  · rw [e1]; exact hn a h
  · rw [e2]; exact (s1.disjB b (by simp only [rest, h2, if_false]; exact h1)).1

/-- C74: an operation reads and writes only the objects it is applied to, and the memory that belongs to them: it has the same outcome in a
world where all other objects and memory are missing (so it cannot have accessed them: accessing missing objects or memory is undefined
behaviour), and it leaves everything else as it was. -/
theorem C74_accesses_only_operands (C : CfgOk cfg) {w : World} (h : Reachable cfg w) {op : Op} (L : Legal cfg w op) {F : Nat → Bool}
    (hF : ∀ a ∈ op.addrs, F a = true) :
    (∃ w1 w', exec cfg op (only F w) = .ok () w1 ∧ exec cfg op w = .ok () w' ∧ SamePart F w w1 w') ∨
    (∃ w1 w', exec cfg op (only F w) = .exn w1 ∧ exec cfg op w = .exn w' ∧ SamePart F w w1 w') ∨
    (exec cfg op (only F w) = .term ∧ exec cfg op w = .term) := by
  have W := h.wf C
  have L' : Legal cfg (onlyFix F w) op := legal_congr (fun a ha => only_snap W (hF a ha)) rfl L
  have f1 := Fr.exec (cfg := cfg) (f := rest F w) (op := op) (fun a ha => by simp [rest, hF a ha]) _ _ (sim_rest W)
  have f2 := Fr.exec (cfg := cfg) (f := ⟨fun _ => none, fun _ => none⟩) (op := op) (fun a ha => rfl) (onlyFix F w) (only F w)
    ⟨fun _ => rfl, fun _ => rfl, fun _ h => (by cases h), fun _ h => (by cases h), rfl, rfl, rfl, rfl, rfl⟩
  have none_of : ∀ w0 : World, ∀ a, F a = false → (snap w0 a).isSome = (snap (onlyFix F w) a).isSome → w0.anys a = none := by
    intro w0 a hf hs
    have : snap (onlyFix F w) a = none := by unfold snap; rw [show (onlyFix F w).anys a = none from only_anys_none hf]; rfl
    rw [this] at hs
    unfold snap at hs
    cases hw : w0.anys a with
    | none => rfl
    | some s => rw [hw] at hs; cases hs
  rcases step_spec C (Rep.of_wf (onlyFix_wf (F := F) W)) op L' with ⟨w0, σ', he, S⟩ | ⟨w0, σ', he, S⟩ | ⟨_, he⟩
  · rw [he] at f1 f2
    obtain ⟨w', e1, s1⟩ := f1
    obtain ⟨w1, e2, s2⟩ := f2
    refine .inl ⟨w1, w', e2, e1, samePart s1 s2 fun a hf => none_of w0 a hf ?_⟩
    have := S.frame a (fun ht => by rw [hF a (touches_addrs ht)] at hf; cases hf)
    rw [S.rep.snaps, this]
  · rw [he] at f1 f2
    obtain ⟨w', e1, s1⟩ := f1
    obtain ⟨w1, e2, s2⟩ := f2
    refine .inr (.inl ⟨w1, w', e2, e1, samePart s1 s2 fun a hf => none_of w0 a hf ?_⟩)
    have := S.alive a
    rw [S.rep.snaps, this]
  · rw [he] at f1 f2
    exact .inr (.inr ⟨f2, f1⟩)

/-- C74: objects that an operation only reads are untouched, and so is their memory, whether the operation returns or throws. -/
theorem C74_const_operands_untouched (C : CfgOk cfg) {w w' : World} (h : Reachable cfg w) {op : Op} (L : Legal cfg w op) {r : Bool}
    (he : Ends cfg op w r w') {a : Nat} (ha : a ∉ op.writes cfg) :
    w'.anys a = w.anys a ∧ ∀ b n, memOf w a = some (b, n) → w'.blks b = w.blks b := by
  have W := h.wf C
  cases hs : w.anys a with
  | none =>
    have hn : snap w a = none := by unfold snap; rw [hs]; rfl
    have hnone : snap w' a = none := by
      have hS := step_spec C (Rep.of_wf W) op L
      unfold Ends at he
      cases r with
      | true =>
        rcases hS with ⟨w0, σ', e, S⟩ | ⟨w0, σ', e, S⟩ | ⟨_, e⟩ <;> rw [he] at e <;> cases e
        rw [S.rep.snaps, S.frame a (fun ht => ?_)]
        · exact hn
        · rcases touches_writes ht with hw | ⟨m, x, rfl⟩
          · exact ha hw
          · obtain ⟨s, h1, _⟩ := L
            rw [hn] at h1; cases h1
      | false =>
        rcases hS with ⟨w0, σ', e, S⟩ | ⟨w0, σ', e, S⟩ | ⟨_, e⟩ <;> rw [he] at e <;> cases e
        have : (σ'.snaps a).isSome = (snap w a).isSome := S.alive a
        rw [hn] at this
        rw [S.rep.snaps]
        simpa using this
    refine ⟨?_, fun b n hm => ?_⟩
    · unfold snap at hnone
      cases hw : w'.anys a with
      | none => rfl
      | some s => rw [hw] at hnone; cases hnone
    · unfold memOf at hm; rw [hs] at hm; cases hm
  | some s0 =>
    have hmem : ∀ b, s0.vp = .blk b → ∃ k, w.blks b = some k ∧ b < w.nextBlk := by
      intro b hb
      rcases (W.any a s0 hs).shape with h1 | ⟨b', k, h1, h2, _⟩
      · rw [h1] at hb; cases hb
      · rw [h1] at hb; cases hb
        refine ⟨k, h2, Nat.lt_of_not_le fun hle => ?_⟩
        rw [(W.beyondBlk b hle).1] at h2; cases h2
    have R : ∀ k0, (∀ b, s0.vp = .blk b → w.blks b = k0) → Ro a s0 k0 w := fun k0 hk => {
      any := hs
      mem := fun b hb => ⟨hk b hb, (hmem b hb).choose_spec.2⟩
      others := fun c s hc hcs => by
        refine ⟨fun e => ?_, fun b hb e => ?_⟩
        · rcases (W.any c s hcs).shape with h1 | ⟨b', k, h1, _⟩
          · rw [h1] at e; cases e; exact hc rfl
          · rw [h1] at e; cases e
        · exact hc (W.blkInj c s a s0 b hcs hs e hb) }
    have fin : ∀ k0, Ro a s0 k0 w → Ro a s0 k0 w' := by
      intro k0 hr
      have K := Keep.exec (k0 := k0) (s0 := s0) ha w hr
      unfold Ends at he
      cases r with
      | true => exact (K.1 () w' he).1
      | false => exact K.2 w' he
    cases hv : s0.vp with
    | data c =>
      refine ⟨(fin none (R none fun b hb => by rw [hv] at hb; cases hb)).any, fun b n hm => ?_⟩
      simp [memOf, hs, hv] at hm
    | blk b =>
      have F := fin (w.blks b) (R _ fun b' hb' => by rw [hv] at hb'; cases hb'; rfl)
      refine ⟨F.any, fun b' n hm => ?_⟩
      have : b' = b := by
        obtain ⟨k, hk, _⟩ := hmem b hv
        simp [memOf, hs, hv, hk] at hm; exact hm.1.symm
      subst this
      exact (F.mem _ hv).1

private theorem Ends.reach {w w' : World} {op : Op} {r : Bool} (h : Reachable cfg w) (L : Legal cfg w op) (he : Ends cfg op w r w') :
    Reachable cfg w' := by
  unfold Ends at he
  cases r with
  | true => exact .ok h L he
  | false => exact .exn h L he

private theorem Ends.same {w w1 w2 : World} {op : Op} {r r' : Bool} (h : Ends cfg op w r w1) (h' : Ends cfg op w r' w2) : r = r' ∧ w1 = w2 := by
  unfold Ends at h h'
  rw [h] at h'
  cases r <;> cases r' <;> first | exact ⟨rfl, by cases h'; rfl⟩ | cases h'

/-- An operation of a thread is, for the objects the thread uses, what it is in a world with only these objects. -/
private theorem own_step (C : CfgOk cfg) {w w' : World} (h : Reachable cfg w) {op : Op} (L : Legal cfg w op) {F : Nat → Bool}
    (hF : ∀ a ∈ op.addrs, F a = true) {r : Bool} (he : Ends cfg op w r w') : ∃ v, Ends cfg op (only F w) r v ∧ Elapse v (only F w') := by
  have W := h.wf C
  have W' := (he.reach h L).wf C
  obtain ⟨w1, e1, S⟩ : ∃ w1, Ends cfg op (only F w) r w1 ∧ SamePart F w w1 w' := by
    unfold Ends at he ⊢
    rcases C74_accesses_only_operands C h L hF with ⟨w1, w2, e1, e2, S⟩ | ⟨w1, w2, e1, e2, S⟩ | ⟨e1, e2⟩
    · rw [e2] at he
      cases r <;> cases he
      exact ⟨w1, e1, S⟩
    · rw [e2] at he
      cases r <;> cases he
      exact ⟨w1, e1, S⟩
    · rw [e2] at he
      cases r <;> cases he
  refine ⟨w1, e1, funext fun a => ?_, funext fun b => ?_, Nat.le_of_eq S.counters.1.symm, Nat.le_of_eq S.counters.2.1.symm,
    Nat.le_of_eq S.counters.2.2.1.symm,
    fun i _ => congrFun S.counters.2.2.2 i⟩
  · cases hf : F a with
    | true => rw [only_anys hf]; exact S.inside a hf
    | false => rw [only_anys_none hf]; exact (S.partOnly.1 a hf).symm
  · have owner_out : ∀ a s, w.anys a = some s → s.vp = .blk b → F a = false → ¬ OwnedBy F w' b := by
      rintro a s hs hv hf ⟨c, n, hc, hm⟩
      have ha : w'.anys a = some s := (S.outside a hf).trans hs
      unfold memOf at hm
      cases hcs : w'.anys c with
      | none => rw [hcs] at hm; cases hm
      | some t =>
        rw [hcs, Option.bind_some] at hm
        cases htv : t.vp with
        | data x => rw [htv] at hm; cases hm
        | blk b' =>
          rw [htv] at hm
          have hb : b' = b := by
            cases hk : w'.blks b' with
            | none => simp [hk] at hm
            | some k => simp [hk] at hm; exact hm.1
          subst hb
          have := W'.blkInj a s c t _ ha hcs hv htv
          subst this
          rw [hf] at hc; cases hc
    by_cases hc : (w.blks b).isSome ∧ ¬ OwnedBy F w b
    · rw [S.partOnly.2 b hc.1 hc.2]
      obtain ⟨k, hk⟩ := Option.isSome_iff_exists.1 hc.1
      obtain ⟨a, s, hs, hv⟩ := W.owned b k hk
      refine only_blks_none (owner_out a s hs hv ?_)
      cases hf : F a with
      | false => rfl
      | true => exact absurd (only_blk W hf hs hv) hc.2
    · have hc' : w.blks b = none ∨ OwnedBy F w b := by
        cases hk : w.blks b with
        | none => exact .inl rfl
        | some k => exact .inr (Classical.byContradiction fun h => hc ⟨by rw [hk]; rfl, h⟩)
      have e := S.memInside b hc'
      by_cases ho : OwnedBy F w' b
      · rw [only_blks ho]; exact e
      · rw [only_blks_none ho, ← e]
        cases hk : w'.blks b with
        | none => rfl
        | some k =>
          exfalso
          obtain ⟨a, s, hs, hv⟩ := W'.owned b k hk
          cases hf : F a with
          | true => exact ho (only_blk W' hf hs hv)
          | false =>
            have ha : w.anys a = some s := (S.outside a hf).symm.trans hs
            rcases (W.any a s ha).shape with h1 | ⟨b', k', h1, h2, _⟩
            · rw [h1] at hv; cases hv
            · rw [h1] at hv; cases hv
              rcases hc' with h3 | ⟨c, n, hcF, hm⟩
              · rw [h3] at h2; cases h2
              · unfold memOf at hm
                cases hcs : w.anys c with
                | none => rw [hcs] at hm; cases hm
                | some t =>
                  rw [hcs, Option.bind_some] at hm
                  cases htv : t.vp with
                  | data x => rw [htv] at hm; cases hm
                  | blk b' =>
                    rw [htv] at hm
                    have hb : b' = b := by
                      cases hk : w.blks b' with
                      | none => simp [hk] at hm
                      | some k => simp [hk] at hm; exact hm.1
                    subst hb
                    have := W.blkInj a s c t _ ha hcs h1 htv
                    subst this
                    rw [hf] at hcF; cases hcF

/-- An operation of another thread: time passes. -/
private theorem other_step (C : CfgOk cfg) {w w' : World} (h : Reachable cfg w) {op : Op} (L : Legal cfg w op) {F : Nat → Bool}
    (hF : ∀ a ∈ op.writes cfg, F a = false) {r : Bool} (he : Ends cfg op w r w') : Elapse (only F w) (only F w') := by
  have W := h.wf C
  have W' := (he.reach h L).wf C
  have keep : ∀ a, F a = true → w'.anys a = w.anys a ∧ ∀ b n, memOf w a = some (b, n) → w'.blks b = w.blks b := fun a ha =>
    C74_const_operands_untouched C h L he fun hm => by rw [hF a hm] at ha; cases ha
  have mem_inv : ∀ {v : World} {a b n}, memOf v a = some (b, n) → ∃ s k, v.anys a = some s ∧ s.vp = .blk b ∧ v.blks b = some k := by
    intro v a b n hm
    unfold memOf at hm
    cases hs : v.anys a with
    | none => rw [hs] at hm; cases hm
    | some s =>
      rw [hs, Option.bind_some] at hm
      cases hv : s.vp with
      | data x => rw [hv] at hm; cases hm
      | blk b' =>
        rw [hv] at hm
        cases hk : v.blks b' with
        | none => simp [hk] at hm
        | some k =>
          simp [hk] at hm
          obtain ⟨rfl, _⟩ := hm
          exact ⟨s, k, rfl, hv, hk⟩
  have own : ∀ b, OwnedBy F w' b ↔ OwnedBy F w b := by
    intro b
    constructor
    · rintro ⟨a, n, ha, hm⟩
      obtain ⟨s, k, hs, hv, hk⟩ := mem_inv hm
      rw [(keep a ha).1] at hs
      exact only_blk W ha hs hv
    · rintro ⟨a, n, ha, hm⟩
      obtain ⟨s, k, hs, hv, hk⟩ := mem_inv hm
      rw [← (keep a ha).1] at hs
      exact only_blk W' ha hs hv
  have M : Mono w w' := by
    unfold Ends at he
    cases r with
    | true => exact (mono_exec op w).1 () w' he
    | false => exact (mono_exec op w).2 w' he
  refine ⟨funext fun a => ?_, funext fun b => ?_, M.blk, M.obj, M.tick, M.born⟩
  · cases hf : F a with
    | true => rw [only_anys hf, only_anys hf]; exact (keep a hf).1
    | false => rw [only_anys_none hf, only_anys_none hf]
  · by_cases ho : OwnedBy F w b
    · rw [only_blks ho, only_blks ((own b).2 ho)]
      obtain ⟨a, n, ha, hm⟩ := ho
      exact (keep a ha).2 b n hm
    · rw [only_blks_none ho, only_blks_none (fun h => ho ((own b).1 h))]

open Classical in
/-- The same world with the numbers of destructor and deallocation calls that belong to it. -/
noncomputable def fix (v : World) : World :=
  { v with
    frees := fun b => if (v.blks b).isSome then 0 else if b < v.nextBlk then 1 else 0
    dtors := fun i => if ∃ a o, content v a = some o ∧ o.id = i then 0 else if i < v.nextObj then 1 else 0 }

theorem fix_wf {v0 v : World} (W : WF cfg v0) (E : Elapse v0 v) : WF cfg (fix v) := by
  obtain ⟨anys, blks, nb, no, bo, dt, fr, co, ti⟩ := v
  obtain ⟨h1, h2, h3, h4, _, h5⟩ := E
  dsimp only at h1 h2 h3 h4 h5
  subst h1 h2
  have hcell : ∀ p, cellAt (fix ⟨v0.anys, v0.blks, nb, no, bo, dt, fr, co, ti⟩) p = cellAt v0 p := fun p => by cases p <;> rfl
  have hcont : ∀ a, content (fix ⟨v0.anys, v0.blks, nb, no, bo, dt, fr, co, ti⟩) a = content v0 a := fun a => by
    unfold content; simp only [hcell]; rfl
  have hcont' : ∀ a, content ⟨v0.anys, v0.blks, nb, no, bo, dt, fr, co, ti⟩ a = content v0 a := fun a => by
    unfold content
    have : ∀ p, cellAt ⟨v0.anys, v0.blks, nb, no, bo, dt, fr, co, ti⟩ p = cellAt v0 p := fun p => by cases p <;> rfl
    simp only [this]
  refine { any := ?_, blkInj := W.blkInj, objInj := ?_, owned := W.owned, freed := ?_, beyondBlk := ?_, destroyed := ?_, beyondObj := ?_, once := ?_ }
  · intro a s h
    have A := W.any a s h
    refine ⟨A.destroyIn, A.shape, ?_, ?_⟩
    · intro v hv
      obtain ⟨o, h1, h2, h3, h4, h5', h6, h7, h8⟩ := A.full v hv
      refine ⟨o, (hcell _).trans h1, h2, h3, Nat.lt_of_lt_of_le h4 ‹_›, (h5 _ h4).trans h5', ?_, h7, h8⟩
      have : ∃ a o', content v0 a = some o' ∧ o'.id = o.id :=
        ⟨a, o, by simp only [content, show v0.anys a = some s from h, Option.bind_some, hv, Option.isSome_some, if_true, h1], rfl⟩
      simp only [fix, hcont', this, if_true]
    · intro hv; rw [hcell]; exact A.empty hv
  · intro a c o p h1 h2; rw [hcont] at h1 h2; exact W.objInj a c o p h1 h2
  · intro b hb
    have hb : b < nb := hb
    simp only [fix, hb, if_true]
  · intro b hb
    have hb : nb ≤ b := hb
    have hn : v0.blks b = none := (W.beyondBlk b (by omega)).1
    refine ⟨hn, ?_⟩
    simp only [fix, hn, Option.isSome_none, Bool.false_eq_true, if_false]
    rw [if_neg (by omega)]
  · intro i hi _
    have hi : i < no := hi
    simp only [hcont]
    by_cases hc : ∃ a o, content v0 a = some o ∧ o.id = i
    · exact .inr ⟨by simp only [fix, hcont', hc, if_true], hc⟩
    · left; simp only [fix, hcont', hc, if_false, hi, if_true]
  · intro i hi
    have hi : no ≤ i := hi
    by_cases hc : ∃ a o, content v0 a = some o ∧ o.id = i
    · simp only [fix, hcont', hc, if_true]
    · simp only [fix, hcont', hc, if_false]; rw [if_neg (by omega)]
  · intro i _
    by_cases hc : ∃ a o, content v0 a = some o ∧ o.id = i
    · simp only [fix, hcont', hc, if_true]; omega
    · simp only [fix, hcont', hc, if_false]; split <;> omega

theorem fix_elapse (v : World) : Elapse v (fix v) := ⟨rfl, rfl, Nat.le_refl _, Nat.le_refl _, Nat.le_refl _, fun _ _ => rfl⟩

theorem Elapse.snap {v v' : World} (h : Elapse v v') (a : Nat) : snap v' a = snap v a := by
  have hcell : ∀ p, cellAt v' p = cellAt v p := fun p => by cases p <;> simp only [cellAt, h.anys, h.blks]
  have hc : content v' a = content v a := by unfold content; simp only [hcell, h.anys]
  simp only [Mem.snap, hc, memOf, h.anys, h.blks]

theorem Elapse.vals {v v' : World} (h : Elapse v v') : vals v' = vals v := by
  have hcell : ∀ p, cellAt v' p = cellAt v p := fun p => by cases p <;> simp only [cellAt, h.anys, h.blks]
  have hc : content v' = content v := by funext a; unfold content; simp only [hcell, h.anys]
  unfold Mem.vals view; simp only [h.anys, hc]

/-- One operation of a thread that is alone. -/
theorem alone_step (C : CfgOk cfg) {v v' : World} (W : WF cfg (fix v)) {op : Op} (L : Legal cfg v op) {r : Bool} (he : Ends cfg op v r v') :
    WF cfg (fix v') ∧ (r = true → vals v' = specStep cfg (vals v) op) ∧
      (r = false → ∀ a, (snap v' a).isSome = (snap v a).isSome ∧ (¬ mayLose cfg (fix v) op a → snap v' a = snap v a)) := by
  have E0 := fix_elapse v
  have L' : Legal cfg (fix v) op := legal_congr (fun a _ => E0.snap a) rfl L
  have f := Fr.exec (cfg := cfg) (f := ⟨fun _ => none, fun _ => none⟩) (op := op) (fun a ha => rfl) (fix v) v
    ⟨fun _ => rfl, fun _ => rfl, fun _ h => (by cases h), fun _ h => (by cases h), rfl, rfl, rfl, rfl, rfl⟩
  have sim : ∀ {w0}, Sim ⟨fun _ => none, fun _ => none⟩ w0 v' → Elapse w0 v' := fun {w0} s =>
    ⟨funext fun a => s.anys a, funext fun b => s.blks b, Nat.le_of_eq s.nextBlk.symm, Nat.le_of_eq s.nextObj.symm, Nat.le_of_eq s.tick.symm,
      fun i _ => congrFun s.born i⟩
  unfold Ends at he
  rcases step_spec C (Rep.of_wf W) op L' with ⟨w0, σ', e, S⟩ | ⟨w0, σ', e, S⟩ | ⟨_, e⟩ <;> rw [e] at f <;> simp only [RelRes] at f
  · obtain ⟨w2, e2, s⟩ := f
    rw [e2] at he
    cases r <;> cases he
    have E := sim s
    refine ⟨fix_wf S.rep.wf E, fun _ => ?_, fun h => by cases h⟩
    rw [E.vals, S.rep.vals', S.vals, ← E0.vals]
    exact congrArg (fun V => specStep cfg V op) (absOf_vals _)
  · obtain ⟨w2, e2, s⟩ := f
    rw [e2] at he
    cases r <;> cases he
    have E := sim s
    refine ⟨fix_wf S.rep.wf E, fun h => (by cases h), fun _ a => ?_⟩
    rw [E.snap, S.rep.snaps, S.alive a, ← E0.snap]
    exact ⟨rfl, S.keep a⟩
  · rw [f] at he
    cases r <;> cases he

/-- The behaviour of a legal operation of a thread that is alone is defined. -/
theorem alone_defined (C : CfgOk cfg) {v : World} (W : WF cfg (fix v)) {op : Op} (L : Legal cfg v op) : exec cfg op v ≠ .ub := by
  have E0 := fix_elapse v
  have L' : Legal cfg (fix v) op := legal_congr (fun a _ => E0.snap a) rfl L
  have f := Fr.exec (cfg := cfg) (f := ⟨fun _ => none, fun _ => none⟩) (op := op) (fun a ha => rfl) (fix v) v
    ⟨fun _ => rfl, fun _ => rfl, fun _ h => (by cases h), fun _ h => (by cases h), rfl, rfl, rfl, rfl, rfl⟩
  rcases step_spec C (Rep.of_wf W) op L' with ⟨w0, σ', e, S⟩ | ⟨w0, σ', e, S⟩ | ⟨_, e⟩ <;> rw [e] at f <;> simp only [RelRes] at f
  · obtain ⟨w2, e2, s⟩ := f
    rw [e2]; intro h; cases h
  · obtain ⟨w2, e2, s⟩ := f
    rw [e2]; intro h; cases h
  · rw [f]; intro h; cases h

/-- A thread that is alone keeps its world well-formed. -/
theorem Alone.wf (C : CfgOk cfg) {v v' : World} {p p' : Prog} {t : List (Op × Bool)} (run : Alone cfg v p t v' p') (W : WF cfg (fix v)) :
    WF cfg (fix v') := by
  induction run with
  | nil => exact W
  | @elapse v v1 p t v' p' e _ ih => exact ih (fix_wf W ⟨e.anys, e.blks, e.nextBlk, e.nextObj, e.tick, e.born⟩)
  | @step v op next r v1 t v' p' L e _ ih => exact ih (alone_step C W L e).1

theorem Alone.append {v v1 v2 : World} {p p1 p2 : Prog} {t1 t2 : List (Op × Bool)} (h1 : Alone cfg v p t1 v1 p1)
    (h2 : Alone cfg v1 p1 t2 v2 p2) : Alone cfg v p (t1 ++ t2) v2 p2 := by
  induction h1 with
  | nil => exact h2
  | elapse e _ ih => exact .elapse e (ih h2)
  | step L e _ ih => exact .step L e (ih h2)

theorem SafeAlone.after {v v' : World} {p p' : Prog} {t : List (Op × Bool)} (h : SafeAlone cfg v p) (r : Alone cfg v p t v' p') :
    SafeAlone cfg v' p' := fun t' v2 op next r' => h (t ++ t') v2 op next (r.append r')

theorem sees_addrs {owner : Nat → Option Nat} {i : Nat} {op : Op} (h : ∀ a ∈ op.addrs, owner a = some i ∨ owner a = none) :
    ∀ a ∈ op.addrs, sees owner i a = true := by
  intro a ha
  rcases h a ha with h | h <;> simp [sees, h]

/-- C74: threads that use different objects, apart from objects that all of them only read. Suppose that no thread would ever break a
rule if it were alone with the objects it uses. Then in every interleaving of their operations, whichever of them throw,
* what a thread did is a run of the thread alone, and the objects it uses are as that run left them;
* the next operation of a thread is legal, its behaviour is defined, and it returns or throws exactly as it would if the thread were alone.
(Operations are taken as a whole; for their parts see C99.) -/
theorem C74_interleavings (C : CfgOk cfg) {w w' : World} (h : Reachable cfg w) {owner : Nat → Option Nat} {P P' : Nat → Prog}
    (hu : ∀ i, (P i).Uses cfg owner i) (hs : ∀ i, SafeAlone cfg (only (sees owner i) w) (P i))
    {s : List (Nat × Op × Bool)} (run : Interleaved cfg w P s w' P') :
    Reachable cfg w' ∧ ∀ i, Alone cfg (only (sees owner i) w) (P i) (traceOf s i) (only (sees owner i) w') (P' i) ∧
      ∀ op next, P' i = .step op next → Legal cfg w' op ∧ exec cfg op w' ≠ .ub ∧
        ∀ r, (∃ w2, Ends cfg op w' r w2) ↔ ∃ v2, Ends cfg op (only (sees owner i) w') r v2 := by
  induction run with
  | @nil w P =>
    refine ⟨h, fun i => ⟨.nil, fun op next hp => ?_⟩⟩
    have hu := hu i
    rw [hp] at hu
    have hF := sees_addrs hu.2.1
    have L : Legal cfg w op := legal_congr (fun a ha => (only_snap (h.wf C) (hF a ha)).symm) rfl (hs i [] _ op next (by rw [hp]; exact .nil))
    rcases C74_accesses_only_operands C h L hF with ⟨w1, w2, e1, e2, S⟩ | ⟨w1, w2, e1, e2, S⟩ | ⟨e1, e2⟩
    · refine ⟨L, (by rw [e2]; intro h; cases h), fun r => ?_⟩
      unfold Ends
      rw [e1, e2]
      cases r <;> simp
    · refine ⟨L, (by rw [e2]; intro h; cases h), fun r => ?_⟩
      unfold Ends
      rw [e1, e2]
      cases r <;> simp
    · refine ⟨L, (by rw [e2]; intro h; cases h), fun r => ?_⟩
      unfold Ends
      rw [e1, e2]
  | @step w P i op next r w1 s w' P' hp he run ih =>
    have hui := hu i
    rw [hp] at hui
    have hF := sees_addrs hui.2.1
    have Lv : Legal cfg (only (sees owner i) w) op := hs i [] _ op next (by rw [hp]; exact .nil)
    have L : Legal cfg w op := legal_congr (fun a ha => (only_snap (h.wf C) (hF a ha)).symm) rfl Lv
    obtain ⟨v1, ev, el⟩ := own_step C h L hF he
    have first : ∀ j, Alone cfg (only (sees owner j) w) (P j) (if j = i then [(op, r)] else []) (only (sees owner j) w1) (if j = i then next r else P j) := by
      intro j
      split
      · rename_i hj
        subst hj
        rw [hp]
        exact .step Lv ev (.elapse el .nil)
      · rename_i hj
        refine .elapse (other_step C h L (fun a ha => ?_) he) .nil
        rw [show sees owner j a = (owner a == some j || owner a == none) from rfl, hui.1 a ha]
        simpa using Ne.symm hj
    obtain ⟨R, hall⟩ := ih (he.reach h L)
      (fun j => by
        dsimp only
        split
        · rename_i hj; subst hj; exact hui.2.2 r
        · exact hu j)
      (fun j => (hs j).after (first j))
    refine ⟨R, fun j => ⟨?_, (hall j).2⟩⟩
    have := (first j).append (hall j).1
    have ht : traceOf ((i, op, r) :: s) j = (if j = i then [(op, r)] else []) ++ traceOf s j := by
      unfold traceOf
      by_cases hj : j = i
      · subst hj; simp
      · simp [hj, Ne.symm hj]
    rw [ht]; exact this

/-- The values of the objects of a thread that is alone. -/
theorem alone_vals (C : CfgOk cfg) {v v' : World} (W : WF cfg (fix v)) {p p' : Prog} {t : List (Op × Bool)}
    (run : Alone cfg v p t v' p') (ht : ∀ x ∈ t, x.2 = true) : vals v' = (t.map (·.1)).foldl (specStep cfg) (vals v) := by
  induction run with
  | nil => rfl
  | @elapse v v1 p t v' p' e _ ih =>
    have W1 : WF cfg (fix v1) := fix_wf W ⟨e.anys, e.blks, e.nextBlk, e.nextObj, e.tick, e.born⟩
    rw [ih W1 ht, e.vals]
  | @step v op next r v1 t v' p' L e _ ih =>
    obtain ⟨W1, hv, _⟩ := alone_step C W L e
    have hr : r = true := ht (op, r) List.mem_cons_self
    rw [ih W1 (fun x hx => ht x (List.mem_cons_of_mem _ hx)), hv hr]
    rfl

/-- C74: a thread that is alone gets the values that the reference behaviour says, as long as its operations return. With `C74_interleavings`:
the values of the objects of a thread do not depend on what the other threads do. -/
theorem C74_alone_values (C : CfgOk cfg) {w v' : World} (h : Reachable cfg w) {F : Nat → Bool} {p p' : Prog} {t : List (Op × Bool)}
    (run : Alone cfg (only F w) p t v' p') (ht : ∀ x ∈ t, x.2 = true) : vals v' = (t.map (·.1)).foldl (specStep cfg) (vals (only F w)) :=
  alone_vals C (fix_wf (v := only F w) (onlyFix_wf (F := F) (h.wf C)) ⟨rfl, rfl, Nat.le_refl _, Nat.le_refl _, Nat.le_refl _, fun _ _ => rfl⟩) run ht

theorem safe_done {v : World} : SafeAlone cfg v .done := by
  intro t v' op next run
  generalize hp : Prog.done = p at run
  generalize hq : Prog.step op next = q at run
  induction run with
  | nil => rw [← hp] at hq; cases hq
  | elapse _ _ ih => exact ih hp hq
  | step => cases hp

theorem safe_step {v : World} {op : Op} {next : Bool → Prog} (h1 : ∀ v1, Elapse v v1 → Legal cfg v1 op)
    (h2 : ∀ v1 r v2, Elapse v v1 → Ends cfg op v1 r v2 → SafeAlone cfg v2 (next r)) : SafeAlone cfg v (.step op next) := by
  intro t v' op' next' run
  have refl : Elapse v v := ⟨rfl, rfl, Nat.le_refl _, Nat.le_refl _, Nat.le_refl _, fun _ _ => rfl⟩
  have : ∀ v0 p t v' q, Alone cfg v0 p t v' q → p = .step op next → q = .step op' next' → Elapse v v0 → Legal cfg v' op' := by
    clear run
    intro v0 p t v' q run
    induction run with
    | nil =>
      intro hp hq e
      rw [hp] at hq; cases hq
      exact h1 _ e
    | @elapse v0 v1 p t v' p' e _ ih =>
      intro hp hq e0
      exact ih hp hq ⟨e.anys.trans e0.anys, e.blks.trans e0.blks, Nat.le_trans e0.nextBlk e.nextBlk, Nat.le_trans e0.nextObj e.nextObj,
        Nat.le_trans e0.tick e.tick, fun i hi => (e.born i (Nat.lt_of_lt_of_le hi e0.nextObj)).trans (e0.born i hi)⟩
    | @step v0 op0 next0 r v1 t v' p' L e run _ =>
      intro hp hq e0
      cases hp
      rw [hq] at run
      exact h2 _ r _ e0 e _ _ _ _ run
  exact this v _ _ _ _ run rfl rfl refl

/-! ### Interleavings -/

section
variable {w w' : World}

/-- Two worlds agree on the value, class and allocator of the object at `a`. -/
def Agree (w w' : World) (a : Nat) : Prop := vals w a = vals w' a ∧ metas w a = metas w' a

private theorem Agree.none {a : Nat} (h : Agree w w' a) (hs : snap w a = .none) : snap w' a = .none := by
  obtain ⟨h, _⟩ := h
  unfold vals at h
  unfold snap at hs ⊢
  cases hw : w.anys a with
  | none => cases hw' : w'.anys a with
    | none => rfl
    | some s => rw [hw, hw'] at h; cases h
  | some s => rw [hw] at hs; cases hs

private theorem Agree.some {a : Nat} {t : Snap} (h : Agree w w' a) (hs : snap w a = .some t) :
    ∃ t', snap w' a = .some t' ∧ t'.ms = t.ms ∧ t'.al = t.al ∧ t'.val = t.val := by
  obtain ⟨h1, h2⟩ := h
  unfold vals at h1
  unfold metas at h2
  unfold snap at hs ⊢
  cases hw : w.anys a with
  | none => rw [hw] at hs; cases hs
  | some s =>
    rw [hw] at hs h1 h2
    cases hs
    cases hw' : w'.anys a with
    | none => rw [hw'] at h1; cases h1
    | some s' =>
      rw [hw'] at h1 h2
      simp only [Option.map_some, Option.some.injEq, Prod.mk.injEq] at h1 h2
      exact ⟨_, rfl, h2.1.symm, h2.2.symm, h1.symm⟩

private theorem Agree.alive {a : Nat} (h : Agree w w' a) (hs : (snap w a).isSome) : (snap w' a).isSome := by
  obtain ⟨t, ht⟩ := Option.isSome_iff_exists.1 hs
  obtain ⟨t', h', _⟩ := h.some ht
  rw [h']; rfl

private theorem Agree.content {a : Nat} (h : Agree w w' a) (hs : (content w a).isSome) : (content w' a).isSome := by
  obtain ⟨h, _⟩ := h
  unfold vals at h
  cases hw : w.anys a with
  | none => unfold Mem.content at hs; rw [hw] at hs; cases hs
  | some s =>
    rw [hw] at h
    cases hw' : w'.anys a with
    | none => rw [hw'] at h; cases h
    | some s' =>
      rw [hw'] at h
      simp only [Option.map_some, Option.some.injEq, view] at h
      obtain ⟨o, ho⟩ := Option.isSome_iff_exists.1 hs
      rw [ho] at h
      obtain ⟨o', ho', _⟩ := Option.map_eq_some_iff.1 h.symm
      rw [ho']; rfl

private theorem Agree.valid {a : Nat} {arg : ArgSrc} (h : ∀ c ∈ (match arg with | .lit _ => [a] | .valueOf c => [a, c] : List Nat), Agree w w' c)
    (hs : arg.Valid w a) : arg.Valid w' a := by
  cases arg with
  | lit v => trivial
  | valueOf c => exact ⟨hs.1, (h c (by simp)).content hs.2⟩

private theorem Agree.legal (hf : ∀ n, cfg.faults n = false) {op : Op} (h : ∀ a ∈ op.addrs, Agree w w' a) (L : LegalStd cfg w op) :
    LegalStd cfg w' op := by
  have hm : ∀ (a : Nat) (arg : ArgSrc), a ∈ (match arg with | .lit _ => [a] | .valueOf c => [a, c] : List Nat) := by
    intro a arg; cases arg <;> exact List.mem_cons_self
  cases op with
  | allocCtor a ms al => exact ⟨(h a (by simp [Op.addrs])).none L.1, L.2⟩
  | valueCtor a ms al t arg n => exact ⟨(h a (hm a arg)).none L.1, L.2.1, Agree.valid h L.2.2⟩
  | forceCtor a ms t arg n => exact ⟨(h a (hm a arg)).none L.1, L.2.1, Agree.valid h L.2.2⟩
  | copyCtor a ms o =>
    obtain ⟨h1, h2, t, h3, h4, h5⟩ := L
    obtain ⟨t', g, g1, g2, g3⟩ := (h o (by simp [Op.addrs])).some h3
    exact ⟨(h a (by simp [Op.addrs])).none h1, h2, t', g, by rw [g1]; exact h4, by rw [g1]; exact h5⟩
  | moveCtor a o =>
    obtain ⟨h1, t, h3, h4⟩ := L
    obtain ⟨t', g, g1, g2, g3⟩ := (h o (by simp [Op.addrs])).some h3
    exact ⟨(h a (by simp [Op.addrs])).none h1, t', g, by rw [g1]; exact h4⟩
  | transMoveCtor a ms o =>
    obtain ⟨h1, h2, t, h3, h4, h5⟩ := L
    obtain ⟨t', g, g1, g2, g3⟩ := (h o (by simp [Op.addrs])).some h3
    exact ⟨(h a (by simp [Op.addrs])).none h1, h2, t', g, by rw [g1]; exact h4, by rw [g1]; exact h5⟩
  | dtor a => exact (h a (by simp [Op.addrs])).alive L
  | copyAssign a o tmp =>
    obtain ⟨h1, s, h2, t, h3, h4, h5⟩ := L
    obtain ⟨t', g, g1, g2, g3⟩ := (h o (by simp [Op.addrs])).some h3
    obtain ⟨s', k, k1, k2, k3⟩ := (h a (by simp [Op.addrs])).some h2
    exact ⟨(h tmp (by simp [Op.addrs])).none h1, s', k, t', g, by rw [g1, k1]; exact h4, by rw [g1]; exact h5⟩
  | moveAssign a o =>
    obtain ⟨s, h2, t, h3, h4, h5⟩ := L
    obtain ⟨t', g, g1, g2, g3⟩ := (h o (by simp [Op.addrs])).some h3
    obtain ⟨s', k, k1, k2, k3⟩ := (h a (by simp [Op.addrs])).some h2
    exact ⟨s', k, t', g, by rw [g1, k1]; exact h4, by rw [g1]; exact h5⟩
  | emplace a t arg n => exact ⟨(h a (hm a arg)).alive L.1, Agree.valid h L.2⟩
  | reset a => exact (h a (by simp [Op.addrs])).alive L
  | destroyValue a => exact (h a (by simp [Op.addrs])).alive L
  | replaceWithBytes a n => exact (h a (by simp [Op.addrs])).alive L
  | mutate a t v =>
    obtain ⟨s, h2, h3⟩ := L
    obtain ⟨s', k, k1, k2, k3⟩ := (h a (by simp [Op.addrs])).some h2
    exact ⟨s', k, by rw [k1]; exact h3⟩
  | castCopy a t =>
    obtain ⟨s, h2, h3⟩ := L
    obtain ⟨s', k, k1, k2, k3⟩ := (h a (by simp [Op.addrs])).some h2
    exact ⟨s', k, by rw [k1]; exact h3⟩
  | castMove a t =>
    obtain ⟨s, h2, h3⟩ := L
    obtain ⟨s', k, k1, k2, k3⟩ := (h a (by simp [Op.addrs])).some h2
    exact ⟨s', k, by rw [k1]; exact h3⟩
  | invoke a m x =>
    obtain ⟨s, h2, h3, h4⟩ := L
    obtain ⟨s', k, k1, k2, k3⟩ := (h a (by simp [Op.addrs])).some h2
    refine ⟨s', k, by rw [k1]; exact h3, ?_⟩
    unfold Snap.val at k3
    have := congrArg Option.isSome k3
    rw [Option.isSome_map, Option.isSome_map] at this
    rw [this]; exact h4
  | swap a b tmp =>
    obtain ⟨h1, s, h2, t, h3, h4, h5⟩ := L
    obtain ⟨t', g, g1, g2, g3⟩ := (h b (by simp [Op.addrs])).some h3
    obtain ⟨s', k, k1, k2, k3⟩ := (h a (by simp [Op.addrs])).some h2
    exact ⟨(h tmp (by simp [Op.addrs])).none h1, s', k, t', g, by rw [g1, k1]; exact h4, by rw [g1]; exact h5⟩
  | materialize a ms al o =>
    obtain ⟨h1, h2, h2', t, h3, h4, ob, h5, _⟩ := L
    obtain ⟨t', g, g1, g2, g3⟩ := (h o (by simp [Op.addrs])).some h3
    unfold Snap.val at g3
    rw [h5] at g3
    obtain ⟨ob', g5, g6⟩ := Option.map_eq_some_iff.1 g3
    exact ⟨(h a (by simp [Op.addrs])).none h1, h2, h2', t', g, by rw [g1]; exact h4, ob', g5, .inr (by simp [copyThrows, hf])⟩

end

private theorem specStep_other {V : Vals} {op : Op} {c : Nat} (h : c ∉ op.writes cfg) : specStep cfg V op c = V c := by
  cases op with
  | moveAssign a o =>
    simp only [Op.writes, List.mem_cons, List.not_mem_nil, or_false, not_or] at h
    simp only [specStep]; split <;> simp [upd, h]
  | mutate a t v =>
    simp only [Op.writes, List.mem_cons, List.not_mem_nil, or_false] at h
    simp only [specStep]
    rcases hV : V a with _ | _ | ⟨t', x⟩
    · rfl
    · rfl
    · dsimp only; split <;> simp [upd, h]
  | castMove a t =>
    simp only [Op.writes, List.mem_cons, List.not_mem_nil, or_false] at h
    simp only [specStep]
    rcases hV : V a with _ | _ | ⟨t', x⟩
    · rfl
    · rfl
    · dsimp only; split <;> simp [upd, h]
  | invoke a m x =>
    simp only [specStep, upd]
    split
    · rename_i hc
      subst hc
      unfold afterInvoke
      split
      · rename_i hv
        rw [hv]
        split
        · rename_i hk; simp [Op.writes, hk] at h
        · rfl
      · rfl
    · rfl
  | _ => simp_all [Op.writes, specStep, upd]

private theorem specMeta_other {Q : Metas} {op : Op} {c : Nat} (h : c ∉ op.writes cfg) : specMeta cfg Q op c = Q c := by
  cases op <;> simp_all [Op.writes, specMeta, upd]

private theorem specStep_local {V V' : Vals} {op : Op} (h : ∀ a ∈ op.addrs, V a = V' a) {c : Nat} (hc : V c = V' c) :
    specStep cfg V op c = specStep cfg V' op c := by
  have ha : ∀ (a : Nat) (arg : ArgSrc), (∀ c ∈ (match arg with | .lit _ => [a] | .valueOf c => [a, c] : List Nat), V c = V' c) →
      arg.value V = arg.value V' := by
    intro a arg h
    cases arg with
    | lit v => rfl
    | valueOf c => simp only [ArgSrc.value, h c (by simp)]
  cases op with
  | valueCtor a ms al t arg n => simp only [specStep, upd, ha a arg h, hc]
  | forceCtor a ms t arg n => simp only [specStep, upd, ha a arg h, hc]
  | emplace a t arg n => simp only [specStep, upd, ha a arg h, hc]
  | moveAssign a o =>
    simp only [Op.addrs, List.mem_cons, List.not_mem_nil, or_false, forall_eq_or_imp, forall_eq] at h
    simp only [specStep]; split <;> simp [upd, h, hc]
  | mutate a t v =>
    simp only [Op.addrs, List.mem_cons, List.not_mem_nil, or_false, forall_eq] at h
    simp only [specStep, ← h]
    rcases hV : V a with _ | _ | ⟨t', x⟩
    · exact hc
    · exact hc
    · dsimp only; split <;> simp [upd, hc]
  | castMove a t =>
    simp only [Op.addrs, List.mem_cons, List.not_mem_nil, or_false, forall_eq] at h
    simp only [specStep, ← h]
    rcases hV : V a with _ | _ | ⟨t', x⟩
    · exact hc
    · exact hc
    · dsimp only; split <;> simp [upd, hc]
  | _ =>
    simp only [Op.addrs, List.mem_cons, List.not_mem_nil, or_false, forall_eq_or_imp, forall_eq] at h
    simp only [specStep, upd, h, hc]

private theorem specMeta_local {Q Q' : Metas} {op : Op} (h : ∀ a ∈ op.addrs, Q a = Q' a) {c : Nat} (hc : Q c = Q' c) :
    specMeta cfg Q op c = specMeta cfg Q' op c := by
  cases op with
  | valueCtor a ms al t arg n => simp only [specMeta, upd, hc]
  | forceCtor a ms t arg n => simp only [specMeta, upd, hc]
  | emplace a t arg n => exact hc
  | _ =>
    simp only [Op.addrs, List.mem_cons, List.not_mem_nil, or_false, forall_eq_or_imp, forall_eq] at h
    simp only [specMeta, upd, h, hc]

private theorem badCast_agree {w w' : World} {op : Op} (h : ∀ a ∈ op.addrs, Agree w w' a) {L : LegalStd cfg w op} (hb : BadCast w' op) :
    BadCast w op := by
  have key : ∀ a t s, snap w a = .some s → Agree w w' a → (∀ x, view w' a ≠ some (t, x)) → ∀ x, view w a ≠ some (t, x) := by
    intro a t s hs ha hv x hx
    refine hv x ?_
    obtain ⟨h1, _⟩ := ha
    unfold vals at h1
    unfold snap at hs
    cases hw : w.anys a with
    | none => rw [hw] at hs; cases hs
    | some st =>
      rw [hw] at h1
      cases hw' : w'.anys a with
      | none => rw [hw'] at h1; cases h1
      | some st' => rw [hw'] at h1; exact (Option.some.inj h1).symm.trans hx
  cases op with
  | castCopy a t => obtain ⟨s, hs, _⟩ := L; exact key a t s hs (h a (by simp [Op.addrs])) hb
  | castMove a t => obtain ⟨s, hs, _⟩ := L; exact key a t s hs (h a (by simp [Op.addrs])) hb
  | _ => exact hb

/-- C74: if the threads use different objects, apart from objects that all of them only read, and the program of each thread runs
through on its own, then every interleaving of the operations runs through, and in the end the objects of each thread have the values,
classes and allocators that the thread would have produced on its own. (Allocators whose instances are all equal, like `std::allocator`; no
calls of user code or of the allocator throw; operations are taken as a whole: for their parts see C99.) -/
theorem C74_threads (C : CfgOk cfg) (he : cfg.alwaysEq = true) (hf : ∀ n, cfg.faults n = false) {w : World} (h : Reachable cfg w)
    {s : Schedule} {owner : Nat → Option Nat} (hs : Separate cfg owner s) {alone : Nat → World}
    (ha : ∀ i, Runs cfg (s.prog i) w (alone i)) :
    ∃ w', Runs cfg (s.map (·.2)) w w' ∧
      ∀ i a, owner a = some i ∨ owner a = none →
        vals w' a = vals (alone i) a ∧ methodsOf w' a = methodsOf (alone i) a ∧ allocOf w' a = allocOf (alone i) a := by
  have nil_inv : ∀ {w w' : World}, Runs cfg [] w w' → w' = w := by intro w w' r; cases r; rfl
  have cons_inv : ∀ {op : Op} {ops : List Op} {w w' : World}, Runs cfg (op :: ops) w w' →
      Legal cfg w op ∧ ∃ w1, exec cfg op w = .ok () w1 ∧ Runs cfg ops w1 w' := by
    intro op ops w w' r; cases r with | cons L e r => exact ⟨L, _, e, r⟩
  have gen : ∀ (s : Schedule) (w : World) (v : Nat → World), Reachable cfg w → (∀ i, Reachable cfg (v i)) → Separate cfg owner s →
      (∀ i, Runs cfg (s.prog i) (v i) (alone i)) → (∀ i a, owner a = some i ∨ owner a = none → Agree (v i) w a) →
      ∃ w', Runs cfg (s.map (·.2)) w w' ∧ ∀ i a, owner a = some i ∨ owner a = none → Agree (alone i) w' a := by
    intro s
    induction s with
    | nil =>
      intro w v _ _ _ hr hag
      refine ⟨w, .nil, fun i a ho => ?_⟩
      rw [nil_inv (hr i)]; exact hag i a ho
    | cons x s ih =>
      obtain ⟨i, op⟩ := x
      intro w v hw hv hsep hr hag
      have hri := hr i
      have hp : Schedule.prog ((i, op) :: s) i = op :: Schedule.prog s i := by simp [Schedule.prog]
      rw [hp] at hri
      obtain ⟨Li, v1, hei, hri⟩ := cons_inv hri
      obtain ⟨hwr, had⟩ := hsep i op List.mem_cons_self
      have hA : ∀ a ∈ op.addrs, Agree (v i) w a := fun a h => hag i a (had a h)
      have Ls := (legalStd_iff he (v i) op).2 Li
      have L : Legal cfg w op := (legalStd_iff he w op).1 (Agree.legal hf hA Ls)
      have hb : ¬ BadCast w op := by
        intro hb
        have := (C75_returns C (hv i) Li).1 (badCast_agree (L := Ls) hA hb)
        rw [hei] at this; cases this
      obtain ⟨w1, e1⟩ := (C75_returns C hw L).2 hb (fun n _ => hf n)
      have hvals := C04_values_step C hw L e1
      have hmeta := C19_allocators C hw L e1
      have hvals' := C04_values_step C (hv i) Li hei
      have hmeta' := C19_allocators C (hv i) Li hei
      have g1 : ∀ j, Reachable cfg (if j = i then v1 else v j) := by
        intro j
        split
        · exact .ok (hv i) Li hei
        · exact hv j
      have g2 : ∀ j, Runs cfg (Schedule.prog s j) (if j = i then v1 else v j) (alone j) := by
        intro j
        split
        · rename_i hj; subst hj; exact hri
        · rename_i hj
          have := hr j
          rw [show Schedule.prog ((i, op) :: s) j = Schedule.prog s j by simp [Schedule.prog, Ne.symm hj]] at this
          exact this
      have g3 : ∀ j a, owner a = some j ∨ owner a = none → Agree (if j = i then v1 else v j) w1 a := by
        intro j a ho
        split
        · rename_i hj
          subst hj
          refine ⟨?_, ?_⟩
          · rw [hvals', hvals]; exact specStep_local (fun a h => (hA a h).1) (hag j a ho).1
          · rw [hmeta', hmeta]; exact specMeta_local (fun a h => (hA a h).2) (hag j a ho).2
        · rename_i hj
          have hnw : a ∉ op.writes cfg := by
            intro hm
            have := hwr a hm
            rcases ho with ho | ho <;> rw [this] at ho
            · exact hj (Option.some.inj ho).symm
            · cases ho
          refine ⟨?_, ?_⟩
          · rw [hvals, specStep_other hnw]; exact (hag j a ho).1
          · rw [hmeta, specMeta_other hnw]; exact (hag j a ho).2
      obtain ⟨w', r, hag'⟩ := ih w1 (fun j => if j = i then v1 else v j) (.ok hw L e1) g1 (fun j o hm => hsep j o (List.mem_cons_of_mem _ hm)) g2 g3
      exact ⟨w', .cons L e1 r, hag'⟩
  obtain ⟨w', r, hag⟩ := gen s w (fun _ => w) h (fun _ => h) hs ha (fun _ _ _ => ⟨rfl, rfl⟩)
  refine ⟨w', r, fun i a ho => ?_⟩
  obtain ⟨h1, h2⟩ := hag i a ho
  refine ⟨h1.symm, ?_, ?_⟩
  · simpa [methodsOf, metas, Function.comp_def] using congrArg (Option.map (·.1)) h2.symm
  · rw [allocOf_metas, allocOf_metas, h2]

/-! ### Examples -/

/-- Run a program that must not throw. -/
private def runOk (cfg : Cfg) : List Op → World → Option World
  | [], w => some w
  | op :: ops, w =>
    if Legal cfg w op then
      match exec cfg op w with
      | .ok _ w' => runOk cfg ops w'
      | _ => none
    else none

private theorem runOk_runs {ops : List Op} {w w' : World} (h : runOk cfg ops w = some w') : Runs cfg ops w w' := by
  induction ops generalizing w with
  | nil => cases h; exact .nil
  | cons op ops ih =>
    unfold runOk at h
    split at h
    · rename_i L
      split at h
      · rename_i he; exact .cons L he (ih h)
      · cases h
    · cases h

private theorem runOk_getD {ops : List Op} {w d : World} (h : (runOk cfg ops w).isSome = true) : Runs cfg ops w ((runOk cfg ops w).getD d) := by
  obtain ⟨w', e⟩ := Option.isSome_iff_exists.1 h
  rw [e]; exact runOk_runs e

/-- `std::allocator`, 16 bytes of buffer, no exceptions. -/
def exStd : Cfg := { exCfg with alwaysEq := true }

theorem exStd_ok : CfgOk exStd := ⟨exTy_align, fun _ => rfl⟩

/-- Object 4 is shared: both threads copy it. Thread 0 uses the objects 0 and 1, thread 1 the objects 2, 3 and 8. -/
def exSched : Schedule :=
  [(0, .copyCtor 0 exMs 4), (1, .copyCtor 2 exMs 4), (1, .invoke 2 1 5), (0, .mutate 0 2 9), (1, .valueCtor 3 exMs 0 1 (.valueOf 4) false),
   (0, .moveCtor 1 0), (1, .swap 2 3 8), (0, .emplace 0 1 (.lit 3) false), (1, .castMove 3 2), (0, .invoke 4 0 1), (1, .dtor 2)]

def exOwner (a : Nat) : Option Nat := if a = 4 then none else if a ≤ 1 then some 0 else some 1

/-- The world in which the threads start. -/
def exStart : World := ((exec exStd (.valueCtor 4 exMs 0 2 (.lit 7) false) .init).world?).getD .init

/-- The hypotheses of `C74_threads` hold, and what it says: thread 0's objects hold a `2` with value 9 (moved) and a `1` with value 3,
whatever thread 1 does in between. -/
example : Reachable exStd exStart ∧ Separate exStd exOwner exSched ∧ (∃ alone : Nat → World, ∀ i, Runs exStd (exSched.prog i) exStart (alone i)) ∧
    (∀ n, exStd.faults n = false) ∧
    ((runOk exStd (exSched.prog 0) exStart).any fun w => vals w 1 == some (some (2, 9)) && vals w 0 == some (some (1, 3))) = true ∧
    ((runOk exStd (exSched.map (·.2)) exStart).any fun w => vals w 1 == some (some (2, 9)) && vals w 0 == some (some (1, 3)) &&
      vals w 2 == none && vals w 3 == some (some (2, 0)) && vals w 4 == some (some (2, 7))) = true := by
  refine ⟨?_, ?_, ⟨fun i => if i = 0 then (runOk exStd (exSched.prog 0) exStart).getD exStart
      else if i = 1 then (runOk exStd (exSched.prog 1) exStart).getD exStart else exStart, fun i => ?_⟩, fun _ => rfl, ?_, ?_⟩
  · refine Reachable.ok (op := .valueCtor 4 exMs 0 2 (.lit 7) false) .init (by decide +kernel) ?_
    rfl
  · intro i op h
    simp only [exSched, List.mem_cons, List.not_mem_nil, or_false, Prod.mk.injEq] at h
    rcases h with ⟨rfl, rfl⟩ | ⟨rfl, rfl⟩ | ⟨rfl, rfl⟩ | ⟨rfl, rfl⟩ | ⟨rfl, rfl⟩ | ⟨rfl, rfl⟩ | ⟨rfl, rfl⟩ | ⟨rfl, rfl⟩ | ⟨rfl, rfl⟩ |
      ⟨rfl, rfl⟩ | ⟨rfl, rfl⟩ <;> decide
  · have h0 : (runOk exStd (exSched.prog 0) exStart).isSome = true := by decide +kernel
    have h1 : (runOk exStd (exSched.prog 1) exStart).isSome = true := by decide +kernel
    dsimp only
    split
    · rename_i hi; subst hi; exact runOk_getD h0
    · split
      · rename_i hi; subst hi; exact runOk_getD h1
      · rename_i a b
        have : Schedule.prog exSched i = [] := by simp [Schedule.prog, exSched, List.filter_cons, Ne.symm a, Ne.symm b]
        rw [this]; exact .nil
  · decide +kernel
  · decide +kernel

def endsB (r : Bool) : Res Unit → Bool
  | .ok _ _ => r
  | .exn _ => !r
  | _ => false

def worldOf (w : World) : Res Unit → World
  | .ok _ w' | .exn w' => w'
  | _ => w

theorem ends_of {op : Op} {w : World} {r : Bool} (h : endsB r (exec cfg op w) = true) : Ends cfg op w r (worldOf w (exec cfg op w)) := by
  unfold Ends
  cases he : exec cfg op w <;> rw [he] at h <;> cases r <;> first | rfl | cases h

/-- `exStd` where the third of the calls that may throw (numbered from 0) throws. -/
def exFaulty : Cfg := { exStd with faults := fun n => n == 2 }

/-- Both threads copy object 4. If that throws they try once more; else they destroy the copy. -/
def exRetry (a : Nat) : Prog :=
  .step (.copyCtor a exMs 4) fun r => if r then .step (.dtor a) fun _ => .done else .step (.copyCtor a exMs 4) fun _ => .done

def exProgs (i : Nat) : Prog := if i = 0 then exRetry 0 else if i = 1 then exRetry 2 else .done

def exStart2 : World := ((exec exFaulty (.valueCtor 4 exMs 0 2 (.lit 7) false) .init).world?).getD .init

/-- Whichever calls throw, the threads do not break a rule. -/
theorem exRetry_safe {f : Nat → Bool} {a i : Nat} (hai : (a = 0 ∧ i = 0) ∨ (a = 2 ∧ i = 1)) :
    SafeAlone { exStd with faults := f } (only (sees exOwner i) exStart2) (exRetry a) := by
  have C : CfgOk { exStd with faults := f } := ⟨exTy_align, fun _ => rfl⟩
  have C' : CfgOk exFaulty := ⟨exTy_align, fun _ => rfl⟩
  have R : Reachable exFaulty exStart2 := by
    refine Reachable.ok (op := .valueCtor 4 exMs 0 2 (.lit 7) false) .init (by decide +kernel) ?_
    rfl
  have W0 : WF { exStd with faults := f } exStart2 :=
    let W := R.wf C'
    { any := fun a s h => ⟨(W.any a s h).destroyIn, (W.any a s h).shape, (W.any a s h).full, (W.any a s h).empty⟩
      blkInj := W.blkInj, objInj := W.objInj, owned := W.owned, freed := W.freed, beyondBlk := W.beyondBlk, destroyed := W.destroyed
      beyondObj := W.beyondObj, once := W.once }
  have W := fun F => fix_wf (onlyFix_wf (F := F) W0) (v := only F exStart2) ⟨rfl, rfl, Nat.le_refl _, Nat.le_refl _, Nat.le_refl _, fun _ _ => rfl⟩
  have e4 : snap (only (sees exOwner i) exStart2) 4 = snap exStart2 4 := only_snap (R.wf C') (by rcases hai with ⟨rfl, rfl⟩ | ⟨rfl, rfl⟩ <;> rfl)
  have ea : snap (only (sees exOwner i) exStart2) a = none := by
    rw [only_snap (R.wf C') (by rcases hai with ⟨rfl, rfl⟩ | ⟨rfl, rfl⟩ <;> rfl)]
    rcases hai with ⟨rfl, rfl⟩ | ⟨rfl, rfl⟩ <;> decide +kernel
  have lg : ∀ v : World, snap v a = none → snap v 4 = snap exStart2 4 → Legal { exStd with faults := f } v (.copyCtor a exMs 4) := by
    intro v h1 h2
    refine ⟨h1, by decide, ?_⟩
    rw [h2]
    have : Legal exFaulty exStart2 (.copyCtor 0 exMs 4) := by decide +kernel
    exact this.2.2
  have W := W (sees exOwner i)
  generalize only (sees exOwner i) exStart2 = v at e4 ea W ⊢
  refine safe_step (fun v1 E => lg v1 ((E.snap a).trans ea) ((E.snap 4).trans e4)) fun v1 r v2 E he => ?_
  have W1 : WF { exStd with faults := f } (fix v1) := fix_wf W ⟨E.anys, E.blks, E.nextBlk, E.nextObj, E.tick, E.born⟩
  obtain ⟨W2, hok, hex⟩ := alone_step C W1 (lg v1 ((E.snap a).trans ea) ((E.snap 4).trans e4)) he
  cases r with
  | true =>
    refine safe_step (fun v3 E3 => ?_) fun _ _ _ _ _ => safe_done
    show (snap v3 a).isSome
    rw [E3.snap]
    have h4 : (vals v1 4).isSome := by
      have h := (E.snap 4).trans e4
      have : (snap exStart2 4).isSome := by decide +kernel
      rw [← h] at this
      simpa [snap, vals] using this
    have := congrFun (hok rfl) a
    simp only [specStep, upd, if_true] at this
    rw [← this] at h4
    simpa [snap, vals] using h4
  | false =>
    refine safe_step (fun v3 E3 => lg v3 ?_ ?_) fun _ _ _ _ _ => safe_done
    · have := (hex rfl a).1
      rw [E.snap, ea] at this
      rw [E3.snap]; simpa using this
    · rw [E3.snap, (hex rfl 4).2 (fun h => h), E.snap, e4]

/-- The hypotheses of `C74_interleavings` hold for two threads of which one gets an exception. -/
example : CfgOk exFaulty ∧ Reachable exFaulty exStart2 ∧ (∀ i, (exProgs i).Uses exFaulty exOwner i) ∧
    (∀ i, SafeAlone exFaulty (only (sees exOwner i) exStart2) (exProgs i)) ∧
    ∃ w' P', Interleaved exFaulty exStart2 exProgs
      [(0, .copyCtor 0 exMs 4, false), (1, .copyCtor 2 exMs 4, true), (0, .copyCtor 0 exMs 4, true), (1, .dtor 2, true)] w' P' ∧
      vals w' 0 = some (some (2, 7)) ∧ vals w' 2 = none := by
  have C : CfgOk exFaulty := ⟨exTy_align, fun _ => rfl⟩
  have R : Reachable exFaulty exStart2 := by
    refine Reachable.ok (op := .valueCtor 4 exMs 0 2 (.lit 7) false) .init (by decide +kernel) ?_
    rfl
  have uses : ∀ a i, (a = 0 ∧ i = 0) ∨ (a = 2 ∧ i = 1) → (exRetry a).Uses exFaulty exOwner i := by
    rintro a i (⟨rfl, rfl⟩ | ⟨rfl, rfl⟩) <;> refine ⟨by decide, by decide, fun r => ?_⟩ <;> cases r <;>
      exact ⟨by decide, by decide, fun _ => trivial⟩
  have safe : ∀ a i, (a = 0 ∧ i = 0) ∨ (a = 2 ∧ i = 1) → SafeAlone exFaulty (only (sees exOwner i) exStart2) (exRetry a) := fun a i h => exRetry_safe h
  refine ⟨C, R, fun i => ?_, fun i => ?_, ?_⟩
  · unfold exProgs
    split
    · subst i; exact uses 0 0 (.inl ⟨rfl, rfl⟩)
    · split
      · subst i; exact uses 2 1 (.inr ⟨rfl, rfl⟩)
      · trivial
  · unfold exProgs
    split
    · subst i; exact safe 0 0 (.inl ⟨rfl, rfl⟩)
    · split
      · subst i; exact safe 2 1 (.inr ⟨rfl, rfl⟩)
      · exact safe_done
  · exact ⟨_, _, .step rfl (ends_of (by decide +kernel)) (.step rfl (ends_of (by decide +kernel)) (.step rfl (ends_of (by decide +kernel))
      (.step rfl (ends_of (by decide +kernel)) .nil))), by decide +kernel, by decide +kernel⟩

/-- A move assignment of object 0 (with memory) to object 1 (with memory) beside object 4 (with memory): the hypotheses of
`C74_accesses_only_operands` hold for `F` = {0, 1}. -/
example : ∃ w, Reachable exCfg w ∧ (Legal exCfg w (.moveAssign 1 0) ∧ (∀ a ∈ (Op.moveAssign 1 0).addrs, decide (a < 2) = true) ∧
    (memOf w 0).isSome = true ∧ (memOf w 1).isSome = true ∧ (memOf w 4).isSome = true ∧ (exec exCfg (.moveAssign 1 0) w).isOk = true) :=
  run_witness (ops := [.valueCtor 4 exMs 0 2 (.lit 7) false, .copyCtor 0 exMs 4, .valueCtor 1 exMs 1 2 (.lit 8) false]) (by decide +kernel)

/-- Object 4 (with memory) is copied: the hypotheses of `C74_const_operands_untouched` hold for it. -/
example : ∃ w, Reachable exCfg w ∧ (Legal exCfg w (.copyCtor 0 exMs 4) ∧ 4 ∈ (Op.copyCtor 0 exMs 4).addrs ∧ 4 ∉ (Op.copyCtor 0 exMs 4).writes exCfg ∧
    (memOf w 4).isSome = true ∧ (exec exCfg (.copyCtor 0 exMs 4) w).isOk = true) :=
  run_witness (ops := [.valueCtor 4 exMs 0 2 (.lit 7) false]) (by decide +kernel)

end AnyAny.Mem
