import Verif.Lemmas.AnyMemStep
import Verif.Spec.AnyRun
namespace AnyAny.Mem
open AnyAny.TypeList
variable {cfg : Cfg}

theorem run_reachable {ops : List Op} {w w' : World} (h : Reachable cfg w)
    (hr : run cfg ops w = .done w') : Reachable cfg w' := by
  induction ops generalizing w with
  | nil => cases hr; exact h
  | cons op ops ih =>
    unfold run at hr
    split at hr
    · rename_i L
      split at hr
      · rename_i he; exact ih (.ok h L he) hr
      · rename_i he; exact ih (.exn h L he) hr
      · cases hr
      · cases hr
    · cases hr

theorem run_append {ops ops' : List Op} {w w' : World} (h : run cfg ops w = .done w') :
    run cfg (ops ++ ops') w = run cfg ops' w' := by
  induction ops generalizing w with
  | nil => cases h; rfl
  | cons op ops ih =>
    unfold run at h
    rw [List.cons_append, run]
    split at h
    · rename_i L
      rw [if_pos L]
      split at h
      · exact ih h
      · exact ih h
      · cases h
      · cases h
    · cases h

/-- A history that got through witnesses a reachable world. -/
theorem run_witness {ops : List Op} {P : World → Prop} [DecidablePred P]
    (h : (run cfg ops .init).world?.any (fun w => decide (P w)) = true) : ∃ w, Reachable cfg w ∧ P w := by
  cases hr : run cfg ops .init with
  | done w =>
    rw [hr] at h
    exact ⟨w, run_reachable .init hr, by simpa [Outcome.world?] using h⟩
  | stuck => rw [hr] at h; cases h
  | ub => rw [hr] at h; cases h
  | term => rw [hr] at h; cases h

/-- Everything known about a world. -/
def absOf (w : World) : Abs := ⟨snap w, w.nextBlk, w.nextObj, w.copies⟩

theorem Reachable.rep (C : CfgOk cfg) {w : World} (h : Reachable cfg w) : Rep cfg w (absOf w) :=
  Rep.of_wf (h.wf C)

theorem step_ok (C : CfgOk cfg) {w w' : World} {op : Op} (h : Reachable cfg w) (L : Legal cfg w op)
    (he : exec cfg op w = .ok () w') : ∃ σ', StepOk cfg w (absOf w) op w' σ' := by
  rcases step_spec C (h.rep C) op L with ⟨w1, σ', h', S⟩ | ⟨w1, σ', h', S⟩ | ⟨_, h'⟩
  · rw [he] at h'; cases h'; exact ⟨σ', S⟩
  · rw [he] at h'; cases h'
  · rw [he] at h'; cases h'

theorem step_exn (C : CfgOk cfg) {w w' : World} {op : Op} (h : Reachable cfg w) (L : Legal cfg w op)
    (he : exec cfg op w = .exn w') : ∃ σ', StepExn cfg w (absOf w) op w' σ' := by
  rcases step_spec C (h.rep C) op L with ⟨w1, σ', h', S⟩ | ⟨w1, σ', h', S⟩ | ⟨_, h'⟩
  · rw [he] at h'; cases h'
  · rw [he] at h'; cases h'; exact ⟨σ', S⟩
  · rw [he] at h'; cases h'

theorem absOf_vals (w : World) : (absOf w).vals = vals w := by
  funext c
  simp only [Abs.vals, absOf, snap, vals, view, Snap.val, Option.map_map]; rfl

theorem absOf_metas (w : World) : (absOf w).metas = metas w := by
  funext c
  simp only [Abs.metas, absOf, snap, metas, Option.map_map]; rfl

theorem Rep.vals' {w : World} {σ : Abs} (R : Rep cfg w σ) : AnyAny.Mem.vals w = σ.vals := by
  rw [← absOf_vals]; unfold Abs.vals absOf; simp only [R.snaps]

theorem Rep.metas' {w : World} {σ : Abs} (R : Rep cfg w σ) : AnyAny.Mem.metas w = σ.metas := by
  rw [← absOf_metas]; unfold Abs.metas absOf; simp only [R.snaps]

theorem snap_some {w : World} {a : Nat} (h : alive w a) :
    ∃ s, snap w a = some s ∧ content w a = s.obj ∧ memOf w a = s.mem ∧ methodsOf w a = some s.ms ∧
      allocOf w a = some s.al ∧ view w a = s.val := by
  unfold alive at h
  obtain ⟨st, hst⟩ := Option.isSome_iff_exists.1 h
  exact ⟨⟨st.ms, st.al, memOf w a, content w a⟩, by simp only [snap, hst, Option.map_some], rfl, rfl,
    by simp [methodsOf, hst], by simp [allocOf, hst], rfl⟩

theorem of_snap {w : World} {a : Nat} {s : Snap} (h : snap w a = some s) :
    alive w a ∧ content w a = s.obj ∧ memOf w a = s.mem ∧ methodsOf w a = some s.ms ∧
      allocOf w a = some s.al ∧ view w a = s.val := by
  cases hst : w.anys a with
  | none => simp [snap, hst] at h
  | some st =>
    simp only [snap, hst, Option.map_some, Option.some.injEq] at h
    subst h
    exact ⟨by simp [alive, hst], rfl, rfl, by simp [methodsOf, hst], by simp [allocOf, hst], rfl⟩

theorem snap_none {w : World} {a : Nat} (h : ¬ alive w a) : snap w a = none ∧ content w a = none ∧ memOf w a = none := by
  cases hst : w.anys a with
  | none => simp [snap, content, memOf, hst]
  | some st => simp [alive, hst] at h

/-- A block is live iff some any owns it. -/
theorem blk_owned {w : World} (W : WF cfg w) (b : Nat) :
    (w.blks b).isSome ↔ ∃ a n, memOf w a = some (b, n) := by
  constructor
  · intro h
    obtain ⟨k, hk⟩ := Option.isSome_iff_exists.1 h
    obtain ⟨a, s, h1, h2⟩ := W.owned b k hk
    exact ⟨a, k.size, by simp [memOf, h1, h2, hk]⟩
  · rintro ⟨a, n, h⟩
    cases hs : w.anys a with
    | none => simp [memOf, hs] at h
    | some s =>
      simp only [memOf, hs, Option.bind_some] at h
      split at h
      · cases h
      · cases hk : w.blks ‹_› with
        | none => rw [hk] at h; cases h
        | some k => rw [hk] at h; cases h; rw [hk]; rfl

theorem memOf_some {w : World} (W : WF cfg w) {a b n : Nat} (h : memOf w a = some (b, n)) :
    ∃ s k, w.anys a = some s ∧ s.vp = .blk b ∧ w.blks b = some k ∧ k.size = n ∧ s.buf = .size n ∧
      allocEq cfg k.al s.al = true := by
  cases hs : w.anys a with
  | none => simp [memOf, hs] at h
  | some s =>
    simp only [memOf, hs, Option.bind_some] at h
    cases hv : s.vp with
    | data d => rw [hv] at h; cases h
    | blk b' =>
      rw [hv] at h
      simp only [] at h
      obtain ⟨k, hk, h2, h3⟩ := vp_blk W hs hv
      rw [hk] at h
      simp only [Option.map_some, Option.some.injEq, Prod.mk.injEq] at h
      obtain ⟨rfl, rfl⟩ := h
      exact ⟨s, k, rfl, hv, hk, rfl, h2, h3⟩

theorem frees_eq {w w' : World} (W : WF cfg w) (W' : WF cfg w') (hn : w'.nextBlk = w.nextBlk)
    (hm : ∀ c, (memOf w' c).map (·.1) = (memOf w c).map (·.1)) : w'.frees = w.frees := by
  have key : ∀ b, (w'.blks b).isSome = (w.blks b).isSome := by
    intro b
    rw [Bool.eq_iff_iff, blk_owned W', blk_owned W]
    have aux : ∀ (m : Option (Nat × Nat)), (∃ n, m = some (b, n)) ↔ m.map (·.1) = some b := by
      intro m
      cases m with
      | none => simp
      | some p => obtain ⟨x, y⟩ := p; simp
    simp only [aux, hm]
  funext b
  by_cases hb : b < w.nextBlk
  · rw [W'.freed b (by omega), W.freed b hb, key]
  · rw [(W'.beyondBlk b (by omega)).2, (W.beyondBlk b (by omega)).2]

/-- An object of an any that is gone from there was destroyed. -/
theorem old_destroyed {w w' : World} (W : WF cfg w) (W' : WF cfg w') {a : Nat} {o : Obj}
    (ho : content w a = some o) (hn : (cfg.ty o.ty).trivDestr = false)
    (hmono : w.nextObj ≤ w'.nextObj) (hborn : w'.born o.id = w.born o.id)
    (hnew : ∀ p, content w' a = some p → p.id ≠ o.id)
    (hoth : ∀ c, c ≠ a → content w' c = content w c) : w'.dtors o.id = 1 := by
  obtain ⟨s, v, h1, h2, h3, h4, h5, h6, h7, h8, h9⟩ := content_full W ho
  rcases W'.destroyed o.id (by omega) (by rw [hborn, h7]; exact hn) with h | ⟨_, c, p, hp, hid⟩
  · exact h
  · exfalso
    by_cases hc : c = a
    · subst hc; exact hnew p hp hid
    · rw [hoth c hc] at hp
      exact hc (W.objInj c a p o hp ho hid)

end AnyAny.Mem
