import Verif.Lemmas.FineThreads
import Verif.Spec.FineJoin
/-
The world after threads were joined is well-formed.
-/
namespace AnyAny.Fine
open AnyAny.Mem (Cfg Obj Ptr AnySt Blk World Res Op Prog WF CfgOk Alone SafeAlone Elapse OwnedBy only sees Legal Ends Reachable snap memOf fix onlyFix
  upd cellAt content Mono Rep)

variable {cfg : Cfg} {faults : Nat → Nat → Bool} {w : World} {owner : Nat → Option Nat} {P : Nat → Prog} {B N : Nat} {α β : Type}

/-! ### Counters do not influence anything -/

/-- The worlds differ at most in the counters, and these have increased by the same numbers since they were `d`, `f` and `e`, `g`. -/
structure Twin (d f e g : Nat → Nat) (u v : World) : Prop where
  anys : u.anys = v.anys
  blks : u.blks = v.blks
  nextBlk : u.nextBlk = v.nextBlk
  nextObj : u.nextObj = v.nextObj
  born : u.born = v.born
  copies : u.copies = v.copies
  tick : u.tick = v.tick
  dtors : ∀ i, u.dtors i + e i = v.dtors i + d i
  frees : ∀ b, u.frees b + g b = v.frees b + f b

theorem setCell_twin {d f e g : Nat → Nat} {u v v' : World} (T : Twin d f e g u v) {p : Ptr} {c : Option Obj} {x : Unit}
    (h : Mem.setCell p c v = .ok x v') : ∃ u', Mem.setCell p c u = .ok x u' ∧ Twin d f e g u' v' := by
  obtain ⟨an, bl, nb, no, bo, dt, fr, co, ti⟩ := u
  obtain ⟨an', bl', nb', no', bo', dt', fr', co', ti'⟩ := v
  obtain ⟨h1, h2, h3, h4, h5, h6, h7, h8, h9⟩ := T
  dsimp only at h1 h2 h3 h4 h5 h6 h7 h8 h9
  subst h1 h2 h3 h4 h5 h6 h7
  cases p with
  | data a =>
    simp only [Mem.setCell] at h ⊢
    split at h
    · cases h; exact ⟨_, rfl, rfl, rfl, rfl, rfl, rfl, rfl, rfl, h8, h9⟩
    · cases h
  | blk a =>
    simp only [Mem.setCell] at h ⊢
    split at h
    · cases h; exact ⟨_, rfl, rfl, rfl, rfl, rfl, rfl, rfl, rfl, h8, h9⟩
    · cases h

theorem exec_twin {d f e g : Nat → Nat} {u v v' : World} (T : Twin d f e g u v) {A : Act β} {b : β} (h : A.exec cfg v = .ok b v') :
    ∃ u', A.exec cfg u = .ok b u' ∧ Twin d f e g u' v' := by
  have T0 := T
  obtain ⟨an, bl, nb, no, bo, dt, fr, co, ti⟩ := u
  obtain ⟨an', bl', nb', no', bo', dt', fr', co', ti'⟩ := v
  obtain ⟨h1, h2, h3, h4, h5, h6, h7, h8, h9⟩ := T
  dsimp only at h1 h2 h3 h4 h5 h6 h7 h8 h9
  subst h1 h2 h3 h4 h5 h6 h7
  have hcell : ∀ p, cellAt ⟨an, bl, nb, no, bo, dt, fr, co, ti⟩ p = cellAt ⟨an, bl, nb, no, bo, dt', fr', co, ti⟩ p := fun p => by cases p <;> rfl
  cases A with
  | getAny a =>
    simp only [Act.exec, Mem.getAny] at h ⊢
    split at h <;> cases h
    exact ⟨_, rfl, T0⟩
  | newAny a s =>
    simp only [Act.exec, Mem.setAny] at h ⊢
    split at h <;> cases h
    rename_i hx
    rw [if_neg hx]
    exact ⟨_, rfl, rfl, rfl, rfl, rfl, rfl, rfl, rfl, h8, h9⟩
  | setAny a s =>
    cases h
    exact ⟨_, rfl, rfl, rfl, rfl, rfl, rfl, rfl, rfl, h8, h9⟩
  | dropSlot a =>
    cases h
    exact ⟨_, rfl, rfl, rfl, rfl, rfl, rfl, rfl, rfl, h8, h9⟩
  | readSize a =>
    simp only [Act.exec, Mem.readSize] at h ⊢
    (repeat' split at h) <;> cases h
    exact ⟨_, rfl, T0⟩
  | writeSize a n =>
    simp only [Act.exec, Mem.writeSize] at h ⊢
    split at h
    · split at h <;> cases h
      rename_i hx
      rw [if_pos hx]
      exact ⟨_, rfl, rfl, rfl, rfl, rfl, rfl, rfl, rfl, h8, h9⟩
    · cases h
  | readCell p =>
    simp only [Act.exec, hcell] at h ⊢
    split at h <;> cases h
    exact ⟨_, rfl, T0⟩
  | claim p t =>
    have hs : Mem.storageOk cfg ⟨an, bl, nb, no, bo, dt, fr, co, ti⟩ p t = Mem.storageOk cfg ⟨an, bl, nb, no, bo, dt', fr', co, ti⟩ p t := by
      cases p <;> rfl
    simp only [Act.exec, hs] at h ⊢
    split at h <;> cases h
    rename_i hx
    rw [if_pos hx]
    exact ⟨_, rfl, T0⟩
  | setCell p c => exact setCell_twin T0 h
  | destroyAt p t =>
    simp only [Act.exec, Mem.destroyAt, hcell] at h ⊢
    split at h
    · rename_i o ho
      split at h
      · rename_i ht
        simp only [ho, if_pos ht]
        refine setCell_twin ?_ h
        refine ⟨rfl, rfl, rfl, rfl, rfl, rfl, rfl, fun i => ?_, h9⟩
        have := h8 i
        simp only [upd]
        split
        · rename_i e; subst e; omega
        · exact this
      · cases h
    · cases h
  | newBlk al n =>
    cases h
    exact ⟨_, rfl, rfl, rfl, rfl, rfl, rfl, rfl, rfl, h8, h9⟩
  | deallocate al p n =>
    simp only [Act.exec, Mem.deallocate] at h ⊢
    cases p with
    | data a => cases h
    | blk b =>
      simp only [] at h ⊢
      split at h
      · rename_i k hk
        split at h
        · rename_i hx
          cases h
          rw [if_pos hx]
          refine ⟨_, rfl, rfl, rfl, rfl, rfl, rfl, rfl, rfl, h8, fun i => ?_⟩
          have := h9 i
          simp only [upd]
          split
          · rename_i e; subst e; omega
          · exact this
        · cases h
      · cases h
  | call =>
    cases h
    exact ⟨_, rfl, rfl, rfl, rfl, rfl, rfl, rfl, rfl, h8, h9⟩
  | freshObj t x =>
    cases h
    exact ⟨_, rfl, rfl, rfl, rfl, rfl, rfl, rfl, rfl, h8, h9⟩
  | countCopy =>
    cases h
    exact ⟨_, rfl, rfl, rfl, rfl, rfl, rfl, rfl, rfl, h8, h9⟩

theorem run_twin {d f e g : Nat → Nat} {u v v' : World} (T : Twin d f e g u v) {t : Tree α} :
    (∀ a, t.run cfg v = .ok a v' → ∃ u', t.run cfg u = .ok a u' ∧ Twin d f e g u' v') ∧
    (t.run cfg v = .exn v' → ∃ u', t.run cfg u = .exn u' ∧ Twin d f e g u' v') := by
  induction t generalizing u v with
  | ret a => exact ⟨fun _ h => by cases h; exact ⟨u, rfl, T⟩, fun h => by cases h⟩
  | exn => exact ⟨fun _ h => by (cases h), fun h => by cases h; exact ⟨u, rfl, T⟩⟩
  | ub => exact ⟨fun _ h => by (cases h), fun h => by cases h⟩
  | term => exact ⟨fun _ h => by (cases h), fun h => by cases h⟩
  | act A k ih =>
    rcases exec_cases (cfg := cfg) A v with h | ⟨b, v1, h⟩
    · simp only [Tree.run, h]; exact ⟨fun _ h => by (cases h), fun h => by cases h⟩
    · obtain ⟨u1, h1, T1⟩ := exec_twin T h
      simp only [Tree.run, h, h1]
      exact ih b T1

theorem Steps.twin (C : CfgOk cfg) {d f e g : Nat → Nat} {u v v' : World} {p p' : Prog} {t : List (Op × Bool)} (h : Steps cfg v p t v' p')
    (T : Twin d f e g u v) (W : WF cfg u) : ∃ u', Twin d f e g u' v' ∧ WF cfg u' ∧ Mono v v' := by
  induction h generalizing u with
  | nil => exact ⟨u, T, W, .refl _⟩
  | @step v op next r v1 t v' p' L e _ ih =>
    have hcell : ∀ p, cellAt u p = cellAt v p := fun p => by cases p <;> simp only [cellAt, T.anys, T.blks]
    have hsnap : ∀ a, snap u a = snap v a := fun a => by
      have hc : content u a = content v a := by unfold content; simp only [hcell, T.anys]
      simp only [snap, hc, memOf, T.anys, T.blks]
    have L' : Legal cfg u op := Mem.legal_congr (fun a _ => hsnap a) T.tick L
    have R := run_twin (cfg := cfg) (v' := v1) T (t := exec cfg op)
    rw [run_exec] at R
    have M : Mono v v1 := by
      unfold Ends at e
      cases r with
      | true => exact (Mem.mono_exec op v).1 () v1 e
      | false => exact (Mem.mono_exec op v).2 v1 e
    unfold Ends at e
    cases r with
    | true =>
      obtain ⟨u1, h1, T1⟩ := R.1 () e
      have W1 : WF cfg u1 := by
        rcases Mem.step_spec C (Rep.of_wf W) op L' with ⟨w0, σ', e0, S⟩ | ⟨w0, σ', e0, S⟩ | ⟨_, e0⟩ <;> rw [h1] at e0 <;> cases e0
        exact S.rep.wf
      obtain ⟨u', T', W', M'⟩ := ih T1 W1
      exact ⟨u', T', W', M.trans M'⟩
    | false =>
      obtain ⟨u1, h1, T1⟩ := R.2 e
      have W1 : WF cfg u1 := by
        rcases Mem.step_spec C (Rep.of_wf W) op L' with ⟨w0, σ', e0, S⟩ | ⟨w0, σ', e0, S⟩ | ⟨_, e0⟩ <;> rw [h1] at e0 <;> cases e0
        exact S.rep.wf
      obtain ⟨u', T', W', M'⟩ := ih T1 W1
      exact ⟨u', T', W', M.trans M'⟩

/-! ### The end of a thread -/

/-- How often thread `i` destroyed the object `id`. -/
def dd (w : World) (m : Machine) (i id : Nat) : Nat := (m.priv i).dtors id - w.dtors id

/-- How often thread `i` gave the block `b` back. -/
def df (w : World) (m : Machine) (i b : Nat) : Nat := (m.priv i).frees b - w.frees b

/-- A well-formed world with the memory that thread `i` sees in the end. -/
structure End (cfg : Cfg) (w : World) (owner : Nat → Option Nat) (P : Nat → Prog) (B : Nat) (m : Machine) (i : Nat) (u : World) : Prop where
  anys : u.anys = (view w owner B m i).anys
  blks : u.blks = (view w owner B m i).blks
  nextBlk : u.nextBlk = (m.priv i).nextBlk
  nextObj : u.nextObj = (m.priv i).nextObj
  born : u.born = (m.priv i).born
  wf : WF cfg u
  room : Room w B i (m.priv i)
  first : w.nextObj + i * B ≤ (m.priv i).nextObj
  old : ∀ id, id < w.nextObj → (m.priv i).born id = w.born id
  dtors : ∀ id, u.dtors id = (fix (view w owner B (.init w P B) i)).dtors id + dd w m i id
  frees : ∀ b, u.frees b = (fix (view w owner B (.init w P B) i)).frees b + df w m i b
  inv : Inv (Owns w owner B i) (lo w B i) (lo w B (i + 1)) u

theorem Good.ended (C : CfgOk cfg) (W : WF cfg w) {tr : List Event} {m : Machine} {i : Nat} {v0 : World} {p : Prog}
    (G : Good cfg faults w owner P B tr m i v0) (hi : m.thread i = .idle p) : ∃ u, End cfg w owner P B m i u := by
  obtain ⟨e0, I⟩ := G.idle _ hi
  have hst := G.steps
  rw [e0] at hst
  have W0 : WF (cfgOf cfg faults i) (fix (view w owner B (.init w P B) i)) :=
    Mem.fix_wf (Mem.onlyFix_wf (F := sees owner i) (wf_faults W i))
      (by have E := start_elapse (P := P) (B := B) (owner := owner) W i; exact ⟨E.anys, E.blks, E.nextBlk, E.nextObj, E.tick, E.born⟩)
  obtain ⟨u, T, Wu, M⟩ := hst.twin (cfgOk C i) (u := fix (view w owner B (.init w P B) i))
    (d := (fix (view w owner B (.init w P B) i)).dtors) (f := (fix (view w owner B (.init w P B) i)).frees) (e := w.dtors) (g := w.frees)
    ⟨rfl, rfl, rfl, rfl, rfl, rfl, rfl, fun _ => Nat.add_comm _ _, fun _ => Nat.add_comm _ _⟩ W0
  refine ⟨u, T.anys, T.blks, T.nextBlk, T.nextObj, T.born, ?_, G.last, M.obj, fun id h => ?_, fun id => ?_, fun b => ?_, ?_⟩
  · exact wf_faults (cfg := cfgOf cfg faults i) (faults := fun _ => cfg.faults) Wu 0
  · exact M.born id (Nat.lt_of_lt_of_le h (Nat.le_add_right _ _))
  · have h1 := T.dtors id
    have h2 : w.dtors id ≤ (m.priv i).dtors id := M.dtors id
    have h3 : (view w owner B m i).dtors id = (m.priv i).dtors id := rfl
    unfold dd
    omega
  · have h1 := T.frees b
    have h2 : w.frees b ≤ (m.priv i).frees b := M.frees b
    have h3 : (view w owner B m i).frees b = (m.priv i).frees b := rfl
    unfold df
    omega
  · refine ⟨I.range, ?_, fun c s h1 h2 => I.any c s h1 ?_⟩
    · rw [T.nextBlk]; exact I.next
    · rw [← T.anys]; exact h2

/-! ### Sums with at most one summand -/

theorem sum_zero {N : Nat} {f : Nat → Nat} (h : ∀ j, j < N → f j = 0) : ((List.range N).map f).sum = 0 := by
  induction N with
  | zero => rfl
  | succ n ih =>
    rw [List.range_succ, List.map_append, List.sum_append, ih fun j hj => h j (by omega)]
    simp [h n (by omega)]

theorem sum_one {N i : Nat} {f : Nat → Nat} (hi : i < N) (h : ∀ j, j < N → j ≠ i → f j = 0) : ((List.range N).map f).sum = f i := by
  induction N with
  | zero => omega
  | succ n ih =>
    rw [List.range_succ, List.map_append, List.sum_append]
    by_cases e : i = n
    · subst e
      rw [sum_zero fun j hj => h j (by omega) (by omega)]
      simp
    · rw [ih (by omega) fun j hj hj' => h j (by omega) hj']
      simp [h n (by omega) (Ne.symm e)]

/-! ### The end of all threads -/

theorem init_content (W : WF cfg w) (i a : Nat) :
    content (view w owner B (.init w P B) i) a = if sees owner i a then content w a else none := by
  have E := start_elapse (P := P) (B := B) (owner := owner) W i
  have hcell : ∀ p, cellAt (view w owner B (.init w P B) i) p = cellAt (only (sees owner i) w) p := fun p => by
    cases p <;> simp only [cellAt, E.anys, E.blks]
  have : content (view w owner B (.init w P B) i) a = content (only (sees owner i) w) a := by
    unfold content; simp only [hcell, E.anys]
  rw [this]
  cases h : sees owner i a with
  | true => simp only [if_true]; exact Mem.only_content W h
  | false => simp only [Bool.false_eq_true, if_false]; exact Mem.only_content_none h

section
variable {m : Machine} {i : Nat} {u : World}

theorem End.cell (E : End cfg w owner P B m i u) {q : Ptr} {o : Obj} (h : cellAt u q = some o) : cellAt (m.joined w N B) q = some o := by
  cases q with
  | data a =>
    simp only [cellAt, E.anys, view, Machine.joined] at h ⊢
    split at h
    · exact h
    · cases h
  | blk b =>
    simp only [cellAt, E.blks, view, Machine.joined] at h ⊢
    split at h
    · exact h
    · cases h

theorem End.anysOf (E : End cfg w owner P B m i u) {a : Nat} {s : AnySt} (h : u.anys a = some s) : m.anys a = some s ∧ sees owner i a = true := by
  simp only [E.anys, view] at h
  split at h
  · rename_i hv
    exact ⟨h, by simpa [Vis, Owns, Shared, sees] using hv⟩
  · cases h

theorem End.blksOf (E : End cfg w owner P B m i u) {b : Nat} {k : Blk} (h : u.blks b = some k) : m.blks b = some k ∧ Vis w owner B i (.blk b) := by
  simp only [E.blks, view] at h
  split at h
  · rename_i hv
    exact ⟨h, hv⟩
  · cases h

theorem End.blksVis (E : End cfg w owner P B m i u) {b : Nat} (h : Vis w owner B i (.blk b)) : u.blks b = m.blks b := by
  simp only [E.blks, view, h, if_true]

theorem End.anysVis (E : End cfg w owner P B m i u) {a : Nat} (h : sees owner i a = true) : u.anys a = m.anys a := by
  have hv : Vis w owner B i (.any a) := by simpa [Vis, Owns, Shared, sees] using h
  simp only [E.anys, view, hv, if_true]

theorem End.contentOf (E : End cfg w owner P B m i u) {a : Nat} {o : Obj} (h : content u a = some o) :
    content (m.joined w N B) a = some o ∧ sees owner i a = true := by
  unfold content at h ⊢
  cases hs : u.anys a with
  | none => rw [hs] at h; cases h
  | some s =>
    obtain ⟨h1, h2⟩ := E.anysOf hs
    rw [hs] at h
    refine ⟨?_, h2⟩
    rw [show (m.joined w N B).anys a = some s from h1]
    simp only [Option.bind_some] at h ⊢
    split at h
    · rename_i hv
      rw [if_pos hv]
      exact E.cell h
    · cases h

/-- The part of the memory that belongs to an object is the same in the part that a thread sees. -/
theorem End.cellVis (E : End cfg w owner P B m i u) {a : Nat} {s : AnySt} (h : u.anys a = some s) :
    cellAt u s.vp = cellAt (m.joined w N B) s.vp := by
  rcases (E.wf.any a s h).shape with h1 | ⟨b, k, h1, hk, _⟩
  · rw [h1]
    obtain ⟨h2, h3⟩ := E.anysOf h
    simp only [cellAt]
    rw [E.anysVis h3]
    rfl
  · rw [h1]
    obtain ⟨h2, h3⟩ := E.blksOf hk
    simp only [cellAt]
    rw [E.blksVis h3]
    rfl

theorem End.contentVis (E : End cfg w owner P B m i u) {a : Nat} (h : sees owner i a = true) : content u a = content (m.joined w N B) a := by
  unfold content
  rw [show (m.joined w N B).anys a = u.anys a from (E.anysVis h).symm]
  cases hs : u.anys a with
  | none => rfl
  | some s => simp only [Option.bind_some, E.cellVis (N := N) hs]

theorem content_ok (W : WF cfg w) {a : Nat} {o : Obj} (h : content w a = some o) : o.id < w.nextObj ∧ w.born o.id = o.ty ∧ w.dtors o.id = 0 := by
  unfold content at h
  cases hs : w.anys a with
  | none => rw [hs] at h; cases h
  | some s =>
    rw [hs] at h
    simp only [Option.bind_some] at h
    cases hv : s.vt with
    | none => rw [hv] at h; cases h
    | some v =>
      simp only [hv, Option.isSome_some, if_true] at h
      obtain ⟨o', h1, _, _, h4, h5, h6, _⟩ := (W.any a s hs).full v hv
      rw [h] at h1
      cases h1
      exact ⟨h4, h5, h6⟩

/-- Objects that a thread sees in the end it saw in the beginning, or it made them. -/
theorem End.whence (W : WF cfg w) (E : End cfg w owner P B m i u) {id : Nat} (h0 : u.dtors id = 0) (h1 : id < u.nextObj) :
    (id < w.nextObj ∧ ∃ a o, sees owner i a = true ∧ content w a = some o ∧ o.id = id) ∨ (w.nextObj ≤ id ∧ w.nextObj + i * B ≤ id) := by
  have hd := E.dtors id
  rw [h0] at hd
  by_cases hc : ∃ a o, content (view w owner B (.init w P B) i) a = some o ∧ o.id = id
  · obtain ⟨a, o, hc, rfl⟩ := hc
    rw [init_content W] at hc
    split at hc
    · rename_i hs
      exact .inl ⟨(content_ok W hc).1, a, o, hs, hc, rfl⟩
    · cases hc
  · simp only [fix, hc, if_false] at hd
    split at hd
    · omega
    · rename_i hn
      have hn : ¬ id < w.nextObj + i * B := hn
      right; omega

end

/-- All threads have ended. -/
structure Over (cfg : Cfg) (faults : Nat → Nat → Bool) (w : World) (owner : Nat → Option Nat) (P : Nat → Prog) (N B : Nat) (tr : List Event)
    (m : Machine) (U : Nat → World) : Prop where
  wf : WF cfg w
  fork : Fork cfg faults w owner P N
  all : GoodAll cfg faults w owner P B tr m
  ends : ∀ i, End cfg w owner P B m i (U i)
  idle : ∀ i, m.thread i = .idle .done

section
variable {m : Machine} {U : Nat → World} {tr : List Event}

theorem Over.shared (H : Over cfg faults w owner P N B tr m U) {a : Nat} (h : owner a = none) : m.anys a = w.anys a :=
  (H.all.shared H.wf (.any a) 0 h).symm

theorem Over.sharedBlk (H : Over cfg faults w owner P N B tr m U) {b : Nat} (h : Shared w owner (.blk b)) : m.blks b = w.blks b :=
  (H.all.shared H.wf (.blk b) 0 h).symm

theorem shared_blk (W : WF cfg w) {a b : Nat} {s : AnySt} (h : owner a = none) (hs : w.anys a = some s) (hv : s.vp = .blk b) :
    Shared w owner (.blk b) := Mem.only_blk (F := fun a => owner a == none) W (by simp [h]) hs hv

theorem own_blk (W : WF cfg w) {i a b : Nat} {s : AnySt} (h : owner a = some i) (hs : w.anys a = some s) (hv : s.vp = .blk b) :
    Owns w owner B i (.blk b) := .inr (Mem.only_blk (F := fun a => owner a == some i) W (by simp [h]) hs hv)

theorem Over.sharedCell (H : Over cfg faults w owner P N B tr m U) {a : Nat} {s : AnySt} (h : owner a = none) (hs : w.anys a = some s) :
    cellAt (m.joined w N B) s.vp = cellAt w s.vp := by
  rcases (H.wf.any a s hs).shape with h1 | ⟨b, k, h1, hk, _⟩
  · rw [h1]
    simp only [cellAt]
    rw [show (m.joined w N B).anys a = w.anys a from H.shared h]
  · rw [h1]
    simp only [cellAt]
    rw [show (m.joined w N B).blks b = w.blks b from H.sharedBlk (shared_blk H.wf h hs h1)]

theorem Over.sharedContent (H : Over cfg faults w owner P N B tr m U) {a : Nat} (h : owner a = none) :
    content (m.joined w N B) a = content w a := by
  unfold content
  rw [show (m.joined w N B).anys a = w.anys a from H.shared h]
  cases hs : w.anys a with
  | none => rfl
  | some s => simp only [Option.bind_some, H.sharedCell h hs]

/-- A thread destroys objects that it owned in the beginning, and objects that it made. -/
theorem Over.dd (H : Over cfg faults w owner P N B tr m U) {i id : Nat} (h : dd w m i id ≠ 0) :
    (∃ a o, owner a = some i ∧ content w a = some o ∧ o.id = id) ∨
      (w.nextObj ≤ id ∧ w.nextObj + i * B ≤ id ∧ id < (m.priv i).nextObj) := by
  have E := H.ends i
  have hd := E.dtors id
  have hlt : id < (U i).nextObj := by
    rcases Nat.lt_or_ge id (U i).nextObj with h1 | h1
    · exact h1
    · have := E.wf.beyondObj id h1; omega
  have hone := E.wf.once id hlt
  by_cases hc : ∃ a o, content (view w owner B (.init w P B) i) a = some o ∧ o.id = id
  · obtain ⟨a, o, hc, rfl⟩ := hc
    rw [init_content H.wf] at hc
    split at hc
    · rename_i hs
      left
      refine ⟨a, o, ?_, hc, rfl⟩
      cases ho : owner a with
      | some j =>
        simp only [sees, ho, Bool.or_eq_true, beq_iff_eq, reduceCtorEq, or_false, Option.some.injEq] at hs
        rw [hs]
      | none =>
        have h1 : content (U i) a = some o := by rw [E.contentVis (N := N) hs, H.sharedContent ho]; exact hc
        have := (content_ok E.wf h1).2.2
        omega
    · cases hc
  · simp only [fix, hc, if_false] at hd
    split at hd
    · omega
    · rename_i hn
      have hn : ¬ id < w.nextObj + i * B := hn
      exact .inr ⟨by omega, by omega, E.nextObj ▸ hlt⟩

/-- A thread gives back blocks that it owns. -/
theorem Over.df (H : Over cfg faults w owner P N B tr m U) {i b : Nat} (h : df w m i b ≠ 0) :
    Owns w owner B i (.blk b) ∧ (w.nextBlk ≤ b → lo w B i ≤ b ∧ b < (m.priv i).nextBlk) := by
  have E := H.ends i
  have hd := E.frees b
  have hlt : b < (U i).nextBlk := by
    rcases Nat.lt_or_ge b (U i).nextBlk with h1 | h1
    · exact h1
    · have := (E.wf.beyondBlk b h1).2; omega
  have hf := E.wf.freed b hlt
  have hone : (U i).frees b ≤ 1 := by rw [hf]; split <;> omega
  have hr : (U i).nextBlk ≤ lo w B (i + 1) := by rw [E.nextBlk]; exact E.room.1
  by_cases hc : ((view w owner B (.init w P B) i).blks b).isSome = true
  · obtain ⟨k, hk⟩ := Option.isSome_iff_exists.1 hc
    have hk' := hk
    simp only [view] at hk'
    split at hk'
    · rename_i hv
      have hk' : w.blks b = some k := hk'
      have hbl : b < w.nextBlk := by
        rcases Nat.lt_or_ge b w.nextBlk with h1 | h1
        · exact h1
        · rw [(H.wf.beyondBlk b h1).1] at hk'; cases hk'
      rcases hv with hv | hv
      · exact ⟨hv, fun h => by omega⟩
      · exfalso
        have h1 : (U i).blks b = some k := by rw [E.blksVis (.inr hv), H.sharedBlk hv]; exact hk'
        rw [h1] at hf
        simp only [Option.isSome_some, if_true] at hf
        omega
    · cases hk'
  · simp only [Bool.not_eq_true] at hc
    simp only [fix, hc, Bool.false_eq_true, if_false] at hd
    split at hd
    · omega
    · rename_i hn
      have hn : ¬ b < w.nextBlk + i * B := hn
      have h1 : lo w B i ≤ b := by unfold lo; omega
      exact ⟨.inl ⟨h1, by omega⟩, fun _ => ⟨h1, E.nextBlk ▸ hlt⟩⟩

theorem rng_div {i x : Nat} (h : i * B ≤ x) (h' : x < (i + 1) * B) : x / B = i := Nat.div_eq_of_lt_le h h'

theorem rng_le {i : Nat} (h : i < N) : (i + 1) * B ≤ N * B := Nat.mul_le_mul_right B h

theorem rng_mem {x : Nat} (h : x < N * B) : x / B < N ∧ x / B * B ≤ x ∧ x < (x / B + 1) * B := by
  have hB : 0 < B := by
    rcases Nat.eq_zero_or_pos B with e | e
    · rw [e] at h; omega
    · exact e
  refine ⟨(Nat.div_lt_iff_lt_mul hB).2 h, Nat.div_mul_le_self x B, ?_⟩
  have := Nat.div_add_mod x B
  have h2 := Nat.mod_lt x hB
  rw [Nat.succ_mul, Nat.mul_comm]
  omega

/-- The destructor calls for an object that was there in the beginning and was owned by thread `i`. -/
theorem Over.dtors_own (H : Over cfg faults w owner P N B tr m U) {i a : Nat} {o : Obj} (ha : owner a = some i) (hc : content w a = some o) :
    (m.joined w N B).dtors o.id = (U i).dtors o.id := by
  have K := content_ok H.wf hc
  have hi := H.fork.owners a i ha
  have hm : m.Made w N B o.id := .inl K.1
  have hs : ((List.range N).map fun j => (m.priv j).dtors o.id - w.dtors o.id).sum = Fine.dd w m i o.id := by
    refine sum_one hi fun j _ hj => ?_
    rcases Nat.eq_zero_or_pos (Fine.dd w m j o.id) with h | h
    · exact h
    · rcases H.dd (by omega : Fine.dd w m j o.id ≠ 0) with ⟨c, p, h1, h2, h3⟩ | ⟨h1, _⟩
      · have := H.wf.objInj c a p o h2 hc h3
        subst this
        rw [ha] at h1
        exact absurd (Option.some.inj h1).symm hj
      · omega
  have hv : ∃ a' o', content (view w owner B (.init w P B) i) a' = some o' ∧ o'.id = o.id :=
    ⟨a, o, by rw [init_content H.wf, if_pos (by simp [sees, ha])]; exact hc, rfl⟩
  have h0 : (fix (view w owner B (.init w P B) i)).dtors o.id = 0 := by simp only [fix, hv, if_true]
  have hd := (H.ends i).dtors o.id
  simp only [Machine.joined, hm, if_true, Machine.dtorsOf, hs]
  have := K.2.2
  omega

/-- The destructor calls for other objects that were there in the beginning. -/
theorem Over.dtors_other (H : Over cfg faults w owner P N B tr m U) {id : Nat} (hlt : id < w.nextObj)
    (h : ∀ i a o, owner a = some i → content w a = some o → o.id ≠ id) : (m.joined w N B).dtors id = w.dtors id := by
  have hs : ((List.range N).map fun j => (m.priv j).dtors id - w.dtors id).sum = 0 := by
    refine sum_zero fun j _ => ?_
    rcases Nat.eq_zero_or_pos (Fine.dd w m j id) with h' | h'
    · exact h'
    · rcases H.dd (by omega : Fine.dd w m j id ≠ 0) with ⟨c, p, h1, h2, h3⟩ | ⟨h1, _⟩
      · exact absurd h3 (h j c p h1 h2)
      · omega
  have hm : m.Made w N B id := .inl hlt
  simp only [Machine.joined, hm, if_true, Machine.dtorsOf, hs, Nat.add_zero]

/-- The objects that thread `i` made. -/
theorem Over.dtors_new (H : Over cfg faults w owner P N B tr m U) {i id : Nat} (hi : i < N) (h1 : w.nextObj + i * B ≤ id)
    (h2 : id < (m.priv i).nextObj) : (m.joined w N B).dtors id = (U i).dtors id ∧ (m.joined w N B).born id = (U i).born id := by
  have hr := (H.ends i).room.2
  have hdiv : (id - w.nextObj) / B = i := rng_div (by omega) (by omega)
  have hm : m.Made w N B id := .inr ⟨i, hi, h1, h2⟩
  have hge : w.nextObj ≤ id := by omega
  have hs : ((List.range N).map fun j => (m.priv j).dtors id - w.dtors id).sum = Fine.dd w m i id := by
    refine sum_one hi fun j _ hj => ?_
    rcases Nat.eq_zero_or_pos (Fine.dd w m j id) with h | h
    · exact h
    · rcases H.dd (by omega : Fine.dd w m j id ≠ 0) with ⟨c, p, h3, h4, h5⟩ | ⟨_, h3, h4⟩
      · have := (content_ok H.wf h4).1
        omega
      · have := (H.ends j).room.2
        exact absurd ((rng_div (i := j) (B := B) (x := id - w.nextObj) (by omega) (by omega)).symm.trans hdiv) hj
  have hv : ¬ ∃ a' o', content (view w owner B (.init w P B) i) a' = some o' ∧ o'.id = id := by
    rintro ⟨a, o, hc, rfl⟩
    rw [init_content H.wf] at hc
    split at hc
    · have := (content_ok H.wf hc).1; omega
    · cases hc
  have h0 : (fix (view w owner B (.init w P B) i)).dtors id = 0 := by
    simp only [fix, hv, if_false]
    exact if_neg (by show ¬ id < w.nextObj + i * B; omega)
  have hd := (H.ends i).dtors id
  have hw := H.wf.beyondObj id hge
  constructor
  · simp only [Machine.joined, hm, if_true, Machine.dtorsOf, hs]
    omega
  · simp only [Machine.joined, Machine.typeOf, hdiv, (H.ends i).born]
    rw [if_neg (by omega)]

/-- Objects that thread `i` sees in the end have not been destroyed. -/
theorem Over.live (H : Over cfg faults w owner P N B tr m U) {i a : Nat} {o : Obj} (hi : i < N) (hc : content (U i) a = some o) :
    (m.joined w N B).dtors o.id = 0 ∧ (m.joined w N B).born o.id = o.ty ∧ o.id < (m.joined w N B).nextObj := by
  have E := H.ends i
  have K := content_ok E.wf hc
  have hr := E.room.2
  have hN := rng_le (B := B) hi
  have hlt := E.nextObj
  refine ⟨?_, ?_, by show o.id < w.nextObj + N * B; omega⟩
  · rcases E.whence H.wf K.2.2 K.1 with ⟨h1, a0, o0, hs, h2, h3⟩ | ⟨h1, h2⟩
    · cases ho : owner a0 with
      | some j =>
        simp only [sees, ho, Bool.or_eq_true, beq_iff_eq, reduceCtorEq, or_false, Option.some.injEq] at hs
        subst hs
        rw [← h3, H.dtors_own ho h2, h3]
        exact K.2.2
      | none =>
        rw [H.dtors_other h1, ← h3]
        · exact (content_ok H.wf h2).2.2
        · intro j c p hj hp he
          have := H.wf.objInj c a0 p o0 hp h2 (he.trans h3.symm)
          subst this
          rw [ho] at hj; cases hj
    · rw [(H.dtors_new hi h2 (by omega)).1]; exact K.2.2
  · rcases E.whence H.wf K.2.2 K.1 with ⟨h1, a0, o0, hs, h2, h3⟩ | ⟨h1, h2⟩
    · show m.typeOf w B o.id = o.ty
      unfold Machine.typeOf
      rw [if_pos h1, ← E.old _ h1, ← E.born]
      exact K.2.1
    · rw [(H.dtors_new hi h2 (by omega)).2]; exact K.2.1

/-- How often blocks were given back. -/
theorem Over.freesJ (H : Over cfg faults w owner P N B tr m U) {b : Nat} (hlt : b < w.nextBlk + N * B) :
    (m.joined w N B).frees b = if (m.blks b).isSome then 0 else 1 := by
  have none_of : ∀ {b}, (∀ j, ¬ Owns w owner B j (.blk b)) → ((List.range N).map fun j => (m.priv j).frees b - w.frees b).sum = 0 := by
    intro b h
    refine sum_zero fun j _ => ?_
    rcases Nat.eq_zero_or_pos (Fine.df w m j b) with h' | h'
    · exact h'
    · exact absurd (H.df (by omega : Fine.df w m j b ≠ 0)).1 (h j)
  have one_of : ∀ {b i}, i < N → Owns w owner B i (.blk b) →
      ((List.range N).map fun j => (m.priv j).frees b - w.frees b).sum = Fine.df w m i b := by
    intro b i hi h
    refine sum_one hi fun j _ hj => ?_
    rcases Nat.eq_zero_or_pos (Fine.df w m j b) with h' | h'
    · exact h'
    · exact absurd (.inl (H.df (by omega : Fine.df w m j b ≠ 0)).1) (owns_not_vis H.wf (Ne.symm hj) h)
  rcases Nat.lt_or_ge b w.nextBlk with hb | hb
  · have hm : m.Allocated w N B b := .inl hb
    have hf := H.wf.freed b hb
    simp only [Machine.joined, hm, if_true, Machine.freesOf]
    by_cases hown : ∃ j, Owns w owner B j (.blk b)
    · obtain ⟨j, hj⟩ := hown
      have ho : OwnedBy (fun a => owner a == some j) w b := by
        rcases hj with h | h
        · have := h.1; unfold lo at this; omega
        · exact h
      obtain ⟨a, n, ha, hm⟩ := ho
      simp only [beq_iff_eq] at ha
      have hjN := H.fork.owners a j ha
      have hsome : (w.blks b).isSome = true := by
        unfold memOf at hm
        cases hs : w.anys a with
        | none => rw [hs] at hm; cases hm
        | some s =>
          rw [hs] at hm
          simp only [Option.bind_some] at hm
          split at hm
          · cases hm
          · obtain ⟨k, hk, e⟩ := Option.map_eq_some_iff.1 hm
            cases e
            rw [hk]; rfl
      rw [hsome, if_pos rfl] at hf
      rw [one_of hjN hj]
      have E := H.ends j
      have hd := E.frees b
      have h0 : (fix (view w owner B (.init w P B) j)).frees b = 0 := by
        have : (view w owner B (.init w P B) j).blks b = w.blks b := by
          have hv : Vis w owner B j (.blk b) := .inl hj
          simp only [view, hv, if_true]; rfl
        simp only [fix, this, hsome, if_true]
      have h1 : b < (U j).nextBlk := by
        have := E.inv.next
        unfold lo at this
        omega
      have h2 := E.wf.freed b h1
      rw [E.blksVis (.inl hj)] at h2
      omega
    · have hn : ∀ j, ¬ Owns w owner B j (.blk b) := fun j h => hown ⟨j, h⟩
      rw [none_of hn]
      have : w.blks b = m.blks b := H.all.rest (.blk b) 0 hn
      rw [← this]
      omega
  · obtain ⟨hi, h1, h2⟩ := rng_mem (x := b - w.nextBlk) (N := N) (B := B) (by omega)
    obtain ⟨i, hi'⟩ : ∃ i, i = (b - w.nextBlk) / B := ⟨_, rfl⟩
    rw [← hi'] at hi h1 h2
    have hown : Owns w owner B i (.blk b) := .inl ⟨by unfold lo; omega, by unfold lo; omega⟩
    have E := H.ends i
    rcases Nat.lt_or_ge b (m.priv i).nextBlk with h3 | h3
    · have hm : m.Allocated w N B b := .inr ⟨i, hi, by omega, h3⟩
      simp only [Machine.joined, hm, if_true, Machine.freesOf]
      rw [one_of hi hown]
      have hw := (H.wf.beyondBlk b hb)
      have hd := E.frees b
      have h0 : (fix (view w owner B (.init w P B) i)).frees b = 0 := by
        have : (view w owner B (.init w P B) i).blks b = none := by
          have hv : Vis w owner B i (.blk b) := .inl hown
          simp only [view, hv, if_true]
          exact hw.1
        simp only [fix, this, Option.isSome_none, Bool.false_eq_true, if_false]
        exact if_neg (by show ¬ b < w.nextBlk + i * B; omega)
      have h4 := E.wf.freed b (by rw [E.nextBlk]; exact h3)
      rw [E.blksVis (.inl hown)] at h4
      omega
    · have hm : ¬ m.Allocated w N B b := by
        rintro (h | ⟨j, hj, h4, h5⟩)
        · omega
        · have hr := (H.ends j).room.1
          have e1 := rng_div (i := j) (B := B) (x := b - w.nextBlk) (by omega) (by omega)
          have e2 : j = i := e1.symm.trans hi'.symm
          subst e2
          omega
      have hb0 : m.blks b = none := by
        rw [← E.blksVis (.inl hown)]
        exact (E.wf.beyondBlk b (by rw [E.nextBlk]; exact h3)).1
      simp only [Machine.joined, hm, if_false, hlt, if_true, hb0]
      rfl

theorem Over.beyond (H : Over cfg faults w owner P N B tr m U) {b : Nat} (hge : w.nextBlk + N * B ≤ b) : m.blks b = none := by
  have hw : w.blks b = none := (H.wf.beyondBlk b (by omega)).1
  by_cases hown : ∃ j, Owns w owner B j (.blk b)
  · obtain ⟨j, hj⟩ := hown
    have hlo : lo w B j ≤ b ∧ b < lo w B (j + 1) := by
      rcases hj with h | h
      · exact h
      · have := owned_lt H.wf h; omega
    have hjN : N ≤ j := by
      rcases Nat.lt_or_ge j N with h | h
      · have := rng_le (B := B) h
        unfold lo at hlo
        omega
      · exact h
    obtain ⟨v0, G⟩ := H.all.good j
    obtain ⟨e0, _⟩ := G.idle _ (H.idle j)
    have hst := G.steps
    rw [H.fork.threads j hjN] at hst
    have hsame : view w owner B m j = view w owner B (.init w P B) j := by
      rw [← e0]
      generalize opsOf tr j = t, (m.thread j).prog = q at hst
      cases hst
      rfl
    have hv : Vis w owner B j (.blk b) := .inl hj
    have h1 : (view w owner B m j).blks b = m.blks b := by simp only [view, hv, if_true]
    have h2 : (view w owner B (.init w P B) j).blks b = w.blks b := by simp only [view, hv, if_true]; rfl
    rw [← h1, hsame, h2, hw]
  · rw [← hw]
    exact (H.all.rest (.blk b) 0 fun j h => hown ⟨j, h⟩).symm

/-- The world after the threads were joined is well-formed. -/
theorem Over.joined (H : Over cfg faults w owner P N B tr m U) : WF cfg (m.joined w N B) := by
  have W := H.wf
  have own_end : ∀ {i a s b}, owner a = some i → m.anys a = some s → s.vp = .blk b → Owns w owner B i (.blk b) := by
    intro i a s b ha hs hb
    have h1 : (U i).anys a = some s := by rw [(H.ends i).anysVis (by simp [sees, ha])]; exact hs
    have := (H.ends i).inv.any a s ha h1
    rw [hb] at this
    exact this
  have none_end : ∀ {a s b}, owner a = none → m.anys a = some s → s.vp = .blk b → Shared w owner (.blk b) := by
    intro a s b ha hs hb
    rw [H.shared ha] at hs
    exact shared_blk W ha hs hb
  refine { any := ?_, blkInj := ?_, objInj := ?_, owned := ?_, freed := ?_, beyondBlk := ?_, destroyed := ?_, beyondObj := ?_, once := ?_ }
  · intro a s hs
    have hs : m.anys a = some s := hs
    cases ho : owner a with
    | some i =>
      have hi := H.fork.owners a i ho
      have E := H.ends i
      have hv : sees owner i a = true := by simp [sees, ho]
      have hs' : (U i).anys a = some s := (E.anysVis hv).trans hs
      have A := E.wf.any a s hs'
      have hcell := E.cellVis (N := N) hs'
      refine ⟨A.destroyIn, ?_, ?_, ?_⟩
      · rcases A.shape with h1 | ⟨b, k, h1, h2, h3⟩
        · exact .inl h1
        · exact .inr ⟨b, k, h1, (E.blksOf h2).1, h3⟩
      · intro v hvt
        obtain ⟨o, h1, h2, h3, _, _, _, h7, h8⟩ := A.full v hvt
        have hc : content (U i) a = some o := by simp only [content, hs', Option.bind_some, hvt, Option.isSome_some, if_true, h1]
        have L := H.live hi hc
        refine ⟨o, hcell.symm.trans h1, h2, h3, L.2.2, L.2.1, L.1, h7, fun b k hb hk => h8 b k hb ?_⟩
        rw [E.blksVis (.inl (own_end ho hs hb))]
        exact hk
      · intro hvt; rw [← hcell]; exact A.empty hvt
    | none =>
      have hs' : w.anys a = some s := (H.shared ho).symm.trans hs
      have A := W.any a s hs'
      have hcell := H.sharedCell ho hs'
      refine ⟨A.destroyIn, ?_, ?_, ?_⟩
      · rcases A.shape with h1 | ⟨b, k, h1, h2, h3⟩
        · exact .inl h1
        · exact .inr ⟨b, k, h1, (H.sharedBlk (shared_blk W ho hs' h1)).trans h2, h3⟩
      · intro v hvt
        obtain ⟨o, h1, h2, h3, h4, h5, h6, h7, h8⟩ := A.full v hvt
        have hc : content w a = some o := by simp only [content, hs', Option.bind_some, hvt, Option.isSome_some, if_true, h1]
        refine ⟨o, hcell.trans h1, h2, h3, Nat.lt_of_lt_of_le h4 (Nat.le_add_right _ _), ?_, ?_, h7, fun b k hb hk => h8 b k hb ?_⟩
        · exact (if_pos h4).trans h5
        · rw [H.dtors_other h4]
          · exact h6
          · intro i c p hp hcp he
            have := W.objInj c a p o hcp hc he
            subst this
            rw [ho] at hp; cases hp
        · exact (H.sharedBlk (shared_blk W ho hs' hb)).symm.trans hk
      · intro hvt; rw [hcell]; exact A.empty hvt
  · intro a s c t b hs ht hb hb'
    have hs : m.anys a = some s := hs
    have ht : m.anys c = some t := ht
    cases ha : owner a with
    | some i =>
      have h1 := own_end ha hs hb
      cases hc : owner c with
      | some j =>
        have h2 := own_end hc ht hb'
        by_cases e : i = j
        · subst e
          have E := H.ends i
          exact E.wf.blkInj a s c t b ((E.anysVis (by simp [sees, ha])).trans hs) ((E.anysVis (by simp [sees, hc])).trans ht) hb hb'
        · exact absurd (.inl h2) (owns_not_vis W e h1)
      | none => exact absurd (none_end hc ht hb') (owns_not_shared W h1)
    | none =>
      have h1 := none_end ha hs hb
      cases hc : owner c with
      | some j => exact absurd h1 (owns_not_shared W (own_end hc ht hb'))
      | none => exact W.blkInj a s c t b ((H.shared ha).symm.trans hs) ((H.shared hc).symm.trans ht) hb hb'
  · -- an object that a thread contains in the end and a shared object are different
    have mixed : ∀ {i a c o p}, owner a = some i → owner c = none → content (m.joined w N B) a = some o → content (m.joined w N B) c = some p →
        o.id = p.id → False := by
      intro i a c o p ha hc h1 h2 he
      have E := H.ends i
      rw [← E.contentVis (by simp [sees, ha])] at h1
      rw [← E.contentVis (by simp [sees, hc])] at h2
      have := E.wf.objInj a c o p h1 h2 he
      subst this
      rw [ha] at hc; cases hc
    intro a c o p h1 h2 he
    cases ha : owner a with
    | some i =>
      cases hc : owner c with
      | some j =>
        by_cases e : i = j
        · subst e
          have E := H.ends i
          rw [← E.contentVis (by simp [sees, ha])] at h1
          rw [← E.contentVis (by simp [sees, hc])] at h2
          exact E.wf.objInj a c o p h1 h2 he
        · exfalso
          have h1' := h1
          have h2' := h2
          rw [← (H.ends i).contentVis (by simp [sees, ha])] at h1'
          rw [← (H.ends j).contentVis (by simp [sees, hc])] at h2'
          have K1 := content_ok (H.ends i).wf h1'
          have K2 := content_ok (H.ends j).wf h2'
          rcases (H.ends i).whence W K1.2.2 K1.1 with ⟨hlt, a0, o0, s1, c1, e1⟩ | ⟨g1, g2⟩
          · rcases (H.ends j).whence W K2.2.2 K2.1 with ⟨_, a1, o1, s2, c2, e2⟩ | ⟨g1, _⟩
            · have := W.objInj a0 a1 o0 o1 c1 c2 (e1.trans (he.trans e2.symm))
              subst this
              cases ho : owner a0 with
              | some k =>
                simp only [sees, ho, Bool.or_eq_true, beq_iff_eq, reduceCtorEq, or_false, Option.some.injEq] at s1 s2
                exact e (s1.symm.trans s2)
              | none => exact mixed ha ho h1 ((H.sharedContent ho).trans c1) e1.symm
            · omega
          · rcases (H.ends j).whence W K2.2.2 K2.1 with ⟨hlt, _⟩ | ⟨g3, g4⟩
            · omega
            · have r1 := (H.ends i).room.2
              have r2 := (H.ends j).room.2
              have n1 := (H.ends i).nextObj
              have n2 := (H.ends j).nextObj
              have d1 := rng_div (i := i) (B := B) (x := o.id - w.nextObj) (by omega) (by omega)
              have d2 := rng_div (i := j) (B := B) (x := o.id - w.nextObj) (by omega) (by omega)
              exact e (d1.symm.trans d2)
      | none => exact absurd he (fun he => mixed ha hc h1 h2 he)
    | none =>
      cases hc : owner c with
      | some j => exact absurd he.symm (fun he => mixed hc ha h2 h1 he)
      | none =>
        rw [H.sharedContent ha] at h1
        rw [H.sharedContent hc] at h2
        exact W.objInj a c o p h1 h2 he
  · intro b k hk
    have hk : m.blks b = some k := hk
    by_cases hown : ∃ j, Owns w owner B j (.blk b)
    · obtain ⟨j, hj⟩ := hown
      have E := H.ends j
      obtain ⟨a, s, h1, h2⟩ := E.wf.owned b k ((E.blksVis (.inl hj)).trans hk)
      exact ⟨a, s, (E.anysOf h1).1, h2⟩
    · have hn : ∀ j, ¬ Owns w owner B j (.blk b) := fun j h => hown ⟨j, h⟩
      have hb : w.blks b = m.blks b := H.all.rest (.blk b) 0 hn
      obtain ⟨a, s, h1, h2⟩ := W.owned b k (hb.trans hk)
      cases ho : owner a with
      | some j => exact absurd (own_blk W ho h1 h2) (hn j)
      | none => exact ⟨a, s, (H.shared ho).trans h1, h2⟩
  · intro b hb
    exact H.freesJ hb
  · intro b hb
    have hb : w.nextBlk + N * B ≤ b := hb
    refine ⟨H.beyond hb, ?_⟩
    have hm : ¬ m.Allocated w N B b := by
      rintro (h | ⟨j, hj, h4, h5⟩)
      · omega
      · have hr := (H.ends j).room.1
        have := rng_le (B := B) hj
        omega
    simp only [Machine.joined, hm, if_false]
    exact if_neg (by omega)
  · intro id hid ht
    have hid : id < w.nextObj + N * B := hid
    rcases Nat.lt_or_ge id w.nextObj with hlt | hge
    · have hty : (m.joined w N B).born id = w.born id := if_pos hlt
      rw [hty] at ht
      by_cases hown : ∃ i a o, owner a = some i ∧ content w a = some o ∧ o.id = id
      · obtain ⟨i, a, o, ho, hc, rfl⟩ := hown
        have E := H.ends i
        rw [H.dtors_own ho hc]
        have h1 : o.id < (U i).nextObj := by have := E.first; rw [E.nextObj]; omega
        have h2 : (U i).born o.id = w.born o.id := by rw [E.born]; exact E.old _ hlt
        rcases E.wf.destroyed o.id h1 (by rw [h2]; exact ht) with h3 | ⟨h3, c, p, h4, h5⟩
        · exact .inl h3
        · exact .inr ⟨h3, c, p, (E.contentOf h4).1, h5⟩
      · rw [H.dtors_other hlt fun i a o h1 h2 h3 => hown ⟨i, a, o, h1, h2, h3⟩]
        rcases W.destroyed id hlt ht with h3 | ⟨h3, c, p, h4, h5⟩
        · exact .inl h3
        · cases ho : owner c with
          | some i => exact absurd ⟨i, c, p, ho, h4, h5⟩ hown
          | none => exact .inr ⟨h3, c, p, (H.sharedContent ho).trans h4, h5⟩
    · obtain ⟨hi, h1, h2⟩ := rng_mem (x := id - w.nextObj) (N := N) (B := B) (by omega)
      obtain ⟨i, hi'⟩ : ∃ i, i = (id - w.nextObj) / B := ⟨_, rfl⟩
      rw [← hi'] at hi h1 h2
      have E := H.ends i
      rcases Nat.lt_or_ge id (m.priv i).nextObj with h3 | h3
      · obtain ⟨e1, e2⟩ := H.dtors_new hi (by omega : w.nextObj + i * B ≤ id) h3
        rw [e2] at ht
        rw [e1]
        rcases E.wf.destroyed id (by rw [E.nextObj]; exact h3) ht with h4 | ⟨h4, c, p, h5, h6⟩
        · exact .inl h4
        · exact .inr ⟨h4, c, p, (E.contentOf h5).1, h6⟩
      · left
        have hm : ¬ m.Made w N B id := by
          rintro (h | ⟨j, hj, h4, h5⟩)
          · omega
          · have hr := (H.ends j).room.2
            have e1 := rng_div (i := j) (B := B) (x := id - w.nextObj) (by omega) (by omega)
            have e2 : j = i := e1.symm.trans hi'.symm
            subst e2
            omega
        simp only [Machine.joined, hm, if_false, hid, if_true]
  · intro id hid
    have hid : w.nextObj + N * B ≤ id := hid
    have hm : ¬ m.Made w N B id := by
      rintro (h | ⟨j, hj, h4, h5⟩)
      · omega
      · have hr := (H.ends j).room.2
        have := rng_le (B := B) hj
        omega
    simp only [Machine.joined, hm, if_false]
    exact if_neg (by omega)
  · intro id hid
    have hid : id < w.nextObj + N * B := hid
    rcases Nat.lt_or_ge id w.nextObj with hlt | hge
    · by_cases hown : ∃ i a o, owner a = some i ∧ content w a = some o ∧ o.id = id
      · obtain ⟨i, a, o, ho, hc, rfl⟩ := hown
        have E := H.ends i
        rw [H.dtors_own ho hc]
        exact E.wf.once _ (by have := E.first; rw [E.nextObj]; omega)
      · rw [H.dtors_other hlt fun i a o h1 h2 h3 => hown ⟨i, a, o, h1, h2, h3⟩]
        exact W.once id hlt
    · obtain ⟨hi, h1, h2⟩ := rng_mem (x := id - w.nextObj) (N := N) (B := B) (by omega)
      obtain ⟨i, hi'⟩ : ∃ i, i = (id - w.nextObj) / B := ⟨_, rfl⟩
      rw [← hi'] at hi h1 h2
      have E := H.ends i
      rcases Nat.lt_or_ge id (m.priv i).nextObj with h3 | h3
      · rw [(H.dtors_new hi (by omega : w.nextObj + i * B ≤ id) h3).1]
        exact E.wf.once id (by rw [E.nextObj]; exact h3)
      · have hm : ¬ m.Made w N B id := by
          rintro (h | ⟨j, hj, h4, h5⟩)
          · omega
          · have hr := (H.ends j).room.2
            have e1 := rng_div (i := j) (B := B) (x := id - w.nextObj) (by omega) (by omega)
            have e2 : j = i := e1.symm.trans hi'.symm
            subst e2
            omega
        simp only [Machine.joined, hm, if_false, hid, if_true]
        exact Nat.le_refl _

end

theorem over (C : CfgOk cfg) (W : WF cfg w) (F : Fork cfg faults w owner P N) {tr : List Event} {m : Machine}
    (run : Exec cfg faults w P B tr m) (hi : ∀ i, m.thread i = .idle .done) : ∃ U, Over cfg faults w owner P N B tr m U := by
  have G := goodAll C W F.uses F.safe run
  have h : ∀ i, ∃ u, End cfg w owner P B m i u := fun i => by
    obtain ⟨v0, g⟩ := G.good i
    exact g.ended C W (hi i)
  exact ⟨fun i => (h i).choose, W, F, G, fun i => (h i).choose_spec, hi⟩

theorem join_wf (C : CfgOk cfg) (W : WF cfg w) (F : Fork cfg faults w owner P N) {tr : List Event} {m : Machine}
    (run : Exec cfg faults w P B tr m) (hi : ∀ i, m.thread i = .idle .done) : WF cfg (m.joined w N B) := by
  obtain ⟨U, H⟩ := over C W F run hi
  exact H.joined

theorem ends_wf (C : CfgOk cfg) (W : WF cfg w) {op : Op} {r : Bool} {w' : World} (L : Legal cfg w op) (e : Ends cfg op w r w') : WF cfg w' := by
  unfold Ends at e
  rcases Mem.step_spec C (Rep.of_wf W) op L with ⟨w0, σ', e0, S⟩ | ⟨w0, σ', e0, S⟩ | ⟨_, e0⟩ <;> cases r <;>
    simp only [if_true, Bool.false_eq_true, if_false] at e <;> rw [e] at e0 <;> cases e0
  · exact S.rep.wf
  · exact S.rep.wf

theorem skip_wf {top : Names} (W : WF cfg w) (h : (namesOf w).Le top) : WF cfg (skip top w) := by
  obtain ⟨h1, h2, h3⟩ := h
  have h1 : w.nextBlk ≤ top.blk := h1
  have h2 : w.nextObj ≤ top.obj := h2
  have hcell : ∀ p, cellAt (skip top w) p = cellAt w p := fun p => by cases p <;> rfl
  have hcont : ∀ a, content (skip top w) a = content w a := fun a => by unfold content; simp only [hcell]; rfl
  refine { any := ?_, blkInj := W.blkInj, objInj := ?_, owned := W.owned, freed := ?_, beyondBlk := ?_, destroyed := ?_, beyondObj := ?_, once := ?_ }
  · intro a s hs
    have A := W.any a s hs
    refine ⟨A.destroyIn, A.shape, fun v hv => ?_, fun hv => by rw [hcell]; exact A.empty hv⟩
    obtain ⟨o, i1, i2, i3, i4, i5, i6, i7, i8⟩ := A.full v hv
    refine ⟨o, (hcell _).trans i1, i2, i3, Nat.lt_of_lt_of_le i4 h2, i5, ?_, i7, i8⟩
    show w.dtors o.id + _ = 0
    rw [i6, if_neg (by omega)]
  · intro a c o p i1 i2; exact W.objInj a c o p ((hcont a).symm.trans i1) ((hcont c).symm.trans i2)
  · intro b hb
    have hb : b < top.blk := hb
    show w.frees b + _ = if (w.blks b).isSome then 0 else 1
    rcases Nat.lt_or_ge b w.nextBlk with h | h
    · rw [if_neg (by omega), W.freed b h]; rfl
    · rw [if_pos ⟨h, hb⟩, (W.beyondBlk b h).1, (W.beyondBlk b h).2]; rfl
  · intro b hb
    have hb : top.blk ≤ b := hb
    refine ⟨(W.beyondBlk b (by omega)).1, ?_⟩
    show w.frees b + _ = 0
    rw [if_neg (by omega), (W.beyondBlk b (by omega)).2]
  · intro id hid ht
    have hid : id < top.obj := hid
    show w.dtors id + _ = 1 ∨ (w.dtors id + _ = 0 ∧ _)
    simp only [hcont]
    rcases Nat.lt_or_ge id w.nextObj with h | h
    · rw [if_neg (by omega)]; exact W.destroyed id h ht
    · rw [if_pos ⟨h, hid⟩, W.beyondObj id h]; exact .inl rfl
  · intro id hid
    have hid : top.obj ≤ id := hid
    show w.dtors id + _ = 0
    rw [if_neg (by omega), W.beyondObj id (by omega)]
  · intro id hid
    have hid : id < top.obj := hid
    show w.dtors id + _ ≤ 1
    rcases Nat.lt_or_ge id w.nextObj with h | h
    · rw [if_neg (by omega)]; exact W.once id h
    · rw [if_pos ⟨h, hid⟩, W.beyondObj id h]; exact Nat.le_refl _

theorem Session.wf (C : CfgOk cfg) (h : Session cfg w) : WF cfg w := by
  induction h with
  | init => exact Mem.WF_init
  | op _ L e ih => exact ends_wf C ih L e
  | skip _ hn ih => exact skip_wf ih hn
  | join _ F run hi ih => exact join_wf C ih F run hi

end AnyAny.Fine
