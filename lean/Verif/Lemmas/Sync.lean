import Verif.Lemmas.FineJoin
import Verif.Spec.Sync
/-
Threads that take turns with objects: at all times the state is that after the operations were executed one after the other, in the order in which they
began, apart from the objects that operations in progress modify.
-/
namespace AnyAny.Sync
open AnyAny.Fine (Loc Act Tree locOf SameAt SameBook Present exec_local exec_writes exec_reads exec_cases exec_le accesses_congr world_ext Inv Disc Safe
  Names namesOf skip skip_wf ends_wf run_exec owned_lt owned_inj snap_congr)
open AnyAny.Mem (Cfg Obj Ptr AnySt Blk World Res Op WF CfgOk OwnedBy only Legal Ends snap memOf fix onlyFix upd cellAt)

variable {cfg : Cfg} {w : World} {α β : Type}

theorem writes_addrs {op : Op} {a : Nat} (h : a ∈ op.writes cfg) : a ∈ op.addrs := by
  cases op with
  | valueCtor _ _ _ _ arg _ => cases arg <;> simp_all [Op.writes, Op.addrs]
  | forceCtor _ _ _ arg _ => cases arg <;> simp_all [Op.writes, Op.addrs]
  | emplace _ _ arg _ => cases arg <;> simp_all [Op.writes, Op.addrs]
  | invoke a' m x =>
    simp only [Op.writes] at h
    split at h
    · exact h
    · cases h
  | copyAssign a' o t => simp only [Op.writes, Op.addrs, List.mem_cons, List.not_mem_nil, or_false] at h ⊢; omega
  | castCopy _ _ => cases h
  | _ => first | exact h | (simp only [Op.writes, Op.addrs, List.mem_cons, List.not_mem_nil, or_false] at h ⊢; omega)

/-! ### Counters do not influence anything -/

/-- `g` is like `v`, but its counters were those of `c` in the beginning, when `v` had counted nothing. -/
structure Add (c v g : World) : Prop where
  anys : g.anys = v.anys
  blks : g.blks = v.blks
  nextBlk : g.nextBlk = v.nextBlk
  nextObj : g.nextObj = v.nextObj
  tick : g.tick = v.tick
  copies : g.copies = c.copies + v.copies
  born : ∀ id, g.born id = if c.nextObj ≤ id then v.born id else c.born id
  dtors : ∀ id, g.dtors id = c.dtors id + v.dtors id
  frees : ∀ b, g.frees b = c.frees b + v.frees b
  first : c.nextObj ≤ v.nextObj

theorem setCell_add {c v g v' : World} (T : Add c v g) {p : Ptr} {o : Option Obj} {x : Unit}
    (h : Mem.setCell p o v = .ok x v') : ∃ g', Mem.setCell p o g = .ok x g' ∧ Add c v' g' := by
  obtain ⟨an, bl, nb, no, bo, dt, fr, co, ti⟩ := g
  obtain ⟨an', bl', nb', no', bo', dt', fr', co', ti'⟩ := v
  obtain ⟨h1, h2, h3, h4, h5, h6, h7, h8, h9, h10⟩ := T
  dsimp only at h1 h2 h3 h4 h5 h6 h7 h8 h9 h10
  subst h1 h2 h3 h4 h5
  cases p with
  | data a =>
    simp only [Mem.setCell] at h ⊢
    split at h
    · cases h; exact ⟨_, rfl, rfl, rfl, rfl, rfl, rfl, h6, h7, h8, h9, h10⟩
    · cases h
  | blk a =>
    simp only [Mem.setCell] at h ⊢
    split at h
    · cases h; exact ⟨_, rfl, rfl, rfl, rfl, rfl, rfl, h6, h7, h8, h9, h10⟩
    · cases h

theorem exec_add {c v g v' : World} (T : Add c v g) {A : Act β} {b : β} (h : A.exec cfg v = .ok b v') :
    ∃ g', A.exec cfg g = .ok b g' ∧ Add c v' g' := by
  have T0 := T
  obtain ⟨an, bl, nb, no, bo, dt, fr, co, ti⟩ := g
  obtain ⟨an', bl', nb', no', bo', dt', fr', co', ti'⟩ := v
  obtain ⟨h1, h2, h3, h4, h5, h6, h7, h8, h9, h10⟩ := T
  dsimp only at h1 h2 h3 h4 h5 h6 h7 h8 h9 h10
  subst h1 h2 h3 h4 h5
  have hcell : ∀ p, cellAt ⟨an, bl, nb, no, bo, dt, fr, co, ti⟩ p = cellAt ⟨an, bl, nb, no, bo', dt', fr', co', ti⟩ p := fun p => by cases p <;> rfl
  cases A with
  | getAny a =>
    simp only [Act.exec, Mem.getAny] at h ⊢
    split at h <;> cases h
    exact ⟨_, rfl, T0⟩
  | newAny a s =>
    simp only [Act.exec, Mem.setAny] at h ⊢
    split at h <;> cases h
    rename_i hx
    rw [if_neg hx]
    exact ⟨_, rfl, rfl, rfl, rfl, rfl, rfl, h6, h7, h8, h9, h10⟩
  | setAny a s =>
    cases h
    exact ⟨_, rfl, rfl, rfl, rfl, rfl, rfl, h6, h7, h8, h9, h10⟩
  | dropSlot a =>
    cases h
    exact ⟨_, rfl, rfl, rfl, rfl, rfl, rfl, h6, h7, h8, h9, h10⟩
  | readSize a =>
    simp only [Act.exec, Mem.readSize] at h ⊢
    (repeat' split at h) <;> cases h
    exact ⟨_, rfl, T0⟩
  | writeSize a n =>
    simp only [Act.exec, Mem.writeSize] at h ⊢
    split at h
    · split at h <;> cases h
      rename_i hx
      rw [if_pos hx]
      exact ⟨_, rfl, rfl, rfl, rfl, rfl, rfl, h6, h7, h8, h9, h10⟩
    · cases h
  | readCell p =>
    simp only [Act.exec, hcell] at h ⊢
    split at h <;> cases h
    exact ⟨_, rfl, T0⟩
  | claim p t =>
    have hs : Mem.storageOk cfg ⟨an, bl, nb, no, bo, dt, fr, co, ti⟩ p t = Mem.storageOk cfg ⟨an, bl, nb, no, bo', dt', fr', co', ti⟩ p t := by
      cases p <;> rfl
    simp only [Act.exec, hs] at h ⊢
    split at h <;> cases h
    rename_i hx
    rw [if_pos hx]
    exact ⟨_, rfl, T0⟩
  | setCell p c => exact setCell_add T0 h
  | destroyAt p t =>
    simp only [Act.exec, Mem.destroyAt, hcell] at h ⊢
    split at h
    · rename_i o ho
      split at h
      · rename_i ht
        simp only [ho, if_pos ht]
        refine setCell_add ?_ h
        refine ⟨rfl, rfl, rfl, rfl, rfl, h6, h7, fun i => ?_, h9, h10⟩
        have := h8 i
        simp only [upd]
        split
        · rename_i e; subst e; omega
        · exact this
      · cases h
    · cases h
  | newBlk al n =>
    cases h
    exact ⟨_, rfl, rfl, rfl, rfl, rfl, rfl, h6, h7, h8, h9, h10⟩
  | deallocate al p n =>
    simp only [Act.exec, Mem.deallocate] at h ⊢
    cases p with
    | data a => cases h
    | blk b =>
      simp only [] at h ⊢
      split at h
      · rename_i k hk
        split at h
        · rename_i hx
          cases h
          rw [if_pos hx]
          refine ⟨_, rfl, rfl, rfl, rfl, rfl, rfl, h6, h7, h8, fun i => ?_, h10⟩
          have := h9 i
          simp only [upd]
          split
          · rename_i e; subst e; omega
          · exact this
        · cases h
      · cases h
  | call =>
    cases h
    exact ⟨_, rfl, rfl, rfl, rfl, rfl, rfl, h6, h7, h8, h9, h10⟩
  | freshObj t x =>
    cases h
    refine ⟨_, rfl, rfl, rfl, rfl, rfl, rfl, h6, fun id => ?_, h8, h9, Nat.le_succ_of_le h10⟩
    have := h7 id
    simp only [upd]
    split
    · rename_i e; subst e; rw [if_pos h10]
    · exact this
  | countCopy =>
    cases h
    exact ⟨_, rfl, rfl, rfl, rfl, rfl, rfl, by simp only [h6]; omega, h7, h8, h9, h10⟩

theorem exec_add_ub {c v g : World} (T : Add c v g) {A : Act β} (h : A.exec cfg v = .ub) : A.exec cfg g = .ub := by
  obtain ⟨an, bl, nb, no, bo, dt, fr, co, ti⟩ := g
  obtain ⟨an', bl', nb', no', bo', dt', fr', co', ti'⟩ := v
  obtain ⟨h1, h2, h3, h4, h5, h6, h7, h8, h9, h10⟩ := T
  dsimp only at h1 h2 h3 h4 h5
  subst h1 h2 h3 h4 h5
  clear h6 h7 h8 h9 h10
  have hcell : ∀ p, cellAt ⟨an, bl, nb, no, bo, dt, fr, co, ti⟩ p = cellAt ⟨an, bl, nb, no, bo', dt', fr', co', ti⟩ p := fun p => by cases p <;> rfl
  cases A with
  | claim p t =>
    have hs : Mem.storageOk cfg ⟨an, bl, nb, no, bo, dt, fr, co, ti⟩ p t = Mem.storageOk cfg ⟨an, bl, nb, no, bo', dt', fr', co', ti⟩ p t := by
      cases p <;> rfl
    simp only [Act.exec, hs] at h ⊢
    split at h <;> simp_all
  | destroyAt p t =>
    simp only [Act.exec, Mem.destroyAt, hcell] at h ⊢
    split at h
    · split at h
      · cases p <;> simp only [Mem.setCell] at h <;> split at h <;> simp_all [Mem.setCell]
      · simp_all
    · simp_all
  | setCell p o =>
    cases p <;> simp only [Act.exec, Mem.setCell] at h ⊢ <;> split at h <;> simp_all
  | _ =>
    simp only [Act.exec, Mem.getAny, Mem.setAny, Mem.dropSlot, Mem.readSize, Mem.writeSize, Mem.deallocate, Mem.freshObj, Mem.countCopy, hcell] at h ⊢
    try ((repeat' split at h) <;> simp_all)

theorem run_add_ub {c v g : World} (T : Add c v g) {t : Tree α} (h : t.run cfg v = .ub) : t.run cfg g = .ub := by
  induction t generalizing v g with
  | ret a => cases h
  | exn => cases h
  | ub => rfl
  | term => cases h
  | act A k ih =>
    rcases exec_cases (cfg := cfg) A v with e | ⟨b, v1, e⟩ <;> simp only [Tree.run, e] at h
    · simp only [Tree.run, exec_add_ub T e]
    · obtain ⟨g1, e', T'⟩ := exec_add T e
      simp only [Tree.run, e']
      exact ih b T' h

/-! ### A part of the memory -/

/-- `v`: the part `vis` of the memory, with what the operation counted; `g`: the whole memory. The operation began in `c` and changes `own`. -/
structure Rel (own vis : Loc → Prop) (c v g : World) : Prop where
  same : ∀ l, vis l → SameAt v g l
  hidden : ∀ l, ¬ vis l → ¬ Present v l
  rest : ∀ l, ¬ own l → SameAt c g l
  add : Add c v { g with anys := v.anys, blks := v.blks }

theorem sameAt_trans {u v x : World} {l : Loc} (h : SameAt u v l) (h' : SameAt v x l) : SameAt u x l := by
  cases l <;> exact Eq.trans h h'

theorem sameAt_symm {u v : World} {l : Loc} (h : SameAt u v l) : SameAt v u l := by
  cases l <;> exact Eq.symm h

theorem present_congr {u v : World} {l : Loc} (h : SameAt u v l) : Present v l → Present u l := by
  cases l with
  | any a => intro h' e; exact h' (Eq.trans (Eq.symm h) e)
  | blk a => intro h' e; exact h' (Eq.trans (Eq.symm h) e)

theorem sameAt_congr {u v : World} {l : Loc} (h1 : u.anys = v.anys) (h2 : u.blks = v.blks) : SameAt u v l := by
  cases l with
  | any a => exact congrFun h1 a
  | blk a => exact congrFun h2 a

theorem exec_rel {own vis : Loc → Prop} (hov : ∀ l, own l → vis l) {c v g v' : World} (R : Rel own vis c v g) {A : Act β} {b : β}
    (h : A.exec cfg v = .ok b v') (hw : ∀ l, A.accesses v = some (l, true) → own l) :
    ∃ g', A.exec cfg g = .ok b g' ∧ Rel own vis c v' g' := by
  have hv : ∀ l wr, A.accesses v = some (l, wr) → vis l := by
    intro l wr e
    cases wr with
    | true => exact hov l (hw l e)
    | false =>
      by_cases hv : vis l
      · exact hv
      · exact absurd (exec_reads h e) (R.hidden l hv)
  -- the same counters, the whole memory
  obtain ⟨u, hu, e1, e2⟩ : ∃ u : World, SameBook v u ∧ u.anys = g.anys ∧ u.blks = g.blks :=
    ⟨{ v with anys := g.anys, blks := g.blks }, ⟨rfl, rfl, rfl, rfl, rfl, rfl, rfl⟩, rfl, rfl⟩
  rcases exec_local (cfg := cfg) hu (fun l wr e => sameAt_trans (R.same l (hv l wr e)) (sameAt_congr e1.symm e2.symm)) with ⟨h', _⟩ | ⟨b', v'', u', h1, h2, h3, h4⟩
  · rw [h] at h'; cases h'
  rw [h] at h1
  cases h1
  have T : Add c u g := by
    have T := R.add
    exact ⟨e1.symm, e2.symm, T.nextBlk.trans hu.nextBlk, T.nextObj.trans hu.nextObj, T.tick.trans hu.tick, T.copies.trans (by rw [hu.copies]),
      fun id => (T.born id).trans (by rw [hu.born]), fun id => (T.dtors id).trans (by rw [hu.dtors]), fun id => (T.frees id).trans (by rw [hu.frees]),
      by rw [← hu.nextObj]; exact T.first⟩
  obtain ⟨g', h5, T'⟩ := exec_add T h2
  have hacc : A.accesses g = A.accesses v := accesses_congr A R.add.nextBlk
  have hself : SameAt g' u' = SameAt g' g' := by
    funext l
    cases l <;> simp only [SameAt, T'.anys, T'.blks]
  refine ⟨g', h5, fun l hl => ?_, fun l hl => ?_, fun l hl => ?_, ?_⟩
  · by_cases ha : A.accesses v = some (l, true)
    · exact sameAt_trans (h4 l ha) (sameAt_congr T'.anys.symm T'.blks.symm)
    · exact sameAt_trans (sameAt_symm (exec_writes h ha)) (sameAt_trans (R.same l hl) (exec_writes h5 (fun e => ha (hacc ▸ e))))
  · have : A.accesses v ≠ some (l, true) := fun e => hl (hov l (hw l e))
    exact fun hp => R.hidden l hl (present_congr (exec_writes h this) hp)
  · have : A.accesses g ≠ some (l, true) := fun e => hl (hw l (hacc ▸ e))
    exact sameAt_trans (R.rest l hl) (exec_writes h5 this)
  · exact ⟨rfl, rfl, T'.nextBlk.trans h3.nextBlk.symm, T'.nextObj.trans h3.nextObj.symm, T'.tick.trans h3.tick.symm, T'.copies.trans (by rw [h3.copies]),
      fun id => (T'.born id).trans (by rw [h3.born]), fun id => (T'.dtors id).trans (by rw [h3.dtors]), fun id => (T'.frees id).trans (by rw [h3.frees]),
      by rw [h3.nextObj]; exact T'.first⟩

/-- The operation returned (`r = true`) or threw. -/
def Ended (x : Res Unit) (r : Bool) (v : World) : Prop := x = if r then .ok () v else .exn v

theorem run_le {t : Tree Unit} {v v' : World} {r : Bool} (h : Ended (t.run cfg v) r v') : v.nextBlk ≤ v'.nextBlk := by
  induction t generalizing v with
  | ret a => cases r <;> cases h; exact Nat.le_refl _
  | exn => cases r <;> cases h; exact Nat.le_refl _
  | ub => cases r <;> cases h
  | term => cases r <;> cases h
  | act A k ih =>
    rcases exec_cases (cfg := cfg) A v with e | ⟨b, v1, e⟩ <;> simp only [Tree.run, e] at h
    · cases r <;> cases h
    · exact Nat.le_trans (exec_le e) (ih b h)

/-- An operation in a part of the memory does the same in the whole memory. -/
theorem run_rel {own vis : Loc → Prop} (hov : ∀ l, own l → vis l) {lo hi : Nat} {c v g v' : World} (R : Rel own vis c v g) {t : Tree Unit} {r : Bool}
    (D : Disc cfg own lo hi (fun _ => True) t v) (h : Ended (t.run cfg v) r v') (hn : v'.nextBlk ≤ hi) :
    ∃ g', Ended (t.run cfg g) r g' ∧ Rel own vis c v' g' ∧ Inv own lo hi v' := by
  induction t generalizing v g with
  | ret a =>
    cases r <;> cases h
    exact ⟨g, rfl, R, D.2⟩
  | exn =>
    cases r <;> cases h
    exact ⟨g, rfl, R, D⟩
  | ub => cases r <;> cases h
  | term => cases r <;> cases h
  | act A k ih =>
    rcases exec_cases (cfg := cfg) A v with e | ⟨b, v1, e⟩ <;> simp only [Tree.run, e] at h
    · cases r <;> cases h
    · obtain ⟨hw, D'⟩ := D b v1 e (Nat.le_trans (run_le h) hn)
      obtain ⟨g1, e', R'⟩ := exec_rel hov R e hw
      obtain ⟨g', h1, h2⟩ := ih b R' D' h
      exact ⟨g', by simp only [Tree.run, e']; exact h1, h2⟩

/-! ### What an operation uses -/

/-- What an operation that began in `c` may modify. -/
def Own (cfg : Cfg) (op : Op) (c : World) (top : Names) : Loc → Prop
  | .any a => a ∈ op.writes cfg
  | .blk b => (c.nextBlk ≤ b ∧ b < top.blk) ∨ OwnedBy (fun a => decide (a ∈ op.writes cfg)) c b

/-- What it may access. -/
def Vis (op : Op) (c : World) (top : Names) : Loc → Prop
  | .any a => a ∈ op.addrs
  | .blk b => (c.nextBlk ≤ b ∧ b < top.blk) ∨ OwnedBy (fun a => decide (a ∈ op.addrs)) c b

theorem own_vis {op : Op} {c : World} {top : Names} {l : Loc} (h : Own cfg op c top l) : Vis op c top l := by
  cases l with
  | any a => exact writes_addrs h
  | blk b =>
    rcases h with h | ⟨a, n, ha, hm⟩
    · exact .inl h
    · exact .inr ⟨a, n, by simpa using writes_addrs (cfg := cfg) (by simpa using ha), hm⟩

open Classical in
/-- A part of the memory. -/
noncomputable def part (V : Loc → Prop) (mem book : World) : World :=
  { book with
    anys := fun a => if V (.any a) then mem.anys a else none
    blks := fun b => if V (.blk b) then mem.blks b else none }

theorem part_vis {V : Loc → Prop} {mem book : World} {l : Loc} (h : V l) : SameAt (part V mem book) mem l := by
  cases l <;> simp only [SameAt, part, h, if_true]

theorem part_hidden {V : Loc → Prop} {mem book : World} {l : Loc} (h : ¬ V l) : ¬ Present (part V mem book) l := by
  cases l <;> simp [Present, part, h]

theorem part_congr {V : Loc → Prop} {m m' book : World} (h : ∀ l, V l → SameAt m m' l) : part V m book = part V m' book := by
  refine world_ext ⟨rfl, rfl, rfl, rfl, rfl, rfl, rfl⟩ fun l => ?_
  by_cases hl : V l
  · exact sameAt_trans (part_vis hl) (sameAt_trans (h l hl) (sameAt_symm (part_vis hl)))
  · cases l <;> simp only [SameAt, part, hl, if_false]

theorem vp_owned {c : World} (W : WF cfg c) {a b : Nat} {s : AnySt} {F : Nat → Bool} (hf : F a = true) (hs : c.anys a = some s) (hv : s.vp = .blk b) :
    OwnedBy F c b := by
  rcases (W.any a s hs).shape with h | ⟨b', k, h, hk, _⟩ <;> rw [h] at hv <;> cases hv
  exact ⟨a, k.size, hf, by simp only [memOf, hs, Option.bind_some, h, hk, Option.map_some]⟩

theorem start_inv {op : Op} {c book : World} {top : Names} (W : WF cfg c) (hb : book.nextBlk = c.nextBlk) :
    Inv (Own cfg op c top) c.nextBlk top.blk (part (Vis op c top) c book) := by
  refine ⟨fun b h1 h2 => .inl ⟨h1, h2⟩, Nat.le_of_eq hb.symm, fun a s ha hs => ?_⟩
  have hs : c.anys a = some s := by
    have : SameAt (part (Vis op c top) c book) c (.any a) := part_vis (own_vis ha)
    exact (Eq.symm this).trans hs
  cases hv : s.vp with
  | data a' =>
    rcases (W.any a s hs).shape with h | ⟨b', k, h, hk, _⟩ <;> rw [h] at hv <;> cases hv
    exact ha
  | blk b => exact .inr (vp_owned W (decide_eq_true (show a ∈ op.writes cfg from ha)) hs hv)

theorem start_rel {op : Op} {c book : World} {top : Names} (h1 : book.nextBlk = c.nextBlk) (h2 : book.nextObj = c.nextObj)
    (h3 : book.tick = c.tick) (h4 : ∀ id, c.nextObj ≤ id → book.born id = c.born id) :
    Rel (Own cfg op c top) (Vis op c top) c (part (Vis op c top) c (fresh book)) c := by
  refine ⟨fun l hl => part_vis hl, fun l hl => part_hidden hl, fun l _ => by cases l <;> rfl, ?_⟩
  refine ⟨rfl, rfl, h1.symm, h2.symm, h3.symm, rfl, fun id => ?_, fun _ => rfl, fun _ => rfl, Nat.le_of_eq h2.symm⟩
  show c.born id = if c.nextObj ≤ id then book.born id else c.born id
  split
  · rw [h4 id (by assumption)]
  · rfl

theorem start_wf {op : Op} {c : World} {top : Names} (W : WF cfg c) : WF cfg (fix (part (Vis op c top) c c)) := by
  refine Mem.fix_wf (Mem.onlyFix_wf (F := fun a => decide (a ∈ op.addrs)) W) ⟨?_, ?_, Nat.le_refl _, Nat.le_refl _, Nat.le_refl _, fun _ _ => rfl⟩
  · funext a
    by_cases ha : a ∈ op.addrs <;> simp [part, onlyFix, only, Vis, ha]
  · funext b
    simp only [part, onlyFix, only]
    by_cases ho : OwnedBy (fun a => decide (a ∈ op.addrs)) c b
    · have : Vis op c top (.blk b) := .inr ho
      simp only [this, ho, if_true]
    · by_cases hv : Vis op c top (.blk b)
      · simp only [hv, ho, if_true, if_false]
        rcases hv with h | h
        · exact (W.beyondBlk b h.1).1
        · exact absurd h ho
      · simp only [hv, ho, if_false]

theorem vis_snap {op : Op} {c : World} {top : Names} (W : WF cfg c) {book : World} {a : Nat} (ha : a ∈ op.addrs) :
    snap (part (Vis op c top) c book) a = snap c a := by
  have h1 : (part (Vis op c top) c book).anys a = c.anys a := part_vis (V := Vis op c top) (l := .any a) ha
  refine snap_congr h1 fun s hs => ?_
  rw [h1] at hs
  rcases (W.any a s hs).shape with h | ⟨b, k, h, hk, _⟩
  · exact .inl h
  · exact .inr ⟨b, h, part_vis (V := Vis op c top) (l := .blk b) (.inr (vp_owned W (decide_eq_true ha) hs h))⟩

/-- A legal operation is defined in the part of the memory that it uses. -/
theorem start_defined (C : CfgOk cfg) {op : Op} {c book : World} {top : Names} (W : WF cfg c) (L : Legal cfg c op) (h1 : book.nextBlk = c.nextBlk)
    (h2 : book.nextObj = c.nextObj) (h3 : book.tick = c.tick) (h4 : ∀ id, c.nextObj ≤ id → book.born id = c.born id) :
    (Fine.exec cfg op).run cfg (part (Vis op c top) c (fresh book)) ≠ .ub := by
  intro hu
  have T : Add c (part (Vis op c top) c (fresh book)) (part (Vis op c top) c c) := by
    refine ⟨rfl, rfl, h1.symm, h2.symm, h3.symm, rfl, fun id => ?_, fun _ => rfl, fun _ => rfl, Nat.le_of_eq h2.symm⟩
    show c.born id = if c.nextObj ≤ id then book.born id else c.born id
    split
    · rw [h4 id (by assumption)]
    · rfl
  have := run_add_ub T hu
  rw [run_exec] at this
  exact Mem.alone_defined C (start_wf W) (Mem.legal_congr (w := c) (fun a ha => vis_snap W ha) rfl L) this

end AnyAny.Sync
