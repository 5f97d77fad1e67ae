import Verif.Lemmas.Sync
/-
The invariant of executions of threads that take turns with objects.
-/
namespace AnyAny.Sync
open AnyAny.Fine (Loc Act Tree locOf SameAt SameBook Present exec_local exec_writes exec_reads exec_cases exec_le accesses_congr world_ext Inv Disc Safe
  Names namesOf skip skip_wf ends_wf run_exec owned_lt owned_inj snap_congr)
open AnyAny.Mem (Cfg Obj Ptr AnySt Blk World Res Op WF CfgOk OwnedBy only Legal Ends snap memOf fix onlyFix upd cellAt)

variable {cfg : Cfg} {w : World} {β : Type}

/-! ### Small lemmas -/

theorem memOf_some {c : World} {a b n : Nat} (h : memOf c a = some (b, n)) : ∃ s, c.anys a = some s ∧ s.vp = .blk b := by
  unfold memOf at h
  cases hs : c.anys a with
  | none => rw [hs] at h; cases h
  | some s =>
    rw [hs] at h
    simp only [Option.bind_some] at h
    split at h
    · cases h
    · rename_i b' hb
      obtain ⟨k, _, e⟩ := Option.map_eq_some_iff.1 h
      cases e
      exact ⟨s, rfl, hb⟩

theorem exec_born {A : Act β} {v v' : World} {b : β} (e : A.exec cfg v = .ok b v') :
    v.nextObj ≤ v'.nextObj ∧ ∀ id, v'.nextObj ≤ id → v'.born id = v.born id := by
  cases A with
  | freshObj t x =>
    cases e
    refine ⟨Nat.le_succ _, fun id h => ?_⟩
    have h : v.nextObj + 1 ≤ id := h
    simp only [upd]
    rw [if_neg (by omega)]
  | setCell p c => cases p <;> simp only [Act.exec, Mem.setCell] at e <;> split at e <;> cases e <;> exact ⟨Nat.le_refl _, fun _ _ => rfl⟩
  | destroyAt p t =>
    cases p <;> simp only [Act.exec, Mem.destroyAt, Mem.setCell] at e <;> (repeat' split at e) <;> cases e <;> exact ⟨Nat.le_refl _, fun _ _ => rfl⟩
  | _ =>
    simp only [Act.exec, Mem.getAny, Mem.setAny, Mem.dropSlot, Mem.readSize, Mem.writeSize, Mem.deallocate, Mem.countCopy] at e
    (repeat' split at e) <;> cases e <;> exact ⟨Nat.le_refl _, fun _ _ => rfl⟩

theorem run_born {t : Tree Unit} {v v' : World} {r : Bool} (h : Ended (t.run cfg v) r v') :
    v.nextObj ≤ v'.nextObj ∧ ∀ id, v'.nextObj ≤ id → v'.born id = v.born id := by
  induction t generalizing v with
  | ret a => cases r <;> cases h; exact ⟨Nat.le_refl _, fun _ _ => rfl⟩
  | exn => cases r <;> cases h; exact ⟨Nat.le_refl _, fun _ _ => rfl⟩
  | ub => cases r <;> cases h
  | term => cases r <;> cases h
  | act A k ih =>
    rcases exec_cases (cfg := cfg) A v with e | ⟨b, v1, e⟩ <;> simp only [Tree.run, e] at h
    · cases r <;> cases h
    · have h1 := exec_born e
      have h2 := ih b h
      exact ⟨Nat.le_trans h1.1 h2.1, fun id hid => (h2.2 id hid).trans (h1.2 id (Nat.le_trans h2.1 hid))⟩

theorem sum_erase {L : List Nat} {i : Nat} {f f' : Nat → Nat} (hn : L.Nodup) (hi : i ∈ L) (hf : ∀ j, j ≠ i → f' j = f j) :
    (L.map f).sum = f i + ((L.erase i).map f').sum := by
  induction L with
  | nil => cases hi
  | cons a L ih =>
    obtain ⟨h1, h2⟩ := List.nodup_cons.1 hn
    by_cases h : a = i
    · subst h
      rw [List.erase_cons_head, List.map_cons, List.sum_cons]
      have : L.map f' = L.map f := List.map_congr_left fun j hj => hf j (fun e => h1 (e ▸ hj))
      rw [this]
    · have hi : i ∈ L := (List.mem_cons.1 hi).resolve_left (Ne.symm h)
      rw [List.erase_cons_tail (by simpa using h), List.map_cons, List.sum_cons, List.map_cons, List.sum_cons, ih h2 hi, hf a h]
      omega

theorem sum_same {L : List Nat} {i : Nat} {f f' : Nat → Nat} (hi : i ∉ L) (hf : ∀ j, j ≠ i → f' j = f j) : (L.map f').sum = (L.map f).sum := by
  have : L.map f' = L.map f := List.map_congr_left fun j hj => hf j (fun e => hi (e ▸ hj))
  rw [this]

theorem snoc_cases {α : Type} {tr t1 t2 : List α} {e x : α} (h : tr ++ [e] = t1 ++ x :: t2) :
    (t2 = [] ∧ x = e ∧ t1 = tr) ∨ ∃ t3, t2 = t3 ++ [e] ∧ tr = t1 ++ x :: t3 := by
  rcases List.eq_nil_or_concat t2 with rfl | ⟨t3, y, rfl⟩
  · have := List.append_inj' h rfl
    exact .inl ⟨rfl, (List.cons.inj this.2).1.symm, this.1.symm⟩
  · rw [List.concat_eq_append, ← List.cons_append, ← List.append_assoc] at h
    have := List.append_inj' h rfl
    cases this.2
    exact .inr ⟨t3, List.concat_eq_append, this.1⟩

theorem ordered_snoc {i j : Nat} {t : List Event} {e : Event} (h : Ordered i j t) : Ordered i j (t ++ [e]) := by
  obtain ⟨t1, op, r, t2, op', t3, rfl⟩ := h
  exact ⟨t1, op, r, t2, op', t3 ++ [e], by simp⟩

theorem opsOf_append (tr es : List Event) (i : Nat) : opsOf (tr ++ es) i = opsOf tr i ++ opsOf es i := by
  induction tr with
  | nil => rfl
  | cons e tr ih =>
    cases e with
    | ends j op r =>
      simp only [List.cons_append, opsOf]
      split
      · rw [ih]; rfl
      · exact ih
    | _ => exact ih

theorem starts_append (tr es : List Event) : starts (tr ++ es) = starts tr ++ starts es := by
  induction tr with
  | nil => rfl
  | cons e tr ih =>
    cases e with
    | starts j op => simp only [List.cons_append, starts, ih]
    | _ => exact ih

theorem doneBy_append (i : Nat) (h k : List (Nat × Op × Bool)) : doneBy i (h ++ k) = doneBy i h ++ doneBy i k := by
  simp only [doneBy, List.filter_append, List.map_append]

/-! ### The invariant -/

/-- What is known about an operation in progress: `c0`: the world after all operations that began before; `v0`: the part of it that the operation uses;
`fin`: how the operation ends and the state in which it leaves this part, if it ends and the names that were set aside suffice. -/
structure Ghost where
  op : Op
  base : Names
  top : Names
  c0 : World
  v0 : World
  fin : Option (Bool × World)

def Ghost.own (cfg : Cfg) (g : Ghost) : Loc → Prop := Own cfg g.op g.c0 g.top
def Ghost.vis (g : Ghost) : Loc → Prop := Vis g.op g.c0 g.top

def ownOf (cfg : Cfg) (x : Option Ghost) (l : Loc) : Prop := ∃ g, x = some g ∧ g.own cfg l
def visOf (x : Option Ghost) (l : Loc) : Prop := ∃ g, x = some g ∧ g.vis l

/-- An operation in progress; `c`: the world after all operations that have begun. -/
structure BusyOk (cfg : Cfg) (c mem : World) (g : Ghost) (t : Tree Unit) (book : World) : Prop where
  base : g.base = namesOf g.c0
  le : g.base.Le g.top
  wf0 : WF cfg g.c0
  before : g.top.Le (namesOf c)
  room : (namesOf book).Le g.top
  run : (Fine.exec cfg g.op).run cfg g.v0 = t.run cfg (part g.vis mem book)
  defined : t.run cfg (part g.vis mem book) ≠ .ub
  disc : Disc cfg (g.own cfg) g.base.blk g.top.blk (fun _ => True) t (part g.vis mem book)
  fin : ∀ r v, g.fin = some (r, v) → Ended ((Fine.exec cfg g.op).run cfg g.v0) r v ∧ (∀ l, g.own cfg l → SameAt v c l) ∧
    ∀ id, g.base.obj ≤ id → id < g.top.obj → c.born id = v.born id
  never : g.fin = none → ∀ r v, Ended ((Fine.exec cfg g.op).run cfg g.v0) r v → ¬ (namesOf v).Le g.top
  sep : ∀ a s, c.anys a = some s → (¬ g.own cfg (.any a) → ¬ g.own cfg (locOf s.vp)) ∧ (¬ g.vis (.any a) → ¬ g.vis (locOf s.vp))

inductive Link (cfg : Cfg) (c mem : World) : Doing → Option Ghost → Prop
  | idle : Link cfg c mem .nothing none
  | busy {g : Ghost} {t : Tree Unit} {book : World} : BusyOk cfg c mem g t book → Link cfg c mem (.busy g.op t g.base g.top book) (some g)

/-- What the operation in progress will have counted. -/
def dD (x : Option Ghost) (id : Nat) : Nat :=
  match x with
  | none => 0
  | some g =>
    match g.fin with
    | some (_, v) => v.dtors id + if v.nextObj ≤ id ∧ id < g.top.obj then 1 else 0
    | none => if g.base.obj ≤ id ∧ id < g.top.obj then 1 else 0

def dF (x : Option Ghost) (b : Nat) : Nat :=
  match x with
  | none => 0
  | some g =>
    match g.fin with
    | some (_, v) => v.frees b + if v.nextBlk ≤ b ∧ b < g.top.blk then 1 else 0
    | none => if g.base.blk ≤ b ∧ b < g.top.blk then 1 else 0

def dC (x : Option Ghost) : Nat :=
  match x with
  | none => 0
  | some g =>
    match g.fin with
    | some (_, v) => v.copies
    | none => 0

/-- The operation in progress and how it will end. -/
def pending (x : Option Ghost) : List (Op × Bool) :=
  match x with
  | none => []
  | some g =>
    match g.fin with
    | some (r, _) => [(g.op, r)]
    | none => []

structure Good (cfg : Cfg) (w : World) (tr : List Event) (m : Machine) (c : World) (h : List (Nat × Op × Bool)) (G : Nat → Option Ghost)
    (L : List Nat) : Prop where
  seq : Seq cfg w h c
  wf : WF cfg c
  names : namesOf m.mem = namesOf c
  link : ∀ i, Link cfg c m.mem (m.thread i) (G i)
  apart : ∀ i j l, i ≠ j → ownOf cfg (G i) l → ¬ visOf (G j) l
  apartObj : ∀ i j g g' id, i ≠ j → G i = some g → G j = some g' → g.base.obj ≤ id → id < g.top.obj → ¬ (g'.base.obj ≤ id ∧ id < g'.top.obj)
  mem : ∀ l, (∀ i, ¬ ownOf cfg (G i) l) → SameAt m.mem c l
  nodup : L.Nodup
  listed : ∀ i, i ∈ L ↔ G i ≠ none
  dtors : ∀ id, c.dtors id = m.mem.dtors id + (L.map fun i => dD (G i) id).sum
  frees : ∀ b, c.frees b = m.mem.frees b + (L.map fun i => dF (G i) b).sum
  copies : c.copies = m.mem.copies + (L.map fun i => dC (G i)).sum
  born : ∀ id, (∀ i g, G i = some g → g.fin ≠ none → ¬ (g.base.obj ≤ id ∧ id < g.top.obj)) → c.born id = m.mem.born id
  done : ∀ i, doneBy i h = opsOf tr i ++ pending (G i)
  order : (h.map fun x => (x.1, x.2.1)).Sublist (starts tr)
  events : ∀ t1 i l x t2, tr = t1 ++ .access i l x :: t2 →
    (∀ j, j ≠ i → ¬ Ordered i j t2 → ¬ ownOf cfg (G j) l ∧ (x = true → ¬ visOf (G j) l)) ∧
    ((∀ op r, .ends i op r ∉ t2) → visOf (G i) l ∧ (x = true → ownOf cfg (G i) l))
  norace : ¬ Race tr

theorem good_init (W : WF cfg w) : Good cfg w [] ⟨w, fun _ => .nothing⟩ w [] (fun _ => none) [] where
  seq := .nil
  wf := W
  names := rfl
  link _ := .idle
  apart _ _ _ _ h := by obtain ⟨_, h, _⟩ := h; cases h
  apartObj _ _ _ _ _ _ h := by cases h
  mem l _ := by cases l <;> rfl
  nodup := .nil
  listed i := by simp
  dtors _ := rfl
  frees _ := rfl
  copies := rfl
  born _ _ := rfl
  done _ := rfl
  order := .slnil
  events t1 i l x t2 h := by cases t1 <;> cases h
  norace := by rintro ⟨t1, i, l, x, t2, j, y, t3, h, _⟩; cases t1 <;> cases h

theorem ownOf_visOf {x : Option Ghost} {l : Loc} (h : ownOf cfg x l) : visOf x l := by
  obtain ⟨g, e, h⟩ := h
  exact ⟨g, e, own_vis h⟩

/-- A step that is not an access does not make a race. -/
theorem norace_snoc {tr : List Event} {e : Event} (hr : ¬ Race tr) (he : ∀ j l y, e ≠ .access j l y) : ¬ Race (tr ++ [e]) := by
  rintro ⟨t1, i, l, x, t2, j, y, t3, h, hij, hx, ho⟩
  rcases snoc_cases h with ⟨_, h2, _⟩ | ⟨t4, _, h2⟩
  · exact he _ _ _ h2.symm
  · exact hr ⟨t1, i, l, x, t2, j, y, t4, h2, hij, hx, ho⟩

section start

variable {tr : List Event} {m : Machine} {c : World} {h : List (Nat × Op × Bool)} {G : Nat → Option Ghost} {L : List Nat}

/-- An operation that begins does not access what the operations in progress modify. -/
theorem Good.vis_free (H : Good cfg w tr m c h G L) {op : Op} {top : Names} (hc : ∀ j, ¬ m.Conflict cfg op j) {l : Loc} (hl : Vis op c top l) (j : Nat) :
    ¬ ownOf cfg (G j) l := by
  rintro ⟨g, hg, ho⟩
  have K := H.link j
  rw [hg] at K
  generalize hth : m.thread j = th at K
  cases K with
  | @busy _ t book B =>
    have hc := hc j
    simp only [Machine.Conflict, hth, not_exists] at hc
    have hc := fun h => hc _ _ _ _ _ ⟨rfl, h⟩
    have hb : g.base.blk = g.c0.nextBlk := by rw [B.base]; rfl
    have h1 := B.le.1
    have h2 : g.top.blk ≤ c.nextBlk := B.before.1
    cases l with
    | any a => exact hc (.inl ⟨a, ho, hl⟩)
    | blk b =>
      rcases hl with hl | ⟨a, n, ha, hm⟩
      · rcases ho with ho | ho
        · omega
        · have := owned_lt B.wf0 ho; omega
      · obtain ⟨s, hs, hv⟩ := memOf_some hm
        have := (B.sep a s hs).1 (fun h => hc (.inl ⟨a, h, by simpa using ha⟩))
        rw [hv] at this
        exact this ho

/-- What an operation that begins may modify no operation in progress accesses. -/
theorem Good.own_free (H : Good cfg w tr m c h G L) {op : Op} {top : Names} (hc : ∀ j, ¬ m.Conflict cfg op j) {l : Loc} (hl : Own cfg op c top l)
    (j : Nat) : ¬ visOf (G j) l := by
  rintro ⟨g, hg, ho⟩
  have K := H.link j
  rw [hg] at K
  generalize hth : m.thread j = th at K
  cases K with
  | @busy _ t book B =>
    have hc := hc j
    simp only [Machine.Conflict, hth, not_exists] at hc
    have hc := fun h => hc _ _ _ _ _ ⟨rfl, h⟩
    have hb : g.base.blk = g.c0.nextBlk := by rw [B.base]; rfl
    have h1 := B.le.1
    have h2 : g.top.blk ≤ c.nextBlk := B.before.1
    cases l with
    | any a => exact hc (.inr ⟨a, ho, hl⟩)
    | blk b =>
      rcases hl with hl | ⟨a, n, ha, hm⟩
      · rcases ho with ho | ho
        · omega
        · have := owned_lt B.wf0 ho; omega
      · obtain ⟨s, hs, hv⟩ := memOf_some hm
        have := (B.sep a s hs).2 (fun h => hc (.inr ⟨a, h, by simpa using ha⟩))
        rw [hv] at this
        exact this ho

/-- What is known after an operation began: `c1` is the world after it, if it ends. -/
structure Begun (cfg : Cfg) (w : World) (m : Machine) (c : World) (h : List (Nat × Op × Bool)) (i : Nat) (g : Ghost) (c1 : World) : Prop where
  seq : Seq cfg w (h ++ (pending (some g)).map fun x => (i, x.1, x.2)) c1
  wf : WF cfg c1
  same : ∀ l, ¬ g.own cfg l → SameAt c c1 l
  inside : ∀ a s, g.own cfg (.any a) → c1.anys a = some s → g.own cfg (locOf s.vp)
  born : ∀ id, id < c.nextObj ∨ g.top.obj ≤ id ∨ g.fin = none → c1.born id = c.born id
  names : (namesOf c1).Le g.top
  fin : ∀ r v, g.fin = some (r, v) → Ended ((Fine.exec cfg g.op).run cfg g.v0) r v ∧ (∀ l, g.own cfg l → SameAt v c1 l) ∧
    ∀ id, g.base.obj ≤ id → id < g.top.obj → c1.born id = v.born id
  never : g.fin = none → ∀ r v, Ended ((Fine.exec cfg g.op).run cfg g.v0) r v → ¬ (namesOf v).Le g.top
  dtors : ∀ id, (skip g.top c1).dtors id = c.dtors id + dD (some g) id
  frees : ∀ b, (skip g.top c1).frees b = c.frees b + dF (some g) b
  copies : c1.copies = c.copies + dC (some g)

theorem Good.begun (C : CfgOk cfg) (H : Good cfg w tr m c h G L) {op : Op} {top : Names} (i : Nat) (Lg : Legal cfg c op)
    (hn : (namesOf m.mem).Le top) :
    ∃ fin c1, Begun cfg w m c h i ⟨op, namesOf m.mem, top, c, part (Vis op c top) c (fresh m.mem), fin⟩ c1 ∧
      (Fine.exec cfg op).run cfg (part (Vis op c top) c (fresh m.mem)) ≠ .ub := by
  have e1 : m.mem.nextBlk = c.nextBlk := congrArg Names.blk H.names
  have e2 : m.mem.nextObj = c.nextObj := congrArg Names.obj H.names
  have e3 : m.mem.tick = c.tick := congrArg Names.tick H.names
  have e4 : ∀ id, c.nextObj ≤ id → m.mem.born id = c.born id := by
    intro id hid
    refine (H.born id fun j g hg _ hr => ?_).symm
    have K := H.link j
    rw [hg] at K
    generalize m.thread j = th at K
    cases K with
    | busy B =>
      have : g.top.obj ≤ c.nextObj := B.before.2.1
      omega
  have hu := start_defined (top := top) C H.wf Lg e1 e2 e3 e4
  by_cases hf : ∃ r v, Ended ((Fine.exec cfg op).run cfg (part (Vis op c top) c (fresh m.mem))) r v ∧ (namesOf v).Le top
  · obtain ⟨r, v, hr, hv⟩ := hf
    have I : Inv (Own cfg op c top) c.nextBlk top.blk (part (Vis op c top) c (fresh m.mem)) := start_inv H.wf e1
    have D := Safe.exec (cfg := cfg) (own := Own cfg op c top) (op := op) (fun a ha => ha) _ I
    obtain ⟨c1, hc1, R, I'⟩ := run_rel (fun l => own_vis) (start_rel e1 e2 e3 e4) D hr hv.1
    have E : Ends cfg op c r c1 := by
      unfold Ended at hc1
      rw [run_exec] at hc1
      exact hc1
    have B := run_born hr
    have hnames : (namesOf c1).Le top := by
      refine ⟨?_, ?_, ?_⟩
      · show c1.nextBlk ≤ _; rw [R.add.nextBlk]; exact hv.1
      · show c1.nextObj ≤ _; rw [R.add.nextObj]; exact hv.2.1
      · show c1.tick ≤ _; rw [R.add.tick]; exact hv.2.2
    have hborn : ∀ id, c1.born id = if c.nextObj ≤ id then v.born id else c.born id := R.add.born
    refine ⟨some (r, v), c1, ⟨?_, ?_, R.rest, ?_, ?_, hnames, ?_, fun h => (by cases h), ?_, ?_, R.add.copies⟩, hu⟩
    · exact .op H.seq Lg E
    · exact ends_wf C H.wf Lg E
    · intro a s ha hs
      refine I'.any a s ha ?_
      have : SameAt v c1 (.any a) := R.same _ (own_vis ha)
      exact Eq.trans this hs
    · rintro id (h | h | h)
      · rw [hborn, if_neg (by omega)]
      · have h : top.obj ≤ id := h
        have hv2 : v.nextObj ≤ top.obj := hv.2.1
        rw [hborn]
        split
        · rw [B.2 id (by omega)]
          exact e4 id (by assumption)
        · rfl
      · cases h
    · intro r' v' h
      cases h
      refine ⟨hr, fun l hl => R.same l (own_vis hl), fun id h1 h2 => ?_⟩
      have h1 : m.mem.nextObj ≤ id := h1
      rw [hborn, if_pos (by omega)]
    · intro id
      have h1 : c1.dtors id = c.dtors id + v.dtors id := R.add.dtors id
      have h2 : c1.nextObj = v.nextObj := R.add.nextObj
      show c1.dtors id + _ = c.dtors id + (v.dtors id + _)
      rw [h1, h2]; omega
    · intro id
      have h1 : c1.frees id = c.frees id + v.frees id := R.add.frees id
      have h2 : c1.nextBlk = v.nextBlk := R.add.nextBlk
      show c1.frees id + _ = c.frees id + (v.frees id + _)
      rw [h1, h2]; omega
  · refine ⟨none, c, ⟨?_, H.wf, fun l _ => by cases l <;> rfl, ?_, fun _ _ => rfl, H.names ▸ hn, fun _ _ h => (by cases h), ?_, ?_, ?_, rfl⟩, hu⟩
    · simpa [pending] using H.seq
    · intro a s ha hs
      cases hv : s.vp with
      | data a' =>
        rcases (H.wf.any a s hs).shape with h | ⟨b', k, h, hk, _⟩ <;> rw [h] at hv <;> cases hv
        exact ha
      | blk b => exact .inr (vp_owned H.wf (decide_eq_true (show a ∈ op.writes cfg from ha)) hs hv)
    · exact fun _ r v h1 h2 => hf ⟨r, v, h1, h2⟩
    · intro id
      show c.dtors id + (if c.nextObj ≤ id ∧ id < top.obj then 1 else 0) = c.dtors id + if m.mem.nextObj ≤ id ∧ id < top.obj then 1 else 0
      rw [e2]
    · intro id
      show c.frees id + (if c.nextBlk ≤ id ∧ id < top.blk then 1 else 0) = c.frees id + if m.mem.nextBlk ≤ id ∧ id < top.blk then 1 else 0
      rw [e1]

/-- `c` and `c1` differ only in what an operation may modify: what is outside belongs to the same objects. -/
theorem sep_of_wf {op : Op} {c : World} {top : Names} (W : WF cfg c) {a : Nat} {s : AnySt} (hs : c.anys a = some s) :
    (¬ Own cfg op c top (.any a) → ¬ Own cfg op c top (locOf s.vp)) ∧ (¬ Vis op c top (.any a) → ¬ Vis op c top (locOf s.vp)) := by
  have key : ∀ {b : Nat} {F : Nat → Bool}, s.vp = .blk b → F a = false → b < c.nextBlk ∧ ¬ OwnedBy F c b := by
    intro b F hb hF
    have h1 : OwnedBy (fun x => x == a) c b := vp_owned W (by simp) hs hb
    refine ⟨owned_lt W h1, fun h2 => ?_⟩
    obtain ⟨x, e1, e2⟩ := owned_inj W h1 h2
    rw [beq_iff_eq.1 e1, hF] at e2
    cases e2
  cases hv : s.vp with
  | data a' =>
    rcases (W.any a s hs).shape with h | ⟨b', k, h, hk, _⟩ <;> rw [h] at hv <;> cases hv
    exact ⟨id, id⟩
  | blk b =>
    refine ⟨fun h1 h2 => ?_, fun h1 h2 => ?_⟩
    · have K := key (F := fun a => decide (a ∈ op.writes cfg)) hv (decide_eq_false (show ¬ a ∈ op.writes cfg from h1))
      rcases h2 with h2 | h2
      · omega
      · exact K.2 h2
    · have K := key (F := fun a => decide (a ∈ op.addrs)) hv (decide_eq_false (show ¬ a ∈ op.addrs from h1))
      rcases h2 with h2 | h2
      · omega
      · exact K.2 h2

/-- What a thread does before an operation begins it does after it. -/
theorem BusyOk.congr {c c' mem mem' : World} {g : Ghost} {t : Tree Unit} {book : World} (B : BusyOk cfg c mem g t book)
    (hn : (namesOf c).Le (namesOf c')) (hm : ∀ l, g.vis l → SameAt mem mem' l) (hc : ∀ l, g.own cfg l → SameAt c c' l)
    (hb : ∀ id, g.base.obj ≤ id → id < g.top.obj → c'.born id = c.born id)
    (hs : ∀ a s, c'.anys a = some s → c.anys a = some s ∨ (¬ g.own cfg (locOf s.vp) ∧ ¬ g.vis (locOf s.vp))) : BusyOk cfg c' mem' g t book := by
  have e : part g.vis mem' book = part g.vis mem book := (part_congr hm).symm
  refine ⟨B.base, B.le, B.wf0, ?_, B.room, e ▸ B.run, e ▸ B.defined, e ▸ B.disc, fun r v hf => ?_, B.never, fun a s ha => ?_⟩
  · have h1 := B.before
    exact ⟨Nat.le_trans h1.1 hn.1, Nat.le_trans h1.2.1 hn.2.1, Nat.le_trans h1.2.2 hn.2.2⟩
  · obtain ⟨h1, h2, h3⟩ := B.fin r v hf
    exact ⟨h1, fun l hl => sameAt_trans (h2 l hl) (hc l hl), fun id i1 i2 => (hb id i1 i2).trans (h3 id i1 i2)⟩
  · rcases hs a s ha with h | h
    · exact B.sep a s h
    · exact ⟨fun _ => h.1, fun _ => h.2⟩

theorem Names.Le.refl (x : Names) : x.Le x := ⟨Nat.le_refl _, Nat.le_refl _, Nat.le_refl _⟩

theorem Good.idle (H : Good cfg w tr m c h G L) {i : Nat} (hi : m.thread i = .nothing) : G i = none := by
  have K := H.link i
  rw [hi] at K
  generalize G i = x at K
  cases K
  rfl

theorem Good.top_le (H : Good cfg w tr m c h G L) {i : Nat} {g : Ghost} (hg : G i = some g) : g.top.Le (namesOf c) := by
  have K := H.link i
  rw [hg] at K
  generalize m.thread i = th at K
  cases K with
  | busy B => exact B.before

def setG (G : Nat → Option Ghost) (i : Nat) (x : Option Ghost) : Nat → Option Ghost := fun j => if j = i then x else G j

@[simp] theorem setG_same {i : Nat} {x : Option Ghost} : setG G i x i = x := if_pos rfl
theorem setG_other {i j : Nat} {x : Option Ghost} (h : j ≠ i) : setG G i x j = G j := if_neg h

theorem own_some {g : Ghost} {l : Loc} : ownOf cfg (some g) l ↔ g.own cfg l := ⟨fun ⟨_, e, h⟩ => by cases e; exact h, fun h => ⟨g, rfl, h⟩⟩
theorem vis_some {g : Ghost} {l : Loc} : visOf (some g) l ↔ g.vis l := ⟨fun ⟨_, e, h⟩ => by cases e; exact h, fun h => ⟨g, rfl, h⟩⟩
theorem own_none {l : Loc} : ¬ ownOf cfg none l := fun ⟨_, e, _⟩ => by cases e
theorem vis_none {l : Loc} : ¬ visOf none l := fun ⟨_, e, _⟩ => by cases e

theorem good_start (C : CfgOk cfg) (H : Good cfg w tr m c h G L) {i : Nat} {op : Op} {top : Names} (hi : m.thread i = .nothing)
    (Lg : Legal cfg m.mem op) (hc : ∀ j, ¬ m.Conflict cfg op j) (hn : (namesOf m.mem).Le top) :
    ∃ c' h' G' L', Good cfg w (tr ++ [.starts i op])
      { mem := { m.mem with nextBlk := top.blk, nextObj := top.obj, tick := top.tick }
        thread := fun j => if j = i then .busy op (Fine.exec cfg op) (namesOf m.mem) top (fresh m.mem) else m.thread j } c' h' G' L' := by
  have hGi := H.idle hi
  have hvis : ∀ l, Vis op c top l → SameAt m.mem c l := fun l hl => H.mem l (H.vis_free hc hl)
  have Lc : Legal cfg c op := by
    refine Mem.legal_congr (w := m.mem) (fun a ha => ?_) (congrArg Names.tick H.names).symm Lg
    have h1 : c.anys a = m.mem.anys a := Eq.symm (hvis (.any a) ha)
    refine snap_congr h1 fun s hs => ?_
    rcases (H.wf.any a s hs).shape with h | ⟨b, k, h, hk, _⟩
    · exact .inl h
    · exact .inr ⟨b, h, Eq.symm (hvis (.blk b) (.inr (vp_owned H.wf (decide_eq_true ha) hs h)))⟩
  obtain ⟨fin, c1, B, hu⟩ := H.begun C i Lc hn
  generalize hg : Ghost.mk op (namesOf m.mem) top c (part (Vis op c top) c (fresh m.mem)) fin = g at B
  have gown : g.own cfg = Own cfg op c top := by rw [← hg]; rfl
  have gvis : g.vis = Vis op c top := by rw [← hg]; rfl
  have gop : g.op = op := by rw [← hg]
  have gtop : g.top = top := by rw [← hg]
  have gbase : g.base = namesOf c := by rw [← hg]; exact H.names
  have gbase' : g.base = namesOf m.mem := by rw [← hg]
  have gv0 : g.v0 = part (Vis op c top) c (fresh m.mem) := by rw [← hg]
  have gc0 : g.c0 = c := by rw [← hg]
  have hn' : (namesOf c).Le top := H.names ▸ hn
  have hiL : i ∉ L := fun h => (H.listed i).1 h hGi
  have hpart : part g.vis m.mem (fresh m.mem) = g.v0 := by rw [gv0, gvis]; exact part_congr hvis
  have other : ∀ j, j ≠ i → ∀ l, g.own cfg l → ¬ visOf (G j) l := fun j _ l hl => H.own_free hc (gown ▸ hl) j
  have other' : ∀ j, j ≠ i → ∀ l, g.vis l → ¬ ownOf cfg (G j) l := fun j _ l hl => H.vis_free hc (gvis ▸ hl) j
  refine ⟨skip g.top c1, h ++ (pending (some g)).map fun x => (i, x.1, x.2), setG G i (some g), i :: L, ?_⟩
  refine { seq := .skip B.seq B.names, wf := skip_wf B.wf B.names, names := ?_, link := ?_, apart := ?_, apartObj := ?_, mem := ?_, nodup := ?_,
           listed := ?_, dtors := ?_, frees := ?_, copies := ?_, born := ?_, done := ?_, order := ?_, events := ?_, norace := ?_ }
  · rw [gtop]; rfl
  · intro j
    by_cases hj : j = i
    · subst hj
      simp only [setG_same, if_true]
      have K : BusyOk cfg (skip g.top c1) { m.mem with nextBlk := top.blk, nextObj := top.obj, tick := top.tick } g (Fine.exec cfg op) (fresh m.mem) := by
        have hp : part g.vis { m.mem with nextBlk := top.blk, nextObj := top.obj, tick := top.tick } (fresh m.mem) = g.v0 := hpart
        refine ⟨by rw [gbase, gc0], by rw [gbase, gtop]; exact hn', gc0 ▸ H.wf, Names.Le.refl _, by rw [gtop]; exact hn, by rw [hp, gop], ?_, ?_, ?_,
          B.never, ?_⟩
        · rw [hp, gv0]; exact hu
        · rw [hp, gv0, gown, gbase, gtop]
          exact Safe.exec (cfg := cfg) (own := Own cfg op c top) (op := op) (fun a ha => ha) _ (start_inv H.wf (congrArg Names.blk H.names))
        · intro r v hf
          obtain ⟨h1, h2, h3⟩ := B.fin r v hf
          exact ⟨h1, fun l hl => sameAt_trans (h2 l hl) (by cases l <;> rfl), h3⟩
        · intro a s hs
          have hs : c1.anys a = some s := hs
          have hs' : ¬ g.own cfg (.any a) → c.anys a = some s := fun ho => Eq.trans (B.same (.any a) ho) hs
          refine ⟨fun ho => ?_, fun hv => ?_⟩
          · have := (sep_of_wf (op := op) (top := top) H.wf (hs' ho)).1
            rw [gown] at ho ⊢
            exact this ho
          · have := (sep_of_wf (cfg := cfg) (op := op) (top := top) H.wf (hs' fun h => hv (by rw [gown] at h; rw [gvis]; exact own_vis h))).2
            rw [gvis] at hv ⊢
            exact this hv
      have K' := Link.busy K
      rw [gop, gbase', gtop] at K'
      rw [gtop]
      exact K'
    · simp only [setG_other hj, hj, if_false]
      have K := H.link j
      generalize m.thread j = th at K
      cases hGj : G j with
      | none =>
        rw [hGj] at K
        cases K
        exact .idle
      | some g' =>
        rw [hGj] at K
        cases K with
        | @busy _ t book K =>
          have ov : ∀ l, g.own cfg l → ¬ g'.vis l := fun l hl hv => other j hj l hl ⟨g', hGj, hv⟩
          have oo : ∀ l, g.own cfg l → ¬ g'.own cfg l := fun l hl hv => ov l hl (own_vis hv)
          refine .busy (K.congr ?_ (fun l _ => by cases l <;> rfl) (fun l hl => ?_) (fun id _ h2 => ?_) fun a s hs => ?_)
          · rw [gtop]; exact hn'
          · exact sameAt_trans (B.same l fun h => oo l h hl) (by cases l <;> rfl)
          · have : g'.top.obj ≤ c.nextObj := K.before.2.1
            exact B.born id (.inl (by omega))
          · have hs : c1.anys a = some s := hs
            by_cases ho : g.own cfg (.any a)
            · have := B.inside a s ho hs
              exact .inr ⟨oo _ this, ov _ this⟩
            · exact .inl (Eq.trans (B.same (.any a) ho) hs)
  · intro j k l hjk
    by_cases hj : j = i
    · subst hj
      rw [setG_same, setG_other (Ne.symm hjk), own_some]
      exact other k (Ne.symm hjk) l
    · rw [setG_other hj]
      by_cases hk : k = i
      · subst hk
        rw [setG_same, vis_some]
        exact fun h1 h2 => other' j hj l h2 h1
      · rw [setG_other hk]
        exact H.apart j k l hjk
  · intro j k g1 g2 id hjk
    by_cases hj : j = i
    · subst hj
      rw [setG_same, setG_other (Ne.symm hjk)]
      intro e1 e2 h1 h2 h3
      cases e1
      have h4 : g2.top.obj ≤ c.nextObj := (H.top_le e2).2.1
      have h5 : g.base.obj = c.nextObj := by rw [gbase]; rfl
      omega
    · rw [setG_other hj]
      by_cases hk : k = i
      · subst hk
        rw [setG_same]
        intro e1 e2 h1 h2 h3
        cases e2
        have h4 : g1.top.obj ≤ c.nextObj := (H.top_le e1).2.1
        have h5 : g.base.obj = c.nextObj := by rw [gbase]; rfl
        omega
      · rw [setG_other hk]
        exact H.apartObj j k g1 g2 id hjk
  · intro l hl
    have h1 : SameAt m.mem c l := H.mem l fun j => by
      by_cases hj : j = i
      · subst hj; rw [hGi]; exact own_none
      · have := hl j; rwa [setG_other hj] at this
    have h2 : ¬ g.own cfg l := fun h => hl i (by rw [setG_same]; exact own_some.2 h)
    have h3 := sameAt_trans h1 (B.same l h2)
    cases l <;> exact h3
  · exact List.nodup_cons.2 ⟨hiL, H.nodup⟩
  · intro j
    by_cases hj : j = i
    · subst hj; simp
    · rw [setG_other hj, List.mem_cons]
      exact ⟨fun h => (H.listed j).1 (h.resolve_left hj), fun h => .inr ((H.listed j).2 h)⟩
  · intro id
    rw [B.dtors, H.dtors, List.map_cons, List.sum_cons, setG_same, sum_same (f := fun j => dD (G j) id) (f' := fun j => dD (setG G i (some g) j) id) hiL fun j hj => by simp only [setG_other hj]]
    show m.mem.dtors id + _ + _ = m.mem.dtors id + _
    omega
  · intro id
    rw [B.frees, H.frees, List.map_cons, List.sum_cons, setG_same, sum_same (f := fun j => dF (G j) id) (f' := fun j => dF (setG G i (some g) j) id) hiL fun j hj => by simp only [setG_other hj]]
    show m.mem.frees id + _ + _ = m.mem.frees id + _
    omega
  · show c1.copies = _
    rw [B.copies, H.copies, List.map_cons, List.sum_cons, setG_same, sum_same (f := fun j => dC (G j)) (f' := fun j => dC (setG G i (some g) j)) hiL fun j hj => by simp only [setG_other hj]]
    show m.mem.copies + _ + _ = m.mem.copies + _
    omega
  · intro id hid
    have h1 : c.born id = m.mem.born id := H.born id fun j g' hg' => by
      by_cases hj : j = i
      · subst hj; rw [hGi] at hg'; cases hg'
      · exact hid j g' (by rw [setG_other hj]; exact hg')
    have h2 : c1.born id = c.born id := by
      refine B.born id ?_
      by_cases hf : g.fin = none
      · exact .inr (.inr hf)
      · have := hid i g setG_same hf
        have h5 : g.base.obj = c.nextObj := by rw [gbase]; rfl
        omega
    exact h2.trans h1
  · intro j
    rw [doneBy_append, H.done j, opsOf_append]
    by_cases hj : j = i
    · subst hj
      rw [hGi, setG_same]
      have : doneBy j (List.map (fun x => (j, x.1, x.2)) (pending (some g))) = pending (some g) := by
        generalize pending (some g) = p
        induction p with
        | nil => rfl
        | cons x p ih => simp only [doneBy, List.map_cons, List.filter_cons, beq_self_eq_true, if_true] at ih ⊢; rw [ih]
      rw [this]
      simp [pending, opsOf]
    · rw [setG_other hj]
      have : doneBy j (List.map (fun x => (i, x.1, x.2)) (pending (some g))) = [] := by
        generalize pending (some g) = p
        induction p with
        | nil => rfl
        | cons x p ih =>
          have : (i == j) = false := by simpa using Ne.symm hj
          simp only [doneBy, List.map_cons, List.filter_cons, this] at ih ⊢
          exact ih
      rw [this]
      simp [opsOf]
  · rw [List.map_append, starts_append]
    refine List.Sublist.append H.order ?_
    simp only [pending, gop, starts]
    cases g.fin with
    | none => exact List.nil_sublist _
    | some x => exact .refl _
  · intro t1 j l x t2 ht
    rcases snoc_cases ht with ⟨_, h2, _⟩ | ⟨t3, rfl, ht3⟩
    · cases h2
    · obtain ⟨h1, h2⟩ := H.events t1 j l x t3 ht3
      refine ⟨fun k hk ho => ?_, fun hend => ?_⟩
      · by_cases hki : k = i
        · subst hki
          rw [setG_same, own_some, vis_some]
          have h2 := h2 fun op' r hm => ho (by
            obtain ⟨u1, u2, rfl⟩ := List.append_of_mem hm
            exact ⟨u1, op', r, u2, op, [], by simp⟩)
          exact ⟨fun h => other j (Ne.symm hk) l h h2.1, fun hx h => other' j (Ne.symm hk) l h (h2.2 hx)⟩
        · rw [setG_other hki]
          exact h1 k hk fun h => ho (ordered_snoc h)
      · have h2 := h2 fun op' r hm => hend op' r (List.mem_append_left _ hm)
        by_cases hji : j = i
        · subst hji; rw [hGi] at h2; exact absurd h2.1 vis_none
        · rw [setG_other hji]; exact h2
  · exact norace_snoc H.norace fun _ _ _ => by simp

/-- An operation in progress does the same in the whole memory as in the part that it uses. -/
theorem BusyOk.step {c mem : World} {g : Ghost} {book : World} {A : Act β} {k : β → Tree Unit} (B : BusyOk cfg c mem g (.act A k) book) :
    ∃ b u x, A.exec cfg (part g.vis mem book) = .ok b u ∧ A.exec cfg { book with anys := mem.anys, blks := mem.blks } = .ok b x ∧
      (x.nextBlk ≤ g.top.blk → SameBook u x ∧
        (∀ l, A.accesses { book with anys := mem.anys, blks := mem.blks } = some (l, true) → g.own cfg l ∧ SameAt u x l) ∧
        (∀ l, A.accesses { book with anys := mem.anys, blks := mem.blks } = some (l, false) → g.vis l) ∧
        Disc cfg (g.own cfg) g.base.blk g.top.blk (fun _ => True) (k b) u) := by
  have hd := B.defined
  rcases exec_cases (cfg := cfg) A (part g.vis mem book) with h | ⟨b, u, h⟩
  · exact absurd (by simp only [Tree.run, h]) hd
  have hacc : A.accesses (part g.vis mem book) = A.accesses { book with anys := mem.anys, blks := mem.blks } := accesses_congr A rfl
  by_cases hn : u.nextBlk ≤ g.top.blk
  · obtain ⟨hw, D'⟩ := B.disc b u h hn
    have hl : ∀ l wr, A.accesses (part g.vis mem book) = some (l, wr) → g.vis l := by
      intro l wr e
      cases wr with
      | true => exact own_vis (hw l e)
      | false =>
        by_cases hv : g.vis l
        · exact hv
        · exact absurd (exec_reads h e) (part_hidden hv)
    rcases exec_local (cfg := cfg) (A := A) (v := part g.vis mem book) (g := { book with anys := mem.anys, blks := mem.blks })
      ⟨rfl, rfl, rfl, rfl, rfl, rfl, rfl⟩ (fun l wr e => sameAt_trans (part_vis (hl l wr e)) (by cases l <;> rfl)) with
      ⟨h', _⟩ | ⟨b', u', x, h1, h2, h3, h4⟩
    · rw [h] at h'; cases h'
    · rw [h] at h1
      cases h1
      rw [hacc] at hl hw h4
      exact ⟨b, u, x, h, h2, fun _ => ⟨h3, fun l e => ⟨hw l e, h4 l e⟩, fun l e => hl l false e, D'⟩⟩
  · cases A with
    | newBlk al n =>
      cases h
      exact ⟨_, _, _, rfl, rfl, fun h => absurd h hn⟩
    | _ =>
      exfalso
      have h0 : u.nextBlk = (part g.vis mem book).nextBlk := by
        simp only [Act.exec, Mem.getAny, Mem.setAny, Mem.dropSlot, Mem.readSize, Mem.writeSize, Mem.deallocate, Mem.freshObj, Mem.countCopy,
          Mem.destroyAt, Mem.setCell] at h
        (repeat' split at h) <;> cases h <;> rfl
      exact hn (h0 ▸ B.room.1)

theorem Good.busy (H : Good cfg w tr m c h G L) {i : Nat} {op : Op} {t : Tree Unit} {base top : Names} {book : World}
    (ht : m.thread i = .busy op t base top book) :
    ∃ g, G i = some g ∧ g.op = op ∧ g.base = base ∧ g.top = top ∧ BusyOk cfg c m.mem g t book := by
  have K := H.link i
  rw [ht] at K
  generalize hG : G i = x at K
  cases K with
  | busy B => exact ⟨_, rfl, rfl, rfl, rfl, B⟩

theorem good_act (H : Good cfg w tr m c h G L) {i : Nat} {op : Op} {base top : Names} {book : World} {A : Act β} {k : β → Tree Unit} {b : β} {v : World}
    (ht : m.thread i = .busy op (.act A k) base top book) (he : A.exec cfg (m.world book) = .ok b v) (hn : (namesOf v).Le top) :
    Good cfg w (tr ++ accessEvent i (A.accesses (m.world book)))
      { mem := { m.mem with anys := v.anys, blks := v.blks }
        thread := fun j => if j = i then .busy op (k b) base top v else m.thread j } c h G L := by
  obtain ⟨g, hg, rfl, rfl, rfl, B⟩ := H.busy ht
  obtain ⟨b', u, x, hu, hx, hh⟩ := B.step
  have hx : A.exec cfg (m.world book) = .ok b' x := hx
  rw [he] at hx
  cases hx
  obtain ⟨hbook, hwr, hrd, D⟩ := hh hn.1
  have hacc : ∀ l y, A.accesses (m.world book) = some (l, y) → visOf (G i) l ∧ (y = true → ownOf cfg (G i) l) := by
    intro l y e
    rw [hg, own_some, vis_some]
    cases y with
    | true => exact ⟨own_vis (hwr l e).1, fun _ => (hwr l e).1⟩
    | false => exact ⟨hrd l e, fun h => by cases h⟩
  have hkeep : ∀ l, ¬ ownOf cfg (G i) l → SameAt m.mem v l := by
    intro l hl
    have := exec_writes he (l := l) fun e => hl ((hacc l true e).2 rfl)
    exact sameAt_trans (by cases l <;> rfl) this
  have hpart : part g.vis { m.mem with anys := v.anys, blks := v.blks } v = u := by
    refine world_ext ⟨hbook.1.symm, hbook.2.symm, hbook.3.symm, hbook.4.symm, hbook.5.symm, hbook.6.symm, hbook.7.symm⟩ fun l => ?_
    by_cases hl : g.vis l
    · refine sameAt_trans (part_vis hl) ?_
      by_cases hw : A.accesses (m.world book) = some (l, true)
      · exact sameAt_trans (by cases l <;> rfl) (sameAt_symm (hwr l hw).2)
      · have h1 := exec_writes hu (l := l) (fun e => hw ((accesses_congr A rfl).symm.trans e))
        have h2 := exec_writes he (l := l) hw
        have h3 : SameAt (part g.vis m.mem book) m.mem l := part_vis hl
        cases l with
        | any a => exact Eq.trans (Eq.symm h2) (Eq.trans (Eq.symm h3) h1)
        | blk a => exact Eq.trans (Eq.symm h2) (Eq.trans (Eq.symm h3) h1)
    · have h1 := exec_writes hu (l := l) (fun e => hl (own_vis (hwr l ((accesses_congr A rfl).symm.trans e)).1))
      cases l with
      | any a => simp only [SameAt, part, hl, if_false] at h1 ⊢; exact h1
      | blk a => simp only [SameAt, part, hl, if_false] at h1 ⊢; exact h1
  have hops : ∀ j, opsOf (tr ++ accessEvent i (A.accesses (m.world book))) j = opsOf tr j := by
    intro j
    rw [opsOf_append]
    cases A.accesses (m.world book) with
    | none => exact List.append_nil _
    | some x => exact List.append_nil _
  have hstarts : starts (tr ++ accessEvent i (A.accesses (m.world book))) = starts tr := by
    rw [starts_append]
    cases A.accesses (m.world book) with
    | none => exact List.append_nil _
    | some x => exact List.append_nil _
  refine { seq := H.seq, wf := H.wf, names := H.names, link := ?_, apart := H.apart, apartObj := H.apartObj, mem := ?_, nodup := H.nodup,
           listed := H.listed, dtors := H.dtors, frees := H.frees, copies := H.copies, born := H.born, done := fun j => ?_, order := ?_, events := ?_,
           norace := ?_ }
  · intro j
    by_cases hj : j = i
    · subst hj
      simp only [if_true, hg]
      refine .busy ⟨B.base, B.le, B.wf0, B.before, hn, ?_, ?_, ?_, B.fin, B.never, B.sep⟩
      · rw [hpart, B.run]; simp only [Tree.run, hu]
      · have := B.defined
        simp only [Tree.run, hu] at this
        rw [hpart]; exact this
      · rw [hpart]; exact D
    · simp only [hj, if_false]
      have K := H.link j
      generalize m.thread j = th at K
      cases hGj : G j with
      | none =>
        rw [hGj] at K
        cases K
        exact .idle
      | some g' =>
        rw [hGj] at K
        cases K with
        | @busy _ t' book' K =>
          refine .busy (K.congr (Names.Le.refl _) (fun l hl => ?_) (fun l _ => by cases l <;> rfl) (fun _ _ _ => rfl) fun a s hs => .inl hs)
          have := hkeep l fun h => H.apart i j l (Ne.symm hj) h (by rw [hGj]; exact vis_some.2 hl)
          exact sameAt_trans this (by cases l <;> rfl)
  · intro l hl
    have h1 := sameAt_trans (sameAt_symm (hkeep l (hl i))) (H.mem l hl)
    exact sameAt_trans (by cases l <;> rfl) h1
  · rw [hops]; exact H.done j
  · rw [hstarts]; exact H.order
  · cases ha : A.accesses (m.world book) with
    | none =>
      rw [show accessEvent i none = [] from rfl, List.append_nil]
      exact H.events
    | some p =>
      obtain ⟨l, y⟩ := p
      intro t1 j l' x t2 h
      rcases snoc_cases h with ⟨rfl, h2, rfl⟩ | ⟨t3, rfl, ht3⟩
      · cases h2
        refine ⟨fun k hk _ => ⟨fun ho => H.apart k _ _ hk ho (hacc _ _ ha).1, fun hx hv => H.apart _ k _ (Ne.symm hk) ((hacc _ _ ha).2 hx) hv⟩,
          fun _ => hacc _ _ ha⟩
      · obtain ⟨h1, h2⟩ := H.events t1 j l' x t3 ht3
        exact ⟨fun k hk ho => h1 k hk fun h => ho (ordered_snoc h), fun he => h2 fun op' r hm => he op' r (List.mem_append_left _ hm)⟩
  · cases ha : A.accesses (m.world book) with
    | none =>
      rw [show accessEvent i none = [] from rfl, List.append_nil]
      exact H.norace
    | some p =>
      obtain ⟨l, y⟩ := p
      rintro ⟨t1, j, l', x, t2, j', y', t3, h, hjj, hxy, ho⟩
      rcases snoc_cases h with ⟨rfl, h2, h3⟩ | ⟨t4, rfl, h3⟩
      · cases h2
        obtain ⟨h4, _⟩ := H.events t1 j _ x t2 h3.symm
        have h5 := h4 _ (Ne.symm hjj) ho
        have h6 := hacc _ _ ha
        rcases hxy with h | h
        · exact h5.2 h h6.1
        · exact h5.1 (h6.2 h)
      · exact H.norace ⟨t1, j, l', x, t2, j', y', t4, h3, hjj, hxy, ho⟩

theorem good_end (H : Good cfg w tr m c h G L) {i : Nat} {op : Op} {base top : Names} {book : World} {t : Tree Unit} {r : Bool}
    (ht : m.thread i = .busy op t base top book) (hr : ∀ v, Ended (t.run cfg v) r v) :
    Good cfg w (tr ++ [.ends i op r])
      { mem := settle base top book m.mem
        thread := fun j => if j = i then .nothing else m.thread j } c h (setG G i none) (L.erase i) := by
  obtain ⟨g, hg, rfl, rfl, rfl, B⟩ := H.busy ht
  have hEnd : Ended ((Fine.exec cfg g.op).run cfg g.v0) r (part g.vis m.mem book) := by
    rw [B.run]; exact hr _
  have hfin : g.fin = some (r, part g.vis m.mem book) := by
    cases hf : g.fin with
    | none => exact absurd (show (namesOf (part g.vis m.mem book)).Le g.top from B.room) (B.never hf r _ hEnd)
    | some x =>
      obtain ⟨r', v'⟩ := x
      have h1 := (B.fin r' v' hf).1
      unfold Ended at h1 hEnd
      rw [hEnd] at h1
      cases r <;> cases r' <;> cases h1 <;> rfl
  obtain ⟨_, f2, f3⟩ := B.fin _ _ hfin
  have hiL : i ∈ L := (H.listed i).2 (by rw [hg]; simp)
  have hsame : ∀ l, SameAt (settle g.base g.top book m.mem) m.mem l := fun l => by cases l <;> rfl
  refine { seq := H.seq, wf := H.wf, names := H.names, link := ?_, apart := ?_, apartObj := ?_, mem := ?_, nodup := H.nodup.erase i,
           listed := ?_, dtors := ?_, frees := ?_, copies := ?_, born := ?_, done := ?_, order := ?_, events := ?_,
           norace := norace_snoc H.norace fun _ _ _ => by simp }
  · intro j
    by_cases hj : j = i
    · subst hj
      simp only [if_true, setG_same]
      exact .idle
    · simp only [hj, if_false, setG_other hj]
      have K := H.link j
      generalize m.thread j = th at K
      cases hGj : G j with
      | none =>
        rw [hGj] at K
        cases K
        exact .idle
      | some g' =>
        rw [hGj] at K
        cases K with
        | @busy _ t' book' K =>
          exact .busy (K.congr (Names.Le.refl _) (fun l _ => sameAt_symm (hsame l)) (fun l _ => by cases l <;> rfl) (fun _ _ _ => rfl) fun a s hs => .inl hs)
  · intro j k l hjk h1 h2
    by_cases hj : j = i
    · subst hj; rw [setG_same] at h1; exact own_none h1
    by_cases hk : k = i
    · subst hk; rw [setG_same] at h2; exact vis_none h2
    rw [setG_other hj] at h1
    rw [setG_other hk] at h2
    exact H.apart j k l hjk h1 h2
  · intro j k g1 g2 id hjk h1 h2
    by_cases hj : j = i
    · subst hj; rw [setG_same] at h1; cases h1
    by_cases hk : k = i
    · subst hk; rw [setG_same] at h2; cases h2
    rw [setG_other hj] at h1
    rw [setG_other hk] at h2
    exact H.apartObj j k g1 g2 id hjk h1 h2
  · intro l hl
    refine sameAt_trans (hsame l) ?_
    by_cases ho : g.own cfg l
    · exact sameAt_trans (sameAt_symm (part_vis (own_vis ho))) (f2 l ho)
    · refine H.mem l fun j => ?_
      by_cases hj : j = i
      · subst hj; rw [hg, own_some]; exact ho
      · have := hl j; rwa [setG_other hj] at this
  · intro j
    rw [H.nodup.mem_erase_iff]
    by_cases hj : j = i
    · subst hj; simp
    · rw [setG_other hj, H.listed j]; simp [hj]
  · intro id
    rw [H.dtors, sum_erase (f := fun j => dD (G j) id) (f' := fun j => dD (setG G i none j) id) H.nodup hiL fun j hj => by simp only [setG_other hj]]
    have : dD (G i) id = book.dtors id + if book.nextObj ≤ id ∧ id < g.top.obj then 1 else 0 := by
      rw [hg]; simp only [dD, hfin]; rfl
    rw [this]
    simp only [settle]
    omega
  · intro id
    rw [H.frees, sum_erase (f := fun j => dF (G j) id) (f' := fun j => dF (setG G i none j) id) H.nodup hiL fun j hj => by simp only [setG_other hj]]
    have : dF (G i) id = book.frees id + if book.nextBlk ≤ id ∧ id < g.top.blk then 1 else 0 := by
      rw [hg]; simp only [dF, hfin]; rfl
    rw [this]
    simp only [settle]
    omega
  · rw [H.copies, sum_erase (f := fun j => dC (G j)) (f' := fun j => dC (setG G i none j)) H.nodup hiL fun j hj => by simp only [setG_other hj]]
    have : dC (G i) = book.copies := by
      rw [hg]; simp only [dC, hfin]; rfl
    rw [this]
    simp only [settle]
    omega
  · intro id hid
    show c.born id = if g.base.obj ≤ id ∧ id < g.top.obj then book.born id else m.mem.born id
    by_cases hin : g.base.obj ≤ id ∧ id < g.top.obj
    · rw [if_pos hin]; exact f3 id hin.1 hin.2
    · rw [if_neg hin]
      refine H.born id fun j g' hg' => ?_
      by_cases hj : j = i
      · subst hj; rw [hg] at hg'; cases hg'; exact fun _ => hin
      · exact hid j g' (by rw [setG_other hj]; exact hg')
  · intro j
    rw [H.done j, opsOf_append]
    by_cases hj : j = i
    · subst hj
      rw [hg, setG_same]
      simp [pending, hfin, opsOf]
    · rw [setG_other hj]
      simp [opsOf, Ne.symm hj]
  · rw [starts_append]
    simpa [starts] using H.order
  · intro t1 j l x t2 h
    rcases snoc_cases h with ⟨_, h2, _⟩ | ⟨t3, rfl, ht3⟩
    · cases h2
    · obtain ⟨h1, h2⟩ := H.events t1 j l x t3 ht3
      refine ⟨fun k hk ho => ?_, fun he => ?_⟩
      · by_cases hki : k = i
        · subst hki; rw [setG_same]; exact ⟨own_none, fun _ => vis_none⟩
        · rw [setG_other hki]; exact h1 k hk fun h => ho (ordered_snoc h)
      · by_cases hji : j = i
        · subst hji; exact absurd (List.mem_append_right _ (List.mem_singleton.2 rfl)) (he g.op r)
        · rw [setG_other hji]; exact h2 fun op' r' hm => he op' r' (List.mem_append_left _ hm)

theorem good (C : CfgOk cfg) (W : WF cfg w) (run : Exec cfg w tr m) : ∃ c h G L, Good cfg w tr m c h G L := by
  induction run with
  | init => exact ⟨_, _, _, _, good_init W⟩
  | @step tr m es m' _ st ih =>
    obtain ⟨c, h, G, L, H⟩ := ih
    cases st with
    | start h1 h2 h3 h4 => exact good_start C H h1 h2 h3 h4
    | act h1 h2 h3 => exact ⟨_, _, _, _, good_act H h1 h2 h3⟩
    | ret h1 => exact ⟨_, _, _, _, good_end H h1 fun _ => rfl⟩
    | exn h1 => exact ⟨_, _, _, _, good_end H h1 fun _ => rfl⟩

end start

end AnyAny.Sync
