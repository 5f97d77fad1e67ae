import Verif.Lemmas.FineLocal
import Verif.Props.Threads
/-
Threads whose operations run at the same time: the state of each of them is at all times one of a run of this thread alone.
-/
namespace AnyAny.Fine
open AnyAny.Mem (Cfg Obj Ptr AnySt Blk World Res Op Prog WF CfgOk Alone SafeAlone Elapse OwnedBy only sees Legal Ends Reachable snap memOf fix onlyFix)

variable {cfg : Cfg} {faults : Nat → Nat → Bool} {w : World} {owner : Nat → Option Nat} {P : Nat → Prog} {B : Nat}

def lo (w : World) (B i : Nat) : Nat := w.nextBlk + i * B

/-- What only thread `i` uses. -/
def Owns (w : World) (owner : Nat → Option Nat) (B i : Nat) : Loc → Prop
  | .any a => owner a = some i
  | .blk b => (lo w B i ≤ b ∧ b < lo w B (i + 1)) ∨ OwnedBy (fun a => owner a == some i) w b

/-- What all threads may read. -/
def Shared (w : World) (owner : Nat → Option Nat) : Loc → Prop
  | .any a => owner a = none
  | .blk b => OwnedBy (fun a => owner a == none) w b

def Vis (w : World) (owner : Nat → Option Nat) (B i : Nat) (l : Loc) : Prop := Owns w owner B i l ∨ Shared w owner l

theorem lo_mono {i j : Nat} (h : i < j) : lo w B (i + 1) ≤ lo w B j := by
  unfold lo
  have := Nat.mul_le_mul_right B (show i + 1 ≤ j from h)
  omega

theorem owned_lt (W : WF cfg w) {F : Nat → Bool} {b : Nat} (h : OwnedBy F w b) : b < w.nextBlk := by
  obtain ⟨a, n, _, hm⟩ := h
  unfold memOf at hm
  cases ha : w.anys a with
  | none => rw [ha] at hm; cases hm
  | some s =>
    rw [ha] at hm
    simp only [Option.bind_some] at hm
    split at hm
    · cases hm
    · rename_i b' _
      obtain ⟨k, hk, e⟩ := Option.map_eq_some_iff.1 hm
      cases e
      rcases Nat.lt_or_ge b w.nextBlk with h | h
      · exact h
      · rw [(W.beyondBlk b h).1] at hk; cases hk

theorem owned_inj (W : WF cfg w) {F G : Nat → Bool} {b : Nat} (h : OwnedBy F w b) (h' : OwnedBy G w b) : ∃ a, F a = true ∧ G a = true := by
  have key : ∀ {a n}, memOf w a = some (b, n) → ∃ s, w.anys a = some s ∧ s.vp = .blk b := by
    intro a n hm
    unfold memOf at hm
    cases ha : w.anys a with
    | none => rw [ha] at hm; cases hm
    | some s =>
      rw [ha] at hm
      simp only [Option.bind_some] at hm
      split at hm
      · cases hm
      · rename_i h'
        obtain ⟨k, hk, e⟩ := Option.map_eq_some_iff.1 hm
        cases e
        exact ⟨s, rfl, h'⟩
  obtain ⟨a, n, hf, hm⟩ := h
  obtain ⟨c, k, hg, hm'⟩ := h'
  obtain ⟨s, h1, h2⟩ := key hm
  obtain ⟨t, h3, h4⟩ := key hm'
  have := W.blkInj a s c t b h1 h3 h2 h4
  subst this
  exact ⟨a, hf, hg⟩

/-- What a thread owns the others do not see. -/
theorem owns_not_vis (W : WF cfg w) {i j : Nat} (hij : i ≠ j) {l : Loc} (h : Owns w owner B i l) : ¬ Vis w owner B j l := by
  have base : ∀ {F : Nat → Bool} {k b}, OwnedBy F w b → ¬ lo w B k ≤ b := fun {F k b} h h' => by
    have := owned_lt W h
    unfold lo at h'
    omega
  cases l with
  | any a =>
    rintro (h' | h')
    · exact hij (Option.some.inj (Eq.trans (Eq.symm h) h'))
    · exact absurd (Eq.trans (Eq.symm h) h') (by simp)
  | blk b =>
    rcases h with h | h
    · rintro ((h' | h') | h')
      · rcases Nat.lt_or_gt_of_ne hij with h2 | h2
        · have := lo_mono (w := w) (B := B) h2; omega
        · have := lo_mono (w := w) (B := B) h2; omega
      · exact base h' h.1
      · exact base h' h.1
    · rintro ((h' | h') | h')
      · exact base h h'.1
      · obtain ⟨a, h1, h2⟩ := owned_inj W h h'
        simp only [beq_iff_eq] at h1 h2
        exact hij (Option.some.inj (h1.symm.trans h2))
      · obtain ⟨a, h1, h2⟩ := owned_inj W h h'
        simp only [beq_iff_eq] at h1 h2
        rw [h1] at h2; cases h2

theorem owns_not_shared (W : WF cfg w) {i : Nat} {l : Loc} (h : Owns w owner B i l) : ¬ Shared w owner l := fun h' =>
  owns_not_vis W (show i ≠ i + 1 by omega) h (.inr h')

open Classical in
/-- The part of the memory that thread `i` sees, with its bookkeeping. -/
noncomputable def view (w : World) (owner : Nat → Option Nat) (B : Nat) (m : Machine) (i : Nat) : World :=
  { m.priv i with
    anys := fun a => if Vis w owner B i (.any a) then m.anys a else none
    blks := fun b => if Vis w owner B i (.blk b) then m.blks b else none }

theorem view_vis {m : Machine} {i : Nat} {l : Loc} (h : Vis w owner B i l) : SameAt (view w owner B m i) (m.world i) l := by
  cases l <;> simp only [SameAt, view, h, if_true, Machine.world]

theorem view_book {m : Machine} {i : Nat} : SameBook (view w owner B m i) (m.world i) := ⟨rfl, rfl, rfl, rfl, rfl, rfl, rfl⟩

theorem view_none {m : Machine} {i : Nat} {l : Loc} (h : ¬ Vis w owner B i l) : ¬ Present (view w owner B m i) l := by
  cases l <;> simp [Present, view, h]

/-- Runs of one thread without anything else happening. -/
inductive Steps (cfg : Cfg) : World → Prog → List (Op × Bool) → World → Prog → Prop
  | nil {v p} : Steps cfg v p [] v p
  | step {v op next r v1 t v' p'} : Legal cfg v op → Ends cfg op v r v1 → Steps cfg v1 (next r) t v' p' →
      Steps cfg v (.step op next) ((op, r) :: t) v' p'

theorem Steps.alone {v v' : World} {p p' : Prog} {t : List (Op × Bool)} (h : Steps cfg v p t v' p') : Alone cfg v p t v' p' := by
  induction h with
  | nil => exact .nil
  | step L e _ ih => exact .step L e ih

theorem Steps.append {v v1 v2 : World} {p p1 p2 : Prog} {t1 t2 : List (Op × Bool)} (h1 : Steps cfg v p t1 v1 p1)
    (h2 : Steps cfg v1 p1 t2 v2 p2) : Steps cfg v p (t1 ++ t2) v2 p2 := by
  induction h1 with
  | nil => exact h2
  | step L e _ ih => exact .step L e (ih h2)

/-- What holds for each thread at all times. -/
structure Good (cfg : Cfg) (faults : Nat → Nat → Bool) (w : World) (owner : Nat → Option Nat) (P : Nat → Prog) (B : Nat) (tr : List Event)
    (m : Machine) (i : Nat) (v0 : World) : Prop where
  steps : Steps (cfgOf cfg faults i) (view w owner B (.init w P B) i) (P i) (opsOf tr i) v0 (m.thread i).prog
  uses : (m.thread i).prog.Uses cfg owner i
  last : Room w B i (m.priv i)
  idle : ∀ p, m.thread i = .idle p → v0 = view w owner B m i ∧ Inv (Owns w owner B i) (lo w B i) (lo w B (i + 1)) (view w owner B m i)
  busy : ∀ op next t, m.thread i = .busy op next t →
    (exec (cfgOf cfg faults i) op).run (cfgOf cfg faults i) v0 = t.run (cfgOf cfg faults i) (view w owner B m i) ∧
    Disc (cfgOf cfg faults i) (Owns w owner B i) (lo w B i) (lo w B (i + 1)) (fun _ => True) t (view w owner B m i)

/-- In the beginning a thread sees its own and the shared objects. -/
theorem start_elapse (W : WF cfg w) (i : Nat) : Elapse (only (sees owner i) w) (view w owner B (.init w P B) i) := by
  have hvis : ∀ a, Vis w owner B i (.any a) ↔ sees owner i a = true := by
    intro a
    simp only [Vis, Owns, Shared, sees, Bool.or_eq_true, beq_iff_eq]
  have hblk : ∀ b, OwnedBy (sees owner i) w b ↔ OwnedBy (fun a => owner a == some i) w b ∨ OwnedBy (fun a => owner a == none) w b := by
    intro b
    simp only [OwnedBy, sees, Bool.or_eq_true]
    constructor
    · rintro ⟨a, n, h | h, hm⟩
      · exact .inl ⟨a, n, h, hm⟩
      · exact .inr ⟨a, n, h, hm⟩
    · rintro (⟨a, n, h, hm⟩ | ⟨a, n, h, hm⟩)
      · exact ⟨a, n, .inl h, hm⟩
      · exact ⟨a, n, .inr h, hm⟩
  refine ⟨?_, ?_, ?_, Nat.le_add_right _ _, Nat.le_refl _, fun _ _ => rfl⟩
  · funext a
    simp only [view, only, hvis, Machine.init]
  · funext b
    simp only [view, only, Machine.init]
    by_cases ho : OwnedBy (sees owner i) w b
    · have : Vis w owner B i (.blk b) := by
        rcases (hblk b).1 ho with h | h
        · exact .inl (.inr h)
        · exact .inr h
      simp only [this, ho, if_true]
    · by_cases hv : Vis w owner B i (.blk b)
      · simp only [hv, ho, if_true, if_false]
        rcases hv with (h | h) | h
        · have := h.1
          exact (W.beyondBlk b (by unfold lo at this; omega)).1
        · exact absurd ((hblk b).2 (.inl h)) ho
        · exact absurd ((hblk b).2 (.inr h)) ho
      · simp only [hv, ho, if_false]
  · exact Nat.le_add_right _ _

theorem Good.alone (W : WF cfg w) {tr : List Event} {m : Machine} {i : Nat} {v0 : World} (G : Good cfg faults w owner P B tr m i v0) :
    Alone (cfgOf cfg faults i) (only (sees owner i) w) (P i) (opsOf tr i) v0 (m.thread i).prog :=
  .elapse (start_elapse W i) G.steps.alone

theorem cfgOk (C : CfgOk cfg) (i : Nat) : CfgOk (cfgOf cfg faults i) := ⟨C.align, C.copyAlloc⟩

theorem wf_faults (W : WF cfg w) (i : Nat) : WF (cfgOf cfg faults i) w where
  any a s h := ⟨(W.any a s h).destroyIn, (W.any a s h).shape, (W.any a s h).full, (W.any a s h).empty⟩
  blkInj := W.blkInj
  objInj := W.objInj
  owned := W.owned
  freed := W.freed
  beyondBlk := W.beyondBlk
  destroyed := W.destroyed
  beyondObj := W.beyondObj
  once := W.once

theorem start_wf (W : WF cfg w) (i : Nat) : WF (cfgOf cfg faults i) (fix (only (sees owner i) w)) :=
  Mem.fix_wf (Mem.onlyFix_wf (F := sees owner i) (wf_faults W i)) ⟨rfl, rfl, Nat.le_refl _, Nat.le_refl _, Nat.le_refl _, fun _ _ => rfl⟩

/-- The behaviour of the rest of the operation that thread `i` is executing is defined in the part of the memory that it sees. -/
theorem Good.defined (C : CfgOk cfg) (W : WF cfg w) {tr : List Event} {m : Machine} {i : Nat} {v0 : World}
    (G : Good cfg faults w owner P B tr m i v0) (hs : SafeAlone (cfgOf cfg faults i) (only (sees owner i) w) (P i))
    {op : Op} {next : Bool → Prog} {t : Tree Unit} (ht : m.thread i = .busy op next t) :
    Legal (cfgOf cfg faults i) v0 op ∧ t.run (cfgOf cfg faults i) (view w owner B m i) ≠ .ub := by
  have ha := G.alone W
  rw [ht] at ha
  have L := hs _ _ op next ha
  refine ⟨L, ?_⟩
  rw [← (G.busy _ _ _ ht).1, run_exec]
  exact Mem.alone_defined (cfgOk C i) (ha.wf (cfgOk C i) (start_wf W i)) L

/-- The next step of a thread: it is the same in the whole memory and in the part that the thread sees. -/
theorem Good.step (C : CfgOk cfg) (W : WF cfg w) {tr : List Event} {m : Machine} {i : Nat} {v0 : World}
    (G : Good cfg faults w owner P B tr m i v0) (hs : SafeAlone (cfgOf cfg faults i) (only (sees owner i) w) (P i))
    {op : Op} {next : Bool → Prog} {β : Type} {A : Act β} {k : β → Tree Unit} (ht : m.thread i = .busy op next (.act A k)) :
    ∃ b v' g', A.exec (cfgOf cfg faults i) (view w owner B m i) = .ok b v' ∧ A.exec (cfgOf cfg faults i) (m.world i) = .ok b g' ∧
      (g'.nextBlk ≤ lo w B (i + 1) → SameBook v' g' ∧
        (∀ l, A.accesses (m.world i) = some (l, true) → Owns w owner B i l ∧ SameAt v' g' l) ∧
        (∀ l, A.accesses (m.world i) = some (l, false) → Vis w owner B i l) ∧
        Disc (cfgOf cfg faults i) (Owns w owner B i) (lo w B i) (lo w B (i + 1)) (fun _ => True) (k b) v') := by
  obtain ⟨_, hd⟩ := G.defined C W hs ht
  have D := (G.busy _ _ _ ht).2
  rcases exec_cases (cfg := cfgOf cfg faults i) A (view w owner B m i) with h | ⟨b, v', h⟩
  · exact absurd (by simp only [Tree.run, h]) hd
  have hacc : A.accesses (view w owner B m i) = A.accesses (m.world i) := accesses_congr A rfl
  by_cases hn : v'.nextBlk ≤ lo w B (i + 1)
  · obtain ⟨hw, D'⟩ := D b v' h hn
    have hl : ∀ l wr, A.accesses (view w owner B m i) = some (l, wr) → Vis w owner B i l := by
      intro l wr e
      cases wr with
      | true => exact .inl (hw l e)
      | false =>
        by_cases hv : Vis w owner B i l
        · exact hv
        · exact absurd (exec_reads h e) (view_none hv)
    rcases exec_local (cfg := cfgOf cfg faults i) (A := A) (v := view w owner B m i) (g := m.world i) view_book (fun l wr e => view_vis (hl l wr e)) with
      ⟨h', _⟩ | ⟨b', v'', g', h1, h2, h3, h4⟩
    · rw [h] at h'; cases h'
    · rw [h] at h1
      cases h1
      rw [hacc] at hl hw h4
      exact ⟨b, v', g', h, h2, fun _ => ⟨h3, fun l e => ⟨hw l e, h4 l e⟩, fun l e => hl l false e, D'⟩⟩
  · -- only an allocation takes a new name, and it is defined
    cases A with
    | newBlk al n =>
      cases h
      exact ⟨_, _, _, rfl, rfl, fun h => absurd h hn⟩
    | _ =>
      exfalso
      have h0 : v'.nextBlk = (view w owner B m i).nextBlk := by
        simp only [Act.exec, Mem.getAny, Mem.setAny, Mem.dropSlot, Mem.readSize, Mem.writeSize, Mem.deallocate, Mem.freshObj, Mem.countCopy,
          Mem.destroyAt, Mem.setCell] at h
        (repeat' split at h) <;> cases h <;> rfl
      exact hn (h0 ▸ G.last.1)

theorem opsOf_append (tr es : List Event) (i : Nat) : opsOf (tr ++ es) i = opsOf tr i ++ opsOf es i := by
  induction tr with
  | nil => rfl
  | cons e tr ih =>
    cases e with
    | access j l x => exact ih
    | ends j op r =>
      simp only [List.cons_append, opsOf]
      split
      · rw [ih]; rfl
      · exact ih

/-- The whole state. -/
structure GoodAll (cfg : Cfg) (faults : Nat → Nat → Bool) (w : World) (owner : Nat → Option Nat) (P : Nat → Prog) (B : Nat) (tr : List Event)
    (m : Machine) : Prop where
  good : ∀ i, ∃ v0, Good cfg faults w owner P B tr m i v0
  events : ∀ i l x, .access i l x ∈ tr → Vis w owner B i l ∧ (x = true → Owns w owner B i l)
  rest : ∀ l i, (∀ j, ¬ Owns w owner B j l) → SameAt w (m.world i) l

theorem good_init (W : WF cfg w) (hu : ∀ i, (P i).Uses cfg owner i) (i : Nat) :
    ∃ v0, Good cfg faults w owner P B [] (.init w P B) i v0 := by
  refine ⟨view w owner B (.init w P B) i, .nil, hu i, ?_, fun p hp => ⟨rfl, ?_⟩, fun op next t h => by cases h⟩
  · have h1 : (i + 1) * B = i * B + B := Nat.succ_mul i B
    constructor
    · show w.nextBlk + i * B ≤ _; omega
    · show w.nextObj + i * B ≤ _; omega
  · refine ⟨fun b h1 h2 => .inl ⟨h1, h2⟩, Nat.le_refl _, fun c s hc hs => ?_⟩
    have hv : Vis w owner B i (.any c) := .inl hc
    have hs : w.anys c = some s := by
      have := (view_vis (m := .init w P B) hv : (view w owner B (.init w P B) i).anys c = _)
      exact this.symm.trans hs
    rcases (W.any c s hs).shape with h | ⟨b, k, h, hk, _⟩
    · rw [h]; exact hc
    · rw [h]
      exact .inr ⟨c, k.size, by simpa using (show owner c = some i from hc), by simp only [memOf, hs, Option.bind_some, h, hk, Option.map_some]⟩

theorem goodAll (C : CfgOk cfg) (W : WF cfg w) (hu : ∀ i, (P i).Uses cfg owner i)
    (hs : ∀ i, SafeAlone (cfgOf cfg faults i) (only (sees owner i) w) (P i)) {tr : List Event} {m : Machine}
    (run : Exec cfg faults w P B tr m) : GoodAll cfg faults w owner P B tr m := by
  induction run with
  | init => exact ⟨good_init W hu, fun i l x h => (by cases h), fun l i _ => by cases l <;> rfl⟩
  | @step tr m es m' _ st ih =>
    -- a step that does not access memory
    have quiet : ∀ {i : Nat} {s : ThreadState} {es : List Event}, (∀ j l x, .access j l x ∉ es) → (∀ j, j ≠ i → opsOf es j = []) →
        (∃ v0, Good cfg faults w owner P B (tr ++ es) (m.setThread i s) i v0) → GoodAll cfg faults w owner P B (tr ++ es) (m.setThread i s) := by
      intro i s es h1 h2 h3
      refine ⟨fun j => ?_, fun j l x h => ?_, ih.rest⟩
      · by_cases hj : j = i
        · subst hj; exact h3
        · obtain ⟨v0, G⟩ := ih.good j
          have e : (m.setThread i s).thread j = m.thread j := if_neg hj
          refine ⟨v0, ?_, ?_, G.last, fun p hp => G.idle p (e ▸ hp), fun op next t ht => G.busy op next t (e ▸ ht)⟩
          · rw [opsOf_append, h2 j hj, List.append_nil, e]; exact G.steps
          · rw [e]; exact G.uses
      · rcases List.mem_append.1 h with h | h
        · exact ih.events j l x h
        · exact absurd h (h1 j l x)
    cases st with
    | @start i op next ht =>
      refine quiet (fun _ _ _ h => by cases h) (fun _ _ => rfl) ?_
      obtain ⟨v0, G⟩ := ih.good i
      have ei : (m.setThread i (.busy op next (exec (cfgOf cfg faults i) op))).thread i = .busy op next (exec (cfgOf cfg faults i) op) := if_pos rfl
      have hu := G.uses
      have ha := G.steps
      rw [ht] at hu ha
      obtain ⟨e0, I⟩ := G.idle _ ht
      refine ⟨v0, ?_, ?_, G.last, fun p hp => (by rw [ei] at hp; cases hp), fun op' next' t' ht' => ?_⟩
      · rw [ei, List.append_nil]; exact ha
      · rw [ei]; exact hu
      · rw [ei] at ht'
        cases ht'
        have hw : ∀ a ∈ op.writes (cfgOf cfg faults i), Owns w owner B i (.any a) := by
          intro a h
          refine hu.1 a ?_
          have : op.writes (cfgOf cfg faults i) = op.writes cfg := by cases op <;> rfl
          rwa [this] at h
        exact ⟨by rw [e0]; rfl, Safe.exec hw _ I⟩
    | @ret i op next ht =>
      refine quiet (fun _ _ _ h => by cases h with | tail _ h => cases h) (fun j hj => if_neg (Ne.symm hj)) ?_
      obtain ⟨v0, G⟩ := ih.good i
      have ei : (m.setThread i (.idle (next true))).thread i = .idle (next true) := if_pos rfl
      have hu := G.uses
      have ha := G.steps
      rw [ht] at hu ha
      obtain ⟨hr, D⟩ := G.busy _ _ _ ht
      have L := (G.defined C W (hs i) ht).1
      rw [run_exec] at hr
      refine ⟨view w owner B m i, ?_, ?_, G.last, fun p hp => ⟨rfl, D.2⟩, fun op' next' t' ht' => (by rw [ei] at ht'; cases ht')⟩
      · rw [opsOf_append, ei, show opsOf [Event.ends i op true] i = [(op, true)] from if_pos rfl]
        exact ha.append (.step L hr .nil)
      · rw [ei]; exact hu.2.2 true
    | @exn i op next ht =>
      refine quiet (fun _ _ _ h => by cases h with | tail _ h => cases h) (fun j hj => if_neg (Ne.symm hj)) ?_
      obtain ⟨v0, G⟩ := ih.good i
      have ei : (m.setThread i (.idle (next false))).thread i = .idle (next false) := if_pos rfl
      have hu := G.uses
      have ha := G.steps
      rw [ht] at hu ha
      obtain ⟨hr, D⟩ := G.busy _ _ _ ht
      have L := (G.defined C W (hs i) ht).1
      rw [run_exec] at hr
      refine ⟨view w owner B m i, ?_, ?_, G.last, fun p hp => ⟨rfl, D⟩, fun op' next' t' ht' => (by rw [ei] at ht'; cases ht')⟩
      · rw [opsOf_append, ei, show opsOf [Event.ends i op false] i = [(op, false)] from if_pos rfl]
        exact ha.append (.step L hr .nil)
      · rw [ei]; exact hu.2.2 false
    | @act i op next β A k b g' ht he hn =>
      obtain ⟨v0, G⟩ := ih.good i
      obtain ⟨b', v', g'', hv, hg, hh⟩ := G.step C W (hs i) ht
      rw [he] at hg
      cases hg
      obtain ⟨hbook, hwr, hrd, D⟩ := hh hn.1
      have hops : ∀ j, opsOf (tr ++ accessEvent i (A.accesses (m.world i))) j = opsOf tr j := by
        intro j
        rw [opsOf_append]
        cases A.accesses (m.world i) with
        | none => exact List.append_nil _
        | some x => exact List.append_nil _
      -- the memory of the machine outside the location written
      have hkeep : ∀ l, (∀ x, A.accesses (m.world i) = some (x, true) → x ≠ l) → SameAt (m.world i) g' l := fun l h =>
        exec_writes he fun e => h l e rfl
      refine ⟨fun j => ?_, fun j l x h => ?_, fun l j hl => ?_⟩
      · by_cases hj : j = i
        · subst hj
          have hview : view w owner B (m.put j g' (.busy op next (k b))) j = v' := by
            refine world_ext ?_ fun l => ?_
            · refine ⟨?_, ?_, ?_, ?_, ?_, ?_, ?_⟩ <;> simp only [view, Machine.put, if_true]
              · exact hbook.1.symm
              · exact hbook.2.symm
              · exact hbook.3.symm
              · exact hbook.4.symm
              · exact hbook.5.symm
              · exact hbook.6.symm
              · exact hbook.7.symm
            · by_cases hl : Vis w owner B j l
              · have hgv : SameAt v' g' l := by
                  by_cases hw : A.accesses (m.world j) = some (l, true)
                  · exact (hwr l hw).2
                  · have h1 := exec_writes hv (l := l) (fun e => hw ((accesses_congr A rfl).symm.trans e))
                    have h2 := exec_writes he (l := l) hw
                    have h3 := view_vis (m := m) hl
                    cases l with
                    | any a => exact h1.symm.trans (h3.trans h2)
                    | blk a => exact h1.symm.trans (h3.trans h2)
                cases l with
                | any a => simp only [SameAt, view, Machine.put, hl, if_true]; exact hgv.symm
                | blk a => simp only [SameAt, view, Machine.put, hl, if_true]; exact hgv.symm
              · have h1 := exec_writes hv (l := l) (fun e => hl (.inl (hwr l ((accesses_congr A rfl).symm.trans e)).1))
                cases l with
                | any a => simp only [SameAt, view, Machine.put, hl, if_false] at h1 ⊢; exact h1
                | blk a => simp only [SameAt, view, Machine.put, hl, if_false] at h1 ⊢; exact h1
          have ha := G.steps
          have hu := G.uses
          have hb := (G.busy _ _ _ ht).1
          rw [ht] at ha hu
          refine ⟨v0, ?_, ?_, ?_, fun p hp => ?_, fun op' next' t' ht' => ?_⟩
          · rw [hops]; simp only [Machine.put, if_true]; exact ha
          · simp only [Machine.put, if_true]; exact hu
          · simp only [Machine.put, if_true]; exact hn
          · simp only [Machine.put, if_true] at hp; cases hp
          · simp only [Machine.put, if_true] at ht'
            cases ht'
            rw [hview]
            refine ⟨?_, D⟩
            rw [hb]
            simp only [Tree.run, hv]
        · obtain ⟨v1, G1⟩ := ih.good j
          have hview : view w owner B (m.put i g' (.busy op next (k b))) j = view w owner B m j := by
            refine world_ext ?_ fun l => ?_
            · refine ⟨?_, ?_, ?_, ?_, ?_, ?_, ?_⟩ <;> simp only [view, Machine.put, hj, if_false]
            · by_cases hl : Vis w owner B j l
              · have h2 := hkeep l (fun x e h => owns_not_vis W (Ne.symm hj) (h ▸ (hwr x e).1) hl)
                cases l with
                | any a => simp only [SameAt, view, Machine.put, hl, if_true]; exact h2.symm
                | blk a => simp only [SameAt, view, Machine.put, hl, if_true]; exact h2.symm
              · cases l <;> simp only [SameAt, view, hl, if_false]
          refine ⟨v1, ?_, ?_, ?_, fun p hp => ?_, fun op' next' t' ht' => ?_⟩
          · rw [hops]; simp only [Machine.put, hj, if_false]; exact G1.steps
          · simp only [Machine.put, hj, if_false]; exact G1.uses
          · simp only [Machine.put, hj, if_false]; exact G1.last
          · simp only [Machine.put, hj, if_false] at hp; rw [hview]; exact G1.idle p hp
          · simp only [Machine.put, hj, if_false] at ht'; rw [hview]; exact G1.busy _ _ _ ht'
      · rcases List.mem_append.1 h with h | h
        · exact ih.events j l x h
        · cases hacc : A.accesses (m.world i) with
          | none => rw [hacc] at h; cases h
          | some y =>
            obtain ⟨l', x'⟩ := y
            rw [hacc] at h hwr hrd
            cases List.mem_singleton.1 h
            cases x with
            | true => exact ⟨.inl (hwr l rfl).1, fun _ => (hwr l rfl).1⟩
            | false => exact ⟨hrd l rfl, fun e => by cases e⟩
      · have h1 := ih.rest l i hl
        have h2 := hkeep l (fun x e h => hl i (h ▸ (hwr x e).1))
        cases l with
        | any a => exact h1.trans h2
        | blk a => exact h1.trans h2

/-- Shared objects are not modified. -/
theorem GoodAll.shared (W : WF cfg w) {tr : List Event} {m : Machine} (G : GoodAll cfg faults w owner P B tr m) (l : Loc) (i : Nat)
    (h : Shared w owner l) : SameAt w (m.world i) l := G.rest l i fun _ ho => owns_not_shared W ho h

theorem snap_congr {v g : World} {a : Nat} (h1 : v.anys a = g.anys a)
    (h2 : ∀ s, v.anys a = some s → s.vp = .data a ∨ ∃ b, s.vp = .blk b ∧ v.blks b = g.blks b) : snap v a = snap g a := by
  unfold snap Mem.content memOf
  rw [← h1]
  cases hs : v.anys a with
  | none => rfl
  | some s =>
    rcases h2 s hs with h | ⟨b, h, hb⟩
    · simp only [Option.map_some, Option.bind_some, h, Mem.cellAt, h1]
    · simp only [Option.map_some, Option.bind_some, h, Mem.cellAt, hb]

end AnyAny.Fine
