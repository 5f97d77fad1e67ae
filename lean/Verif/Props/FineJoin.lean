import Verif.Props.Fine
/-
C100: programs that execute operations, run threads at the same time, wait for them, and go on.
-/
namespace AnyAny.Fine
open AnyAny.Mem (Cfg Obj Ptr AnySt Blk World Res Op Prog WF CfgOk Alone SafeAlone Elapse OwnedBy only sees Legal Ends Reachable snap memOf alive content
  cellAt)

variable {cfg : Cfg} {faults : Nat → Nat → Bool} {w : World} {owner : Nat → Option Nat} {P : Nat → Prog} {N B : Nat}

/-- C100: programs without threads are a special case. -/
theorem C100_sequential (h : Reachable cfg w) : Session cfg w := by
  induction h with
  | init => exact .init
  | ok _ L e ih => exact .op (r := true) ih L e
  | exn _ L e ih => exact .op (r := false) ih L e

/-- C100: wherever the program is, the next operation returns or throws, or the process is terminated; its behaviour is defined. -/
theorem C100_defined (C : CfgOk cfg) (h : Session cfg w) {op : Op} (L : Legal cfg w op) : Mem.exec cfg op w ≠ .ub := by
  intro hu
  rcases Mem.step_spec C (Mem.Rep.of_wf (h.wf C)) op L with ⟨w0, σ', e0, _⟩ | ⟨w0, σ', e0, _⟩ | ⟨_, e0⟩ <;> rw [hu] at e0 <;> cases e0

/-- C100: when the threads have ended, each object that existed when they began or that one of them made was destroyed at most once; an object whose
destructor does something was destroyed, or it is the value of an any object. -/
theorem C100_objects_at_join (C : CfgOk cfg) (h : Session cfg w) (F : Fork cfg faults w owner P N) {tr : List Event} {m : Machine}
    (run : Exec cfg faults w P B tr m) (hi : ∀ i, m.thread i = .idle .done) {id : Nat} (hm : m.Made w N B id) :
    m.dtorsOf w N id ≤ 1 ∧
    ((cfg.ty (m.typeOf w B id)).trivDestr = false →
      m.dtorsOf w N id = 1 ∨ (m.dtorsOf w N id = 0 ∧ ∃ a o, content (m.world 0) a = some o ∧ o.id = id)) := by
  obtain ⟨U, H⟩ := over C (h.wf C) F run hi
  have W := H.joined
  have hlt : id < (m.joined w N B).nextObj := by
    show id < w.nextObj + N * B
    rcases hm with h | ⟨i, hi, h1, h2⟩
    · omega
    · have := (H.ends i).room.2
      have := rng_le (B := B) hi
      omega
  have e : (m.joined w N B).dtors id = m.dtorsOf w N id := by simp only [Machine.joined, hm, if_true]
  have hc : ∀ a, content (m.joined w N B) a = content (m.world 0) a := fun a => by
    have : ∀ q, cellAt (m.joined w N B) q = cellAt (m.world 0) q := fun q => by cases q <;> rfl
    unfold content
    simp only [this]
    rfl
  refine ⟨e ▸ W.once id hlt, fun ht => ?_⟩
  have := W.destroyed id hlt ht
  simp only [hc, e] at this
  exact this

/-- C100: when the threads have ended, each block that existed when they began or that one of them allocated was given back exactly once, or it is
there and belongs to exactly one any object. -/
theorem C100_blocks_at_join (C : CfgOk cfg) (h : Session cfg w) (F : Fork cfg faults w owner P N) {tr : List Event} {m : Machine}
    (run : Exec cfg faults w P B tr m) (hi : ∀ i, m.thread i = .idle .done) {b : Nat} (hm : m.Allocated w N B b) :
    (m.freesOf w N b = 1 ∧ m.blks b = none) ∨
    (m.freesOf w N b = 0 ∧ (m.blks b).isSome ∧ ∃ a n, memOf (m.world 0) a = some (b, n) ∧ ∀ c k, memOf (m.world 0) c = some (b, k) → c = a) := by
  obtain ⟨U, H⟩ := over C (h.wf C) F run hi
  have W := H.joined
  have hlt : b < w.nextBlk + N * B := by
    rcases hm with h | ⟨i, hi, h1, h2⟩
    · omega
    · have := (H.ends i).room.1
      have := rng_le (B := B) hi
      omega
  have e : (m.joined w N B).frees b = m.freesOf w N b := by simp only [Machine.joined, hm, if_true]
  have hf := H.freesJ hlt
  rw [e] at hf
  cases hb : m.blks b with
  | none => rw [hb] at hf; exact .inl ⟨hf, rfl⟩
  | some k =>
    rw [hb] at hf
    refine .inr ⟨hf, rfl, ?_⟩
    obtain ⟨a, s, hs, hv⟩ := W.owned b k hb
    have hs : m.anys a = some s := hs
    refine ⟨a, k.size, ?_, fun c n hc => ?_⟩
    · simp only [memOf, Machine.world, hs, Option.bind_some, hv, hb, Option.map_some]
    · simp only [memOf, Machine.world] at hc
      cases ht : m.anys c with
      | none => rw [ht] at hc; cases hc
      | some t =>
        rw [ht] at hc
        simp only [Option.bind_some] at hc
        split at hc
        · cases hc
        · rename_i b' hb'
          obtain ⟨k', _, e⟩ := Option.map_eq_some_iff.1 hc
          cases e
          exact W.blkInj c t a s b ht hs hb' hv

/-- C100: after the threads were joined the program finds the objects as the threads left them: those of thread `i` as a run of this thread alone
leaves them, the shared ones as they were. -/
theorem C100_state_at_join (C : CfgOk cfg) (h : Session cfg w) (F : Fork cfg faults w owner P N) {tr : List Event} {m : Machine}
    (run : Exec cfg faults w P B tr m) (hi : ∀ i, m.thread i = .idle .done) :
    (∀ i, ∃ v, Alone (cfgOf cfg faults i) (only (sees owner i) w) (P i) (opsOf tr i) v .done ∧
      ∀ a, owner a = some i → snap (m.joined w N B) a = snap v a) ∧
    ∀ a, owner a = none → snap (m.joined w N B) a = snap w a := by
  have hj : ∀ a i, snap (m.joined w N B) a = snap (m.world i) a := fun a i => by
    have : ∀ q, cellAt (m.joined w N B) q = cellAt (m.world i) q := fun q => by cases q <;> rfl
    simp only [snap, content, memOf, this]
    rfl
  refine ⟨fun i => ?_, fun a ha => ?_⟩
  · obtain ⟨v, h1, h2⟩ := C99_alone C h F.uses F.safe run i
    rw [hi i] at h1
    exact ⟨v, h1, fun a ha => (hj a i).trans (h2 _ (hi i) a (by simp [sees, ha]))⟩
  · exact (hj a 0).trans (C99_shared_objects C h F.uses F.safe run ha 0)

/-- C100: at the end of the program, when there are no any objects any more: every object whose destructor does something was destroyed exactly once,
and every block was given back exactly once, whatever the program and its threads did. -/
theorem C100_nothing_left (C : CfgOk cfg) (h : Session cfg w) (hall : ∀ a, ¬ alive w a) :
    (∀ id, id < w.nextObj → (cfg.ty (w.born id)).trivDestr = false → w.dtors id = 1) ∧
    ∀ b, b < w.nextBlk → w.frees b = 1 ∧ w.blks b = none := by
  have W := h.wf C
  have hn : ∀ a, w.anys a = none := fun a => by
    cases hs : w.anys a with
    | none => rfl
    | some s => exact absurd (show alive w a by simp [alive, hs]) (hall a)
  refine ⟨fun id hid ht => ?_, fun b hb => ?_⟩
  · rcases W.destroyed id hid ht with h | ⟨_, a, o, hc, _⟩
    · exact h
    · simp [content, hn a] at hc
  · have hb0 : w.blks b = none := by
      cases hk : w.blks b with
      | none => rfl
      | some k =>
        obtain ⟨a, s, hs, _⟩ := W.owned b k hk
        rw [hn a] at hs; cases hs
    refine ⟨?_, hb0⟩
    have := W.freed b hb
    rw [hb0] at this
    exact this

open AnyAny.Mem (exStd exStart2 exProgs exOwner exRetry exRetry_safe exMs exTy_align vals)

theorem stepFn_other {i j : Nat} (hj : j ≠ i) {m m' : Machine} {es : List Event} (h : stepFn cfg faults w B i m = some (es, m')) :
    m'.thread j = m.thread j := by
  unfold stepFn at h
  (repeat' split at h) <;> cases h <;> simp only [Machine.setThread, Machine.put, if_neg hj]

theorem runFn_other {s : List Nat} {j : Nat} (hj : j ∉ s) {tr : List Event} {m : Machine} :
    (runFn cfg faults w B s tr m).2.thread j = m.thread j := by
  induction s generalizing tr m with
  | nil => rfl
  | cons i s ih =>
    simp only [List.mem_cons, not_or] at hj
    unfold runFn
    split
    · rename_i hst; rw [ih hj.2, stepFn_other hj.1 hst]
    · exact ih hj.2

def isDone : ThreadState → Bool
  | .idle .done => true
  | _ => false

theorem of_isDone {s : ThreadState} (h : isDone s = true) : s = .idle .done := by
  unfold isDone at h
  split at h
  · rfl
  · cases h

/-- The hypotheses of the theorems hold for the threads of the example of C99, run to the end and joined: both copied object 4, one of them at the
second attempt; then the program goes on. -/
example : ∃ tr m, Session exStd exStart2 ∧ Fork exStd exFaults exStart2 exOwner exProgs 2 ∧ Exec exStd exFaults exStart2 exProgs 3 tr m ∧
    (∀ i, m.thread i = .idle .done) ∧ vals (m.joined exStart2 2 3) 0 = some (some (2, 7)) ∧ Session exStd (m.joined exStart2 2 3) ∧
    Legal exStd (m.joined exStart2 2 3) (.dtor 0) ∧ m.Made exStart2 2 3 4 ∧ m.dtorsOf exStart2 2 4 = 1 ∧
    m.Allocated exStart2 2 3 4 ∧ m.freesOf exStart2 2 4 = 1 := by
  have R : Session exStd exStart2 := by
    refine Session.op (op := .valueCtor 4 exMs 0 2 (.lit 7) false) (r := true) .init (by decide +kernel) ?_
    rfl
  have uses : ∀ a i, (a = 0 ∧ i = 0) ∨ (a = 2 ∧ i = 1) → (exRetry a).Uses exStd exOwner i := by
    rintro a i (⟨rfl, rfl⟩ | ⟨rfl, rfl⟩) <;> refine ⟨by decide, by decide, fun r => ?_⟩ <;> cases r <;>
      exact ⟨by decide, by decide, fun _ => trivial⟩
  have F : Fork exStd exFaults exStart2 exOwner exProgs 2 := by
    refine ⟨fun i => ?_, fun i => ?_, fun a i h => ?_, fun i hi => ?_⟩
    · unfold exProgs
      split
      · subst i; exact uses 0 0 (.inl ⟨rfl, rfl⟩)
      · split
        · subst i; exact uses 2 1 (.inr ⟨rfl, rfl⟩)
        · trivial
    · unfold exProgs
      split
      · subst i; exact exRetry_safe (.inl ⟨rfl, rfl⟩)
      · split
        · subst i; exact exRetry_safe (.inr ⟨rfl, rfl⟩)
        · exact Mem.safe_done
    · unfold exOwner at h
      (repeat' split at h) <;> cases h <;> omega
    · unfold exProgs
      rw [if_neg (by omega), if_neg (by omega)]
  have run : Exec exStd exFaults exStart2 exProgs 3 exRun.1 exRun.2 := runFn_exec .init
  have hi : ∀ i, exRun.2.thread i = .idle .done := by
    intro i
    by_cases h0 : i = 0
    · subst h0; exact of_isDone (by decide +kernel)
    · by_cases h1 : i = 1
      · subst h1; exact of_isDone (by decide +kernel)
      · have hn : i ∉ exTurns := by
          intro h
          have : ∀ j ∈ exTurns, j = 0 ∨ j = 1 := by decide +kernel
          rcases this i h with h | h
          · exact h0 h
          · exact h1 h
        unfold exRun
        rw [runFn_other hn]
        show ThreadState.idle (exProgs i) = _
        unfold exProgs
        rw [if_neg h0, if_neg h1]
  refine ⟨exRun.1, exRun.2, R, F, run, hi, ?_, .join R F run hi, ?_, .inr ⟨1, by decide, by decide +kernel, by decide +kernel⟩, by decide +kernel,
    .inr ⟨1, by decide, by decide +kernel, by decide +kernel⟩, by decide +kernel⟩
  · show vals (exRun.2.world 0) 0 = _
    decide +kernel
  · show (exRun.2.anys 0).isSome = true
    decide +kernel

end AnyAny.Fine
