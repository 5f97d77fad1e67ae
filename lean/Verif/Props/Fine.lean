import Verif.Lemmas.FineJoin
/-
C99: threads whose operations run at the same time.
-/
namespace AnyAny.Fine
open AnyAny.Mem (Cfg Obj Ptr AnySt Blk World Res Op Prog WF CfgOk Alone SafeAlone Elapse OwnedBy only sees Legal Ends Reachable snap memOf fix onlyFix memAlloc cellAt)

variable {cfg : Cfg} {faults : Nat → Nat → Bool} {w : World} {owner : Nat → Option Nat} {P : Nat → Prog} {B : Nat}

/-- C99: the accesses of an operation, one after the other, are the operation. -/
theorem C99_accesses_are_the_operation (cfg : Cfg) (op : Op) : (exec cfg op).run cfg = Mem.exec cfg op := run_exec cfg op

/-- C99: the accesses are what the steps depend on and what they change. A step gives the same in two worlds in which the location it accesses
has the same contents (with the same bookkeeping), and no other location is changed than one it writes. -/
theorem C99_accesses_complete {β : Type} (A : Act β) {v g : World} (hb : SameBook v g)
    (hl : ∀ l wr, A.accesses v = some (l, wr) → SameAt v g l) :
    (A.exec cfg v = .ub ∧ A.exec cfg g = .ub) ∨
    ∃ b v' g', A.exec cfg v = .ok b v' ∧ A.exec cfg g = .ok b g' ∧ SameBook v' g' ∧
      (∀ l, A.accesses v = some (l, true) → SameAt v' g' l) ∧ ∀ l, A.accesses v ≠ some (l, true) → SameAt v v' l ∧ SameAt g g' l := by
  rcases exec_local (cfg := cfg) hb hl with h | ⟨b, v', g', h1, h2, h3, h4⟩
  · exact .inl h
  · exact .inr ⟨b, v', g', h1, h2, h3, h4, fun l h => ⟨exec_writes h1 h, exec_writes h2 (accesses_congr A hb.nextBlk ▸ h)⟩⟩

/-- C99: threads that use different objects, apart from objects that all of them only read, and that would each never break a rule if they were
alone with the objects they use. However their accesses are interleaved and whichever calls throw, there is no data race and no undefined
behaviour. -/
theorem C99_no_race (C : CfgOk cfg) (h : Session cfg w) (hu : ∀ i, (P i).Uses cfg owner i)
    (hs : ∀ i, SafeAlone (cfgOf cfg faults i) (only (sees owner i) w) (P i)) {tr : List Event} {m : Machine}
    (run : Exec cfg faults w P B tr m) : ¬ Race tr ∧ ∀ i, ¬ m.Undefined cfg faults i := by
  have W := h.wf C
  have G := goodAll C W hu hs run
  constructor
  · rintro ⟨i, j, l, x, y, hij, h1, h2, hx⟩
    obtain ⟨v1, o1⟩ := G.events i l x h1
    obtain ⟨v2, o2⟩ := G.events j l y h2
    rcases hx with hx | hx
    · exact owns_not_vis W hij (o1 hx) v2
    · exact owns_not_vis W (Ne.symm hij) (o2 hx) v1
  · rintro i ⟨op, next, t, ht, hub⟩
    obtain ⟨v0, Gi⟩ := G.good i
    rcases hub with rfl | ⟨β, A, k, rfl, he⟩
    · exact (Gi.defined C W (hs i) ht).2 rfl
    · obtain ⟨b, v', g', _, h2, _⟩ := Gi.step C W (hs i) ht
      rw [he] at h2; cases h2

/-- C99: what each thread did is what it does in a run of its own, with the same calls throwing, and between two of its operations the objects it
uses are as that run left them. -/
theorem C99_alone (C : CfgOk cfg) (h : Session cfg w) (hu : ∀ i, (P i).Uses cfg owner i)
    (hs : ∀ i, SafeAlone (cfgOf cfg faults i) (only (sees owner i) w) (P i)) {tr : List Event} {m : Machine}
    (run : Exec cfg faults w P B tr m) (i : Nat) :
    ∃ v, Alone (cfgOf cfg faults i) (only (sees owner i) w) (P i) (opsOf tr i) v (m.thread i).prog ∧
      ∀ p, m.thread i = .idle p → ∀ a, sees owner i a = true → snap (m.world i) a = snap v a := by
  have W := h.wf C
  obtain ⟨v0, G⟩ := (goodAll C W hu hs run).good i
  refine ⟨v0, G.alone W, fun p hp a ha => ?_⟩
  obtain ⟨e, _⟩ := G.idle p hp
  have W0 := (G.alone W).wf (cfgOk C i) (start_wf W i)
  have hv : Vis w owner B i (.any a) := by simpa only [Vis, Owns, Shared, sees, Bool.or_eq_true, beq_iff_eq] using ha
  have hva : v0.anys a = (m.world i).anys a := e ▸ view_vis (m := m) hv
  refine (snap_congr hva fun s hs => ?_).symm
  rcases (W0.any a s hs).shape with h1 | ⟨b, k, h1, hk, _⟩
  · exact .inl h1
  · refine .inr ⟨b, h1, ?_⟩
    have hk : v0.blks b = some k := hk
    by_cases hb : Vis w owner B i (.blk b)
    · exact e ▸ view_vis (m := m) hb
    · have := view_none (m := m) hb
      rw [← e] at this
      exact absurd (show v0.blks b ≠ none by rw [hk]; intro h; cases h) this

/-- C99: the objects that all threads read are at all times as they were in the beginning. -/
theorem C99_shared_objects (C : CfgOk cfg) (h : Session cfg w) (hu : ∀ i, (P i).Uses cfg owner i)
    (hs : ∀ i, SafeAlone (cfgOf cfg faults i) (only (sees owner i) w) (P i)) {tr : List Event} {m : Machine}
    (run : Exec cfg faults w P B tr m) {a : Nat} (ha : owner a = none) (i : Nat) : snap (m.world i) a = snap w a := by
  have W := h.wf C
  have G := goodAll C W hu hs run
  refine (snap_congr (G.shared W (.any a) i ha) fun s hs => ?_).symm
  rcases (W.any a s hs).shape with h1 | ⟨b, k, h1, hk, _⟩
  · exact .inl h1
  · refine .inr ⟨b, h1, G.shared W (.blk b) i ⟨a, k.size, by simpa using ha, ?_⟩⟩
    simp only [memOf, hs, Option.bind_some, h1, hk, Option.map_some]

/-! ### Observers -/

/-- All accesses of the computation are reads of the any object `a`. -/
def Reads {α : Type} (a : Nat) : Tree α → Prop
  | .act A k => A.loc = some (.any a, false) ∧ ∀ b, Reads a (k b)
  | _ => True

/-- C99: the observers (`has_value`, `is_stable_pointers`, `capacity`, `sizeof_now`, `get_allocator`, `type_descriptor`) access by access: one after the
other the accesses are the observer, and all of them are reads of the object itself. -/
theorem C99_observers (cfg : Cfg) (a : Nat) :
    ((hasValue a).run cfg = Mem.hasValue a ∧ Reads a (hasValue a)) ∧
    ((isStablePointers a).run cfg = Mem.isStablePointers a ∧ Reads a (isStablePointers a)) ∧
    ((capacity cfg a).run cfg = Mem.capacity cfg a ∧ Reads a (capacity cfg a)) ∧
    ((sizeofNow cfg a).run cfg = Mem.sizeofNow cfg a ∧ Reads a (sizeofNow cfg a)) ∧
    ((getAllocator a).run cfg = Mem.getAllocator a ∧ Reads a (getAllocator a)) ∧
    ((typeDescriptor a).run cfg = Mem.typeDescriptor a ∧ Reads a (typeDescriptor a)) := by
  refine ⟨⟨?_, ?_⟩, ⟨?_, ?_⟩, ⟨?_, ?_⟩, ⟨?_, ?_⟩, ⟨?_, ?_⟩, ⟨?_, ?_⟩⟩
  · simp [hasValue, Mem.hasValue]
  · exact ⟨rfl, fun _ => trivial⟩
  · simp [isStablePointers, Mem.isStablePointers]
  · exact ⟨rfl, fun _ => trivial⟩
  · simp [capacity, Mem.capacity]
  · refine ⟨rfl, fun s => ?_⟩
    show Reads a (if memAlloc a s then readSize a else pure cfg.soos)
    split
    · exact ⟨rfl, fun _ => trivial⟩
    · trivial
  · simp [sizeofNow, Mem.sizeofNow]
  · refine ⟨rfl, fun s => ?_⟩
    show Reads a (if s.vt.isNone then pure 0 else if memAlloc a s then readSize a else pure cfg.soos)
    split
    · trivial
    · split
      · exact ⟨rfl, fun _ => trivial⟩
      · trivial
  · simp [getAllocator, Mem.getAllocator]
  · exact ⟨rfl, fun _ => trivial⟩
  · simp
  · refine ⟨rfl, fun s => ?_⟩
    show Reads a (if s.vt.isNone then pure none else do let t ← descTy s; pure (some t))
    split
    · trivial
    · unfold descTy slotTy
      repeat' split
      all_goals trivial

/-- The result of a computation whose `n`th access takes place in the world `ws n`. -/
def during {α : Type} (cfg : Cfg) (ws : Nat → World) : Nat → Tree α → Option α
  | _, .ret a => some a
  | n, .act A k =>
    match A.exec cfg (ws n) with
    | .ok b _ => during cfg ws (n + 1) (k b)
    | _ => none
  | _, _ => none

theorem Reads.during {α : Type} {a : Nat} {t : Tree α} (h : Reads a t) {ws : Nat → World} {v : World} (hv : ∀ n, SameAt v (ws n) (.any a)) (n : Nat) :
    during cfg ws n t = match t.run cfg v with | .ok r _ => some r | _ => none := by
  induction t generalizing n with
  | ret r => rfl
  | exn => rfl
  | ub => rfl
  | term => rfl
  | act A k ih =>
    obtain ⟨hA, hk⟩ := h
    have hv' : (ws n).anys a = v.anys a := (hv n).symm
    simp only [Fine.during, Tree.run]
    cases A with
    | getAny c =>
      cases hA
      simp only [Act.exec, Mem.getAny, hv']
      cases v.anys a
      · rfl
      · exact ih _ (hk _) _
    | readSize c =>
      cases hA
      simp only [Act.exec, Mem.readSize, hv']
      cases v.anys a with
      | none => rfl
      | some s =>
        simp only
        cases s.buf <;> first | rfl | exact ih _ (hk _) _
    | readCell p =>
      cases p <;> cases hA
      simp only [Act.exec, cellAt, hv']
      cases (v.anys a).bind fun s => s.buf.cell with
      | none => rfl
      | some s => exact ih _ (hk _) _
    | _ => simp [Act.loc] at hA

/-- C99: an observer of an object that all threads read gives what it gives in the beginning, whatever the threads do before, during and after its
accesses. -/
theorem C99_observers_of_shared_objects (C : CfgOk cfg) (h : Session cfg w) (hu : ∀ i, (P i).Uses cfg owner i)
    (hs : ∀ i, SafeAlone (cfgOf cfg faults i) (only (sees owner i) w) (P i)) {ms : Nat → Machine}
    (run : ∀ n, ∃ tr, Exec cfg faults w P B tr (ms n)) {a : Nat} (ha : owner a = none) (i : Nat) {α : Type} {t : Tree α} (ht : Reads a t) :
    during cfg (fun n => (ms n).world i) 0 t = match t.run cfg w with | .ok r _ => some r | _ => none := by
  refine ht.during (fun n => ?_) 0
  obtain ⟨tr, hr⟩ := run n
  exact (goodAll C (h.wf C) hu hs hr).shared (h.wf C) (.any a) i ha

/-- C99: a thread whose operations all returned finds in its objects the values that the reference behaviour says, whatever the other threads did
at the same time. -/
theorem C99_values (C : CfgOk cfg) (h : Session cfg w) (hu : ∀ i, (P i).Uses cfg owner i)
    (hs : ∀ i, SafeAlone (cfgOf cfg faults i) (only (sees owner i) w) (P i)) {tr : List Event} {m : Machine}
    (run : Exec cfg faults w P B tr m) {i : Nat} {p : Prog} (hp : m.thread i = .idle p) (ht : ∀ x ∈ opsOf tr i, x.2 = true) {a : Nat}
    (ha : sees owner i a = true) :
    Mem.vals (m.world i) a = ((opsOf tr i).map (·.1)).foldl (Mem.specStep cfg) (Mem.vals (only (sees owner i) w)) a := by
  obtain ⟨v, run', hv⟩ := C99_alone C h hu hs run i
  have hv := hv p hp a ha
  have h1 := congrFun (Mem.alone_vals (cfgOk C i) (start_wf (h.wf C) i) run' ht) a
  have h2 : Mem.vals (m.world i) a = Mem.vals v a := by
    unfold Mem.vals Mem.view
    unfold snap at hv
    cases h3 : (m.world i).anys a <;> cases h4 : v.anys a <;> rw [h3, h4] at hv <;> first | rfl | (simp at hv; done) | skip
    have := congrArg (Option.map Mem.Snap.obj) hv
    simp only [Option.map_some, Option.some.injEq] at this
    simp only [Option.map_some, this]
  rw [h2, h1]
  have : Mem.specStep (cfgOf cfg faults i) = Mem.specStep cfg := by
    funext V op
    cases op <;> rfl
  rw [this]

/-- C99: no thread is ever stuck in an operation, whatever the others do: its next step is there, unless the process is to be terminated or
the thread needs another name although it has used all of its own. -/
theorem C99_progress (C : CfgOk cfg) (h : Session cfg w) (hu : ∀ i, (P i).Uses cfg owner i)
    (hs : ∀ i, SafeAlone (cfgOf cfg faults i) (only (sees owner i) w) (P i)) {tr : List Event} {m : Machine}
    (run : Exec cfg faults w P B tr m) {i : Nat} {op : Op} {next : Bool → Prog} {t : Tree Unit} (ht : m.thread i = .busy op next t) :
    t = .term ∨ (∃ es m', Step cfg faults w B m es m' ∧ m.thread i ≠ .idle .done ∧ ∀ j, j ≠ i → m'.thread j = m.thread j) ∨
      ∃ (β : Type) (A : Act β) (k : β → Tree Unit) (b : β) (v : World), t = .act A k ∧ A.exec (cfgOf cfg faults i) (m.world i) = .ok b v ∧
        ¬ Room w B i v := by
  have hn : m.thread i ≠ .idle .done := by rw [ht]; intro h; cases h
  have D := (C99_no_race C h hu hs run).2 i
  cases t with
  | ret a => exact .inr (.inl ⟨_, _, .ret ht, hn, fun j hj => if_neg hj⟩)
  | exn => exact .inr (.inl ⟨_, _, .exn ht, hn, fun j hj => if_neg hj⟩)
  | ub => exact absurd ⟨op, next, _, ht, .inl rfl⟩ D
  | term => exact .inl rfl
  | act A k =>
    rcases exec_cases (cfg := cfgOf cfg faults i) A (m.world i) with he | ⟨b, v, he⟩
    · exact absurd ⟨op, next, _, ht, .inr ⟨_, A, k, rfl, he⟩⟩ D
    · by_cases hr : Room w B i v
      · exact .inr (.inl ⟨_, _, .act ht he hr, hn, fun j hj => if_neg hj⟩)
      · exact .inr (.inr ⟨_, A, k, b, v, rfl, he, hr⟩)

/-! ### Examples -/

instance (w : World) (B i : Nat) (v : World) : Decidable (Room w B i v) := inferInstanceAs (Decidable (_ ∧ _))

/-- The next step of thread `i`. -/
def stepFn (cfg : Cfg) (faults : Nat → Nat → Bool) (w : World) (B : Nat) (i : Nat) (m : Machine) : Option (List Event × Machine) :=
  match m.thread i with
  | .idle .done => none
  | .idle (.step op next) => some ([], m.setThread i (.busy op next (exec (cfgOf cfg faults i) op)))
  | .busy op next (.ret ()) => some ([.ends i op true], m.setThread i (.idle (next true)))
  | .busy op next .exn => some ([.ends i op false], m.setThread i (.idle (next false)))
  | .busy op next (.act A k) =>
    match A.exec (cfgOf cfg faults i) (m.world i) with
    | .ok b v => if Room w B i v then some (accessEvent i (A.accesses (m.world i)), m.put i v (.busy op next (k b))) else none
    | _ => none
  | .busy _ _ _ => none

theorem stepFn_step {i : Nat} {m m' : Machine} {es : List Event} (h : stepFn cfg faults w B i m = some (es, m')) :
    Step cfg faults w B m es m' := by
  unfold stepFn at h
  split at h
  · cases h
  · rename_i ht; cases h; exact .start ht
  · rename_i ht; cases h; exact .ret ht
  · rename_i ht; cases h; exact .exn ht
  · rename_i ht
    split at h
    · rename_i he
      split at h
      · rename_i hn; cases h; exact .act ht he hn
      · cases h
    · cases h
  · cases h

/-- The threads take steps in the given order; a thread that is done is passed over. -/
def runFn (cfg : Cfg) (faults : Nat → Nat → Bool) (w : World) (B : Nat) : List Nat → List Event → Machine → List Event × Machine
  | [], tr, m => (tr, m)
  | i :: s, tr, m =>
    match stepFn cfg faults w B i m with
    | some (es, m') => runFn cfg faults w B s (tr ++ es) m'
    | none => runFn cfg faults w B s tr m

theorem runFn_exec {s : List Nat} {tr : List Event} {m : Machine} (h : Exec cfg faults w P B tr m) :
    Exec cfg faults w P B (runFn cfg faults w B s tr m).1 (runFn cfg faults w B s tr m).2 := by
  induction s generalizing tr m with
  | nil => exact h
  | cons i s ih =>
    unfold runFn
    split
    · rename_i hst; exact ih (.step h (stepFn_step hst))
    · exact ih h

/-- Does the location occur in an access of thread `i`? -/
def accessesB (tr : List Event) (i : Nat) (l : Loc) (x : Bool) : Bool :=
  tr.any fun e => match e with | .access j l' x' => j == i && decide (l' = l) && x' == x | _ => false

theorem accesses_of {tr : List Event} {i : Nat} {l : Loc} {x : Bool} (h : accessesB tr i l x = true) : .access i l x ∈ tr := by
  obtain ⟨e, he, h⟩ := List.any_eq_true.1 h
  cases e with
  | access j l' x' =>
    simp only [Bool.and_eq_true, beq_iff_eq, decide_eq_true_eq] at h
    obtain ⟨⟨rfl, rfl⟩, rfl⟩ := h
    exact he
  | ends _ _ _ => cases h

open AnyAny.Mem (exStd exFaulty exStart2 exProgs exOwner exRetry exRetry_safe exMs exTy_align vals)

/-- The second call of thread 0 throws. -/
def exFaults (i n : Nat) : Bool := i == 0 && n == exStart2.tick + 1

/-- Two threads take steps in turn. -/
def exTurns : List Nat := (List.replicate 60 [0, 1]).flatten

def exRun : List Event × Machine :=
  runFn exStd exFaults exStart2 3 exTurns [] (.init exStart2 exProgs 3)

/-- The hypotheses of the theorems hold for two threads that copy the same object at the same time, one of which gets an exception: both of them read
object 4 and its memory (block 0), and each writes its own objects and memory. -/
example : CfgOk exStd ∧ Session exStd exStart2 ∧ (∀ i, (exProgs i).Uses exStd exOwner i) ∧
    (∀ i, SafeAlone (cfgOf exStd exFaults i) (only (sees exOwner i) exStart2) (exProgs i)) ∧
    ∃ tr m, Exec exStd exFaults exStart2 exProgs 3 tr m ∧
      opsOf tr 0 = [(.copyCtor 0 exMs 4, false), (.copyCtor 0 exMs 4, true)] ∧ opsOf tr 1 = [(.copyCtor 2 exMs 4, true), (.dtor 2, true)] ∧
      vals (m.world 0) 0 = some (some (2, 7)) ∧ vals (m.world 0) 2 = none ∧
      .access 0 (.blk 0) false ∈ tr ∧ .access 1 (.blk 0) false ∈ tr ∧ .access 0 (.any 0) true ∈ tr ∧ .access 1 (.blk 4) true ∈ tr := by
  have C : CfgOk exStd := ⟨exTy_align, fun _ => rfl⟩
  have R : Session exStd exStart2 := by
    refine Session.op (op := .valueCtor 4 exMs 0 2 (.lit 7) false) (r := true) .init (by decide +kernel) ?_
    rfl
  have uses : ∀ a i, (a = 0 ∧ i = 0) ∨ (a = 2 ∧ i = 1) → (exRetry a).Uses exStd exOwner i := by
    rintro a i (⟨rfl, rfl⟩ | ⟨rfl, rfl⟩) <;> refine ⟨by decide, by decide, fun r => ?_⟩ <;> cases r <;>
      exact ⟨by decide, by decide, fun _ => trivial⟩
  refine ⟨C, R, fun i => ?_, fun i => ?_, exRun.1, exRun.2, runFn_exec .init, by decide +kernel, by decide +kernel, by decide +kernel, by decide +kernel,
    accesses_of (by decide +kernel), accesses_of (by decide +kernel), accesses_of (by decide +kernel), accesses_of (by decide +kernel)⟩
  · unfold exProgs
    split
    · subst i; exact uses 0 0 (.inl ⟨rfl, rfl⟩)
    · split
      · subst i; exact uses 2 1 (.inr ⟨rfl, rfl⟩)
      · trivial
  · unfold exProgs
    split
    · subst i; exact exRetry_safe (.inl ⟨rfl, rfl⟩)
    · split
      · subst i; exact exRetry_safe (.inr ⟨rfl, rfl⟩)
      · exact Mem.safe_done

/-- Thread 0 assigns to the value of object 4 while thread 1 copies it. -/
def exBad (i : Nat) : Prog :=
  if i = 0 then .step (.mutate 4 2 9) fun _ => .done else if i = 1 then .step (.copyCtor 2 exMs 4) fun _ => .done else .done

def exBadRun : List Event × Machine :=
  runFn exStd exFaults exStart2 3 exTurns [] (.init exStart2 exBad 3)

/-- The condition that no thread modifies a shared object is needed: otherwise there is a data race. -/
theorem C99_needs_separation : ∃ tr m, Exec exStd exFaults exStart2 exBad 3 tr m ∧ Race tr :=
  ⟨exBadRun.1, exBadRun.2, runFn_exec .init, 0, 1, .blk 0, true, false, by decide, accesses_of (by decide +kernel), accesses_of (by decide +kernel),
    .inl rfl⟩

end AnyAny.Fine
