import Verif.Lemmas.SyncInv
import Verif.Props.FineJoin
/-
C101: threads that hand objects over to each other and take turns with them.
-/
namespace AnyAny.Sync
open AnyAny.Fine (Loc Act Tree locOf SameAt Session Names namesOf skip skip_wf ends_wf exec_cases exec_writes snap_congr Reads during)
open AnyAny.Mem (Cfg Obj Ptr AnySt Blk World Res Op WF CfgOk OwnedBy Legal Ends snap memOf alive vals specStep)

variable {cfg : Cfg} {w : World} {tr : List Event} {m : Machine}

/-! ### What sequences of operations give -/

theorem Seq.session {h : List (Nat × Op × Bool)} {c : World} (s : Seq cfg w h c) (S : Session cfg w) : Session cfg c := by
  induction s with
  | nil => exact S
  | op _ L e ih => exact .op ih L e
  | skip _ hn ih => exact .skip ih hn

theorem skip_vals {top : Names} : vals (skip top w) = vals w := by
  funext a
  unfold vals Mem.view Mem.content
  have : ∀ p, Mem.cellAt (skip top w) p = Mem.cellAt w p := fun p => by cases p <;> rfl
  simp only [this]
  rfl

theorem Seq.vals {h : List (Nat × Op × Bool)} {c : World} (C : CfgOk cfg) (S : Session cfg w) (s : Seq cfg w h c) (ht : ∀ x ∈ h, x.2.2 = true) :
    vals c = (h.map (·.2.1)).foldl (specStep cfg) (vals w) := by
  induction s with
  | nil => rfl
  | @op w2 w3 h i op r s L e ih =>
    have hr : r = true := ht (i, op, r) (by simp)
    subst hr
    have W := ((Seq.session s S).wf C)
    rw [List.map_append, List.foldl_append, ← ih fun x hx => ht x (List.mem_append_left _ hx)]
    rcases Mem.step_spec C (Mem.Rep.of_wf W) op L with ⟨w', σ', e', D⟩ | ⟨w', σ', e', _⟩ | ⟨_, e'⟩
    · unfold Ends at e
      rw [e'] at e
      cases e
      show Mem.vals _ = specStep cfg (Mem.vals w2) op
      rw [D.rep.vals', D.vals, (Mem.Rep.of_wf W).vals']
    · unfold Ends at e; rw [e'] at e; cases e
    · unfold Ends at e; rw [e'] at e; cases e
  | skip s _ ih => rw [skip_vals]; exact ih ht

theorem Good.snap {c : World} {h : List (Nat × Op × Bool)} {G : Nat → Option Ghost} {L : List Nat} (H : Good cfg w tr m c h G L) {a : Nat}
    (hs : m.Still cfg a) : snap m.mem a = snap c a := by
  have hno : ∀ i, ¬ ownOf cfg (G i) (.any a) := by
    rintro i ⟨g, hg, ho⟩
    have K := H.link i
    rw [hg] at K
    generalize hth : m.thread i = th at K
    cases K with
    | busy B => exact hs i _ _ _ _ _ hth ho
  have e1 : m.mem.anys a = c.anys a := H.mem (.any a) hno
  refine snap_congr e1 fun s hs => ?_
  rw [e1] at hs
  rcases (H.wf.any a s hs).shape with h | ⟨b, k, h, hk, _⟩
  · exact .inl h
  · refine .inr ⟨b, h, H.mem (.blk b) fun i => ?_⟩
    rintro ⟨g, hg, ho⟩
    have K := H.link i
    rw [hg] at K
    generalize hth : m.thread i = th at K
    cases K with
    | busy B =>
      refine (B.sep a s hs).1 (fun h' => hno i ⟨g, hg, h'⟩) ?_
      rw [h]; exact ho

/-- If no thread is executing an operation, the memory is that of the operations one after the other. -/
theorem Good.settled {c : World} {h : List (Nat × Op × Bool)} {G : Nat → Option Ghost} {L : List Nat} (H : Good cfg w tr m c h G L)
    (hi : ∀ i, m.thread i = .nothing) : m.mem = c ∧ ∀ i, doneBy i h = opsOf tr i := by
  have hG : ∀ i, G i = none := fun i => H.idle (hi i)
  have hL : L = [] := by
    cases L with
    | nil => rfl
    | cons i L => exact absurd (hG i) ((H.listed i).1 List.mem_cons_self)
  subst hL
  refine ⟨Fine.world_ext ?_ fun l => H.mem l fun i => by rw [hG]; exact own_none, fun i => by rw [H.done, hG]; exact List.append_nil _⟩
  refine ⟨congrArg Names.blk H.names, congrArg Names.obj H.names, ?_, ?_, ?_, ?_, congrArg Names.tick H.names⟩
  · funext id; exact (H.born id fun i g hg => by rw [hG] at hg; cases hg).symm
  · funext id; exact (H.dtors id).symm
  · funext id; exact (H.frees id).symm
  · exact H.copies.symm

/-! ### The theorems -/

/-- C101: however the steps of the threads interleave, there is no data race, and no step of any of them is undefined, if no operation begins while another
thread executes one that modifies an object it uses, or that uses an object it modifies. -/
theorem C101_no_race (C : CfgOk cfg) (S : Session cfg w) (run : Exec cfg w tr m) : ¬ Race tr ∧ ∀ i, ¬ m.Undefined cfg i := by
  obtain ⟨c, h, G, L, H⟩ := good C (S.wf C) run
  refine ⟨H.norace, ?_⟩
  rintro i ⟨op, t, base, top, book, ht, hu⟩
  obtain ⟨g, hg, rfl, rfl, rfl, B⟩ := H.busy ht
  rcases hu with rfl | ⟨β, A, k, rfl, hu⟩
  · exact B.defined rfl
  · obtain ⟨b, u, x, _, h2, _⟩ := B.step
    have hu : A.exec cfg { book with anys := m.mem.anys, blks := m.mem.blks } = .ub := hu
    rw [hu] at h2
    cases h2

/-- C101: whatever the threads did, the objects that no operation in progress modifies are as if the operations had been executed one after the other, in the
order in which they began, each of them legally, and each of those that have ended with the result it had. -/
theorem C101_one_after_the_other (C : CfgOk cfg) (S : Session cfg w) (run : Exec cfg w tr m) :
    ∃ h c, Seq cfg w h c ∧ (h.map fun x => (x.1, x.2.1)).Sublist (starts tr) ∧
      (∀ i, ∃ p, doneBy i h = opsOf tr i ++ p ∧
        (p = [] ∨ ∃ op r t base top book, m.thread i = .busy op t base top book ∧ p = [(op, r)])) ∧
      ∀ a, m.Still cfg a → snap m.mem a = snap c a := by
  obtain ⟨c, h, G, L, H⟩ := good C (S.wf C) run
  refine ⟨h, c, H.seq, H.order, fun i => ⟨pending (G i), H.done i, ?_⟩, fun a ha => H.snap ha⟩
  have K := H.link i
  generalize m.thread i = th at K
  cases hG : G i with
  | none => exact .inl rfl
  | some g =>
    rw [hG] at K
    cases K with
    | @busy _ t book B =>
      cases hf : g.fin with
      | none => exact .inl (by simp [pending, hf])
      | some x => exact .inr ⟨g.op, x.1, t, g.base, g.top, book, rfl, by simp [pending, hf]⟩

/-- C101: whenever no thread is executing an operation, the memory is exactly that of the operations executed one after the other. So a program can go on from
there in any way, and all that was proved about programs (C100) is true of it. -/
theorem C101_between (C : CfgOk cfg) (S : Session cfg w) (run : Exec cfg w tr m) (hi : ∀ i, m.thread i = .nothing) :
    Session cfg m.mem ∧ ∃ h, Seq cfg w h m.mem ∧ (h.map fun x => (x.1, x.2.1)).Sublist (starts tr) ∧ ∀ i, doneBy i h = opsOf tr i := by
  obtain ⟨c, h, G, L, H⟩ := good C (S.wf C) run
  obtain ⟨e, hd⟩ := H.settled hi
  rw [e]
  exact ⟨H.seq.session S, h, H.seq, H.order, hd⟩

/-- C101: if all operations returned, the values of the objects that no operation in progress modifies are those that the reference behaviour says for the
operations in the order in which they began. -/
theorem C101_values (C : CfgOk cfg) (S : Session cfg w) (run : Exec cfg w tr m) (hi : ∀ i, m.thread i = .nothing)
    (ht : ∀ i, ∀ x ∈ opsOf tr i, x.2 = true) :
    ∃ h : List (Nat × Op), h.Sublist (starts tr) ∧ (∀ i, (h.filter fun x => x.1 == i).map (·.2) = (opsOf tr i).map (·.1)) ∧
      vals m.mem = (h.map (·.2)).foldl (specStep cfg) (vals w) := by
  obtain ⟨_, h, s, hs, hd⟩ := C101_between C S run hi
  refine ⟨h.map fun x => (x.1, x.2.1), hs, fun i => ?_, ?_⟩
  · rw [← hd i, doneBy, List.filter_map, List.map_map, List.map_map]
    rfl
  · rw [List.map_map]
    refine s.vals C S fun x hx => ?_
    refine ht x.1 x.2 ?_
    rw [← hd]
    exact List.mem_map.2 ⟨x, List.mem_filter.2 ⟨hx, by simp⟩, rfl⟩

/-- C101: when all threads have ended and there are no any objects any more, every object whose destructor does something was destroyed exactly once, and
every block was given back exactly once, whichever thread did it. -/
theorem C101_nothing_left (C : CfgOk cfg) (S : Session cfg w) (run : Exec cfg w tr m) (hi : ∀ i, m.thread i = .nothing) (hall : ∀ a, ¬ alive m.mem a) :
    (∀ id, id < m.mem.nextObj → (cfg.ty (m.mem.born id)).trivDestr = false → m.mem.dtors id = 1) ∧
    ∀ b, b < m.mem.nextBlk → m.mem.frees b = 1 ∧ m.mem.blks b = none :=
  Fine.C100_nothing_left C (C101_between C S run hi).1 hall

/-- C101: no thread is ever stuck in an operation, whatever the others do: its next step is there, unless the process is to be terminated or the
operation needs another name although it has used all that were set aside for it. -/
theorem C101_progress (C : CfgOk cfg) (S : Session cfg w) (run : Exec cfg w tr m) {i : Nat} {op : Op} {t : Tree Unit} {base top : Names} {book : World}
    (ht : m.thread i = .busy op t base top book) :
    t = .term ∨ (∃ es m', Step cfg m es m' ∧ (∀ j, j ≠ i → m'.thread j = m.thread j) ∧
        ((∃ t' book', m'.thread i = .busy op t' base top book') ∨ (m'.thread i = .nothing ∧ ∃ r, es = [.ends i op r]))) ∨
      ∃ (β : Type) (A : Act β) (k : β → Tree Unit) (b : β) (v : World), t = .act A k ∧ A.exec cfg (m.world book) = .ok b v ∧ ¬ (namesOf v).Le top := by
  have D := (C101_no_race C S run).2 i
  cases t with
  | ret a => exact .inr (.inl ⟨_, _, .ret ht, fun j hj => if_neg hj, .inr ⟨if_pos rfl, true, rfl⟩⟩)
  | exn => exact .inr (.inl ⟨_, _, .exn ht, fun j hj => if_neg hj, .inr ⟨if_pos rfl, false, rfl⟩⟩)
  | ub => exact absurd ⟨op, _, base, top, book, ht, .inl rfl⟩ D
  | term => exact .inl rfl
  | act A k =>
    rcases exec_cases (cfg := cfg) A (m.world book) with he | ⟨b, v, he⟩
    · exact absurd ⟨op, _, base, top, book, ht, .inr ⟨_, A, k, rfl, he⟩⟩ D
    · by_cases hr : (namesOf v).Le top
      · exact .inr (.inl ⟨_, _, .act ht he hr, fun j hj => if_neg hj, .inl ⟨_, _, if_pos rfl⟩⟩)
      · exact .inr (.inr ⟨_, A, k, b, v, rfl, he, hr⟩)

/-! ### Observers -/

/-- Steps during which no operation in progress modifies the object at `a`. -/
inductive Quiet (cfg : Cfg) (a : Nat) : Machine → Machine → Prop
  | refl {m : Machine} : Quiet cfg a m m
  | step {m m1 m2 : Machine} {es : List Event} : Quiet cfg a m m1 → Step cfg m1 es m2 → m2.Still cfg a → Quiet cfg a m m2

theorem still_step (C : CfgOk cfg) (S : Session cfg w) (run : Exec cfg w tr m) {a : Nat} (hs : m.Still cfg a) {es : List Event} {m' : Machine}
    (st : Step cfg m es m') : SameAt m.mem m'.mem (.any a) := by
  obtain ⟨c, h, G, L, H⟩ := good C (S.wf C) run
  cases st with
  | start _ _ _ _ => rfl
  | ret _ => rfl
  | exn _ => rfl
  | @act i op base top book β A k b v ht he hn =>
    obtain ⟨g, hg, rfl, rfl, rfl, B⟩ := H.busy ht
    obtain ⟨b', u, x, _, hx, hh⟩ := B.step
    have hx : A.exec cfg (m.world book) = .ok b' x := hx
    rw [he] at hx
    cases hx
    obtain ⟨_, hwr, _, _⟩ := hh hn.1
    exact exec_writes he fun e => hs i _ _ _ _ _ ht (hwr (.any a) e).1

/-- C101: an observer (`has_value`, `type_descriptor`, ...: any computation that only reads the object, as C99 shows of them) may be called without
further precautions while no operation that modifies the object is in progress: it gives what it gives at its beginning, whatever the threads do with the other
objects, and even if they use this one, before, between and after its accesses. -/
theorem C101_observers (C : CfgOk cfg) (S : Session cfg w) {ms : Nat → Machine} (run : Exec cfg w tr (ms 0)) {a : Nat} (h0 : (ms 0).Still cfg a)
    (hq : ∀ n, Quiet cfg a (ms n) (ms (n + 1))) {α : Type} {t : Tree α} (ht : Reads a t) :
    during cfg (fun n => (ms n).mem) 0 t = match t.run cfg (ms 0).mem with | .ok r _ => some r | _ => none := by
  have key : ∀ m m', Quiet cfg a m m' → ∀ tr, Exec cfg w tr m → m.Still cfg a →
      (∃ tr', Exec cfg w tr' m') ∧ m'.Still cfg a ∧ SameAt m.mem m'.mem (.any a) := by
    intro m m' q
    induction q with
    | refl => exact fun tr e s => ⟨⟨tr, e⟩, s, rfl⟩
    | step _ st hs ih =>
      intro tr e s
      obtain ⟨⟨tr1, e1⟩, s1, h1⟩ := ih tr e s
      exact ⟨⟨_, .step e1 st⟩, hs, sameAt_trans h1 (still_step C S e1 s1 st)⟩
  have all : ∀ n, (∃ tr', Exec cfg w tr' (ms n)) ∧ (ms n).Still cfg a ∧ SameAt (ms 0).mem (ms n).mem (.any a) := by
    intro n
    induction n with
    | zero => exact ⟨⟨tr, run⟩, h0, rfl⟩
    | succ n ih =>
      obtain ⟨⟨tr1, e1⟩, s1, h1⟩ := ih
      obtain ⟨x, y, z⟩ := key _ _ (hq n) tr1 e1 s1
      exact ⟨x, y, sameAt_trans h1 z⟩
  exact Fine.Reads.during ht (fun n => (all n).2.2) 0

/-! ### Examples -/

/-- What the next step is: thread `i` begins an operation, or goes on. -/
inductive Move where
  | begin (i : Nat) (op : Op)
  | go (i : Nat)

instance (x y : Names) : Decidable (x.Le y) := inferInstanceAs (Decidable (_ ∧ _ ∧ _))

def clash (cfg : Cfg) (op : Op) : Doing → Bool
  | .nothing => false
  | .busy op' _ _ _ _ => (op'.writes cfg).any (fun a => op.addrs.contains a) || op'.addrs.any fun a => (op.writes cfg).contains a

/-- Two threads; `K` names of each kind are set aside for each operation. If `excl`, an operation begins only if there is no conflict. -/
def stepFn (cfg : Cfg) (excl : Bool) (K : Nat) (mv : Move) (m : Machine) : Option (List Event × Machine) :=
  match mv with
  | .begin i op =>
    let top : Names := ⟨m.mem.nextBlk + K, m.mem.nextObj + K, m.mem.tick + K⟩
    match m.thread i with
    | .nothing =>
      if i < 2 ∧ Legal cfg m.mem op ∧ (excl = true → clash cfg op (m.thread 0) = false ∧ clash cfg op (m.thread 1) = false) then
        some ([.starts i op],
          { mem := { m.mem with nextBlk := top.blk, nextObj := top.obj, tick := top.tick }
            thread := fun j => if j = i then .busy op (Fine.exec cfg op) (namesOf m.mem) top (fresh m.mem) else m.thread j })
      else none
    | _ => none
  | .go i =>
    match m.thread i with
    | .busy op (.ret ()) base top book =>
      some ([.ends i op true], { mem := settle base top book m.mem, thread := fun j => if j = i then .nothing else m.thread j })
    | .busy op .exn base top book =>
      some ([.ends i op false], { mem := settle base top book m.mem, thread := fun j => if j = i then .nothing else m.thread j })
    | .busy op (.act A k) base top book =>
      match A.exec cfg (m.world book) with
      | .ok b v =>
        if (namesOf v).Le top then
          some (accessEvent i (A.accesses (m.world book)),
            { mem := { m.mem with anys := v.anys, blks := v.blks }, thread := fun j => if j = i then .busy op (k b) base top v else m.thread j })
        else none
      | _ => none
    | _ => none

def runFn (cfg : Cfg) (excl : Bool) (K : Nat) : List Move → List Event → Machine → List Event × Machine
  | [], tr, m => (tr, m)
  | x :: s, tr, m =>
    match stepFn cfg excl K x m with
    | some (es, m') => runFn cfg excl K s (tr ++ es) m'
    | none => runFn cfg excl K s tr m

theorem of_clash {op : Op} {j : Nat} (h : clash cfg op (m.thread j) = false) : ¬ m.Conflict cfg op j := by
  rintro ⟨op', t, base, top, book, ht, hc⟩
  rw [ht] at h
  simp only [clash, Bool.or_eq_false_iff, List.any_eq_false, List.contains_eq_mem, decide_eq_true_eq] at h
  rcases hc with ⟨a, h1, h2⟩ | ⟨a, h1, h2⟩
  · exact h.1 a h1 h2
  · exact h.2 a h1 h2

theorem stepFn_step {K : Nat} {mv : Move} {m m' : Machine} {es : List Event} (hm : ∀ j, 2 ≤ j → m.thread j = .nothing)
    (h : stepFn cfg true K mv m = some (es, m')) : Step cfg m es m' ∧ ∀ j, 2 ≤ j → m'.thread j = .nothing := by
  unfold stepFn at h
  split at h
  · dsimp only at h
    split at h
    · rename_i ht
      split at h
      · rename_i hc
        cases h
        refine ⟨.start (top := ⟨m.mem.nextBlk + K, m.mem.nextObj + K, m.mem.tick + K⟩) ht hc.2.1 (fun j => ?_) ⟨Nat.le_add_right _ _, Nat.le_add_right _ _, Nat.le_add_right _ _⟩, fun j hj => ?_⟩
        · have := hc.2.2 rfl
          rcases Nat.lt_or_ge j 2 with h2 | h2
          · have : j = 0 ∨ j = 1 := by omega
            rcases this with rfl | rfl
            · exact of_clash (hc.2.2 rfl).1
            · exact of_clash (hc.2.2 rfl).2
          · exact of_clash (by rw [hm j h2]; rfl)
        · have h1 := hc.1
          simp only [show ¬ (j = _) from fun e => absurd (e ▸ h1) (Nat.not_lt.2 hj), if_false]
          exact hm j hj
      · cases h
    · cases h
  · rename_i i
    have keep : ∀ {j : Nat} {d : Doing}, m.thread i ≠ .nothing → 2 ≤ j → (if j = i then d else m.thread j) = .nothing := by
      intro j d hi hj
      have : ¬ j = i := fun e => hi (e ▸ hm j hj)
      rw [if_neg this]; exact hm j hj
    split at h
    · rename_i ht; cases h; exact ⟨.ret ht, fun j hj => keep (by rw [ht]; intro e; cases e) hj⟩
    · rename_i ht; cases h; exact ⟨.exn ht, fun j hj => keep (by rw [ht]; intro e; cases e) hj⟩
    · rename_i ht
      split at h
      · rename_i he
        split at h
        · rename_i hn; cases h; exact ⟨.act ht he hn, fun j hj => keep (by rw [ht]; intro e; cases e) hj⟩
        · cases h
      · cases h
    · cases h

theorem runFn_exec {K : Nat} {s : List Move} (hm : ∀ j, 2 ≤ j → m.thread j = .nothing) (h : Exec cfg w tr m) :
    Exec cfg w (runFn cfg true K s tr m).1 (runFn cfg true K s tr m).2 ∧ ∀ j, 2 ≤ j → (runFn cfg true K s tr m).2.thread j = .nothing := by
  induction s generalizing tr m with
  | nil => exact ⟨h, hm⟩
  | cons x s ih =>
    unfold runFn
    split
    · rename_i hst
      obtain ⟨h1, h2⟩ := stepFn_step hm hst
      exact ih h2 (.step h h1)
    · exact ih hm h

theorem stepFn_still {excl : Bool} {K : Nat} {mv : Move} {m m' : Machine} {es : List Event} {a : Nat} (hs : m.Still cfg a)
    (hw : ∀ i op, mv = .begin i op → a ∉ op.writes cfg) (h : stepFn cfg excl K mv m = some (es, m')) : m'.Still cfg a := by
  intro j op t base top book ht
  unfold stepFn at h
  split at h
  · rename_i i op'
    dsimp only at h
    split at h
    · split at h
      · cases h
        dsimp only at ht
        split at ht
        · cases ht; exact hw i _ rfl
        · exact hs j _ _ _ _ _ ht
      · cases h
    · cases h
  · split at h
    · cases h
      dsimp only at ht
      split at ht
      · cases ht
      · exact hs j _ _ _ _ _ ht
    · cases h
      dsimp only at ht
      split at ht
      · cases ht
      · exact hs j _ _ _ _ _ ht
    · rename_i hi
      split at h
      · split at h
        · cases h
          dsimp only at ht
          split at ht
          · cases ht; exact hs _ _ _ _ _ _ hi
          · exact hs j _ _ _ _ _ ht
        · cases h
      · cases h
    · cases h

theorem runFn_keeps (C : CfgOk cfg) (S : Session cfg w) {K : Nat} {s : List Move} (hm : ∀ j, 2 ≤ j → m.thread j = .nothing) (h : Exec cfg w tr m)
    {a : Nat} (hs : m.Still cfg a) (hw : ∀ i op, .begin i op ∈ s → a ∉ op.writes cfg) : (runFn cfg true K s tr m).2.mem.anys a = m.mem.anys a := by
  induction s generalizing tr m with
  | nil => rfl
  | cons x s ih =>
    unfold runFn
    split
    · rename_i hst
      obtain ⟨h1, h2⟩ := stepFn_step hm hst
      have h3 : m.mem.anys a = _ := still_step C S h hs h1
      rw [h3]
      exact ih h2 (.step h h1) (stepFn_still hs (fun i op e => hw i op (e ▸ List.mem_cons_self)) hst) fun i op hi => hw i op (List.mem_cons_of_mem _ hi)
    · exact ih hm h hs fun i op hi => hw i op (List.mem_cons_of_mem _ hi)

open AnyAny.Mem (exStd exMs exTy_align)

/-- A copy throws. -/
def exCfgS : Cfg := { exStd with faults := fun n => n == 25 }

/-- Thread 0 makes object 4. Thread 1 moves from it to a new object 2 while thread 0 makes object 0. Then both copy object 2 at the same time. -/
def exMoves1 : List Move :=
  [.begin 0 (.valueCtor 4 exMs 0 2 (.lit 7) false)] ++ List.replicate 20 (.go 0) ++
  [.begin 1 (.moveCtor 2 4), .begin 0 (.valueCtor 0 exMs 0 1 (.lit 3) false), .begin 0 (.dtor 4)] ++ (List.replicate 20 [.go 0, .go 1]).flatten ++
  [.begin 0 (.copyCtor 6 exMs 2), .begin 1 (.copyCtor 8 exMs 2)] ++ (List.replicate 30 [.go 1, .go 0]).flatten

/-- Then thread 1 destroys object 2 while thread 0 destroys object 0, and so on. -/
def exMoves2 : List Move :=
  [.begin 1 (.dtor 2), .begin 0 (.mutate 2 2 5), .begin 0 (.dtor 0)] ++ (List.replicate 20 [.go 0, .go 1]).flatten ++
  [.begin 1 (.dtor 4), .begin 0 (.dtor 8)] ++ (List.replicate 20 [.go 0, .go 1]).flatten

def exRun1 : List Event × Machine := runFn exCfgS true 8 exMoves1 [] ⟨.init, fun _ => .nothing⟩
def exRun2 : List Event × Machine := runFn exCfgS true 8 exMoves2 exRun1.1 exRun1.2

def isNothing : Doing → Bool
  | .nothing => true
  | _ => false

theorem of_isNothing {d : Doing} (h : isNothing d = true) : d = .nothing := by
  cases d with
  | nothing => rfl
  | busy => cases h

def accessesB (tr : List Event) (i : Nat) (l : Loc) (x : Bool) : Bool :=
  tr.any fun e => match e with | .access j l' x' => j == i && decide (l' = l) && x' == x | _ => false

theorem accesses_of {i : Nat} {l : Loc} {x : Bool} (h : accessesB tr i l x = true) : .access i l x ∈ tr := by
  obtain ⟨e, he, h⟩ := List.any_eq_true.1 h
  cases e with
  | access j l' x' =>
    simp only [Bool.and_eq_true, beq_iff_eq, decide_eq_true_eq] at h
    obtain ⟨⟨rfl, rfl⟩, rfl⟩ := h
    exact he
  | ends _ _ _ => cases h
  | starts _ _ => cases h

theorem exCfgS_ok : CfgOk exCfgS := ⟨exTy_align, fun _ => rfl⟩

theorem exRun1_exec : Exec exCfgS .init exRun1.1 exRun1.2 ∧ ∀ j, 2 ≤ j → exRun1.2.thread j = .nothing := by
  have := runFn_exec (cfg := exCfgS) (w := .init) (K := 8) (s := exMoves1) (tr := []) (m := ⟨.init, fun _ => .nothing⟩) (fun _ _ => rfl) .init
  unfold exRun1
  exact this

theorem exRun1_idle (i : Nat) : exRun1.2.thread i = .nothing := by
  rcases Nat.lt_or_ge i 2 with h | h
  · have : i = 0 ∨ i = 1 := by omega
    rcases this with rfl | rfl <;> exact of_isNothing (by decide +kernel)
  · exact exRun1_exec.2 i h

/-- The hypotheses of the theorems hold for two threads that hand objects over to each other: object 4, made by thread 0, is moved from by thread 1 while
thread 0 makes object 0 (the destruction of object 4 that thread 0 asks for at that time must wait: it is not begun); then both copy object 2, one of
them gets an exception. -/
example : CfgOk exCfgS ∧ Session exCfgS .init ∧ ∃ tr m, Exec exCfgS .init tr m ∧ (∀ i, m.thread i = .nothing) ∧
    opsOf tr 0 = [(.valueCtor 4 exMs 0 2 (.lit 7) false, true), (.valueCtor 0 exMs 0 1 (.lit 3) false, true), (.copyCtor 6 exMs 2, false)] ∧
    opsOf tr 1 = [(.moveCtor 2 4, true), (.copyCtor 8 exMs 2, true)] ∧
    (List.range 9).map (vals m.mem) =
      [some (some (1, 3)), none, some (some (2, 7)), none, some none, none, none, none, some (some (2, 7))] ∧
    .access 0 (.any 4) true ∈ tr ∧ .access 1 (.any 4) true ∈ tr ∧ .access 0 (.blk 0) false ∈ tr ∧ .access 1 (.blk 0) false ∈ tr :=
  ⟨exCfgS_ok, .init, exRun1.1, exRun1.2, exRun1_exec.1, exRun1_idle, by decide +kernel, by decide +kernel, by decide +kernel,
    accesses_of (by decide +kernel), accesses_of (by decide +kernel), accesses_of (by decide +kernel), accesses_of (by decide +kernel)⟩

/-- The hypotheses of `C101_nothing_left` hold: the objects are destroyed by threads other than those that made them. -/
example : ∃ tr m, Exec exCfgS .init tr m ∧ (∀ i, m.thread i = .nothing) ∧ (∀ a, ¬ alive m.mem a) ∧
    opsOf tr 1 = [(.moveCtor 2 4, true), (.copyCtor 8 exMs 2, true), (.dtor 2, true), (.dtor 4, true)] ∧
    .access 0 (.blk 0) true ∈ tr ∧ .access 1 (.blk 0) true ∈ tr := by
  have E : Exec exCfgS .init exRun2.1 exRun2.2 ∧ ∀ j, 2 ≤ j → exRun2.2.thread j = .nothing := by
    have := runFn_exec (cfg := exCfgS) (w := .init) (K := 8) (s := exMoves2) (tr := exRun1.1) (m := exRun1.2) exRun1_exec.2 exRun1_exec.1
    unfold exRun2
    exact this
  refine ⟨exRun2.1, exRun2.2, E.1, fun i => ?_, fun a => ?_, by decide +kernel, accesses_of (by decide +kernel), accesses_of (by decide +kernel)⟩
  · rcases Nat.lt_or_ge i 2 with h | h
    · have : i = 0 ∨ i = 1 := by omega
      rcases this with rfl | rfl <;> exact of_isNothing (by decide +kernel)
    · exact E.2 i h
  · by_cases ha : a ∈ [0, 2, 4, 6, 8]
    · simp only [List.mem_cons, List.not_mem_nil, or_false] at ha
      rcases ha with rfl | rfl | rfl | rfl | rfl <;> decide +kernel
    · have hw : ∀ s ∈ [exMoves1, exMoves2], ∀ i op, Move.begin i op ∈ s → a ∉ op.writes exCfgS := by
        have key : ∀ s ∈ [exMoves1, exMoves2], ∀ mv ∈ s, ∀ x ∈ (match mv with | .begin _ op => op.writes exCfgS | .go _ => []), x ∈ [0, 2, 4, 6, 8] := by
          decide +kernel
        exact fun s hs i op hi hx => ha (key s hs _ hi a hx)
      have still : exRun1.2.Still exCfgS a := fun i op t base top book ht => by rw [exRun1_idle i] at ht; cases ht
      have e2 : exRun2.2.mem.anys a = exRun1.2.mem.anys a := by
        have := runFn_keeps (cfg := exCfgS) (w := .init) (K := 8) (s := exMoves2) (tr := exRun1.1) (m := exRun1.2) exCfgS_ok .init exRun1_exec.2
          exRun1_exec.1 still (hw _ (by simp))
        unfold exRun2
        exact this
      have e1 : exRun1.2.mem.anys a = World.init.anys a := by
        have := runFn_keeps (cfg := exCfgS) (w := .init) (K := 8) (s := exMoves1) (tr := []) (m := ⟨.init, fun _ => .nothing⟩) exCfgS_ok .init
          (fun _ _ => rfl) .init (fun i op t base top book ht => by cases ht) (hw _ (by simp))
        unfold exRun1
        exact this
      simp [alive, e2, e1, World.init]

theorem runFn_quiet {m0 : Machine} {K : Nat} {s : List Move} {a : Nat} (hm : ∀ j, 2 ≤ j → m.thread j = .nothing) (hs : m.Still cfg a)
    (hw : ∀ i op, .begin i op ∈ s → a ∉ op.writes cfg) (q : Quiet cfg a m0 m) : Quiet cfg a m0 (runFn cfg true K s tr m).2 := by
  induction s generalizing tr m with
  | nil => exact q
  | cons x s ih =>
    unfold runFn
    split
    · rename_i hst
      obtain ⟨h1, h2⟩ := stepFn_step hm hst
      have h3 := stepFn_still hs (fun i op e => hw i op (e ▸ List.mem_cons_self)) hst
      exact ih h2 h3 (fun i op hi => hw i op (List.mem_cons_of_mem _ hi)) (.step q h1 h3)
    · exact ih hm hs (fun i op hi => hw i op (List.mem_cons_of_mem _ hi)) q

/-- In the middle of the two copies of object 2. -/
def exMid : List Event × Machine := runFn exCfgS true 8 (exMoves1.take 78) [] ⟨.init, fun _ => .nothing⟩

def exLater : List Event × Machine := runFn exCfgS true 8 [.go 0, .go 1, .go 1] exMid.1 exMid.2

def opOf : Doing → Option Op
  | .nothing => none
  | .busy op _ _ _ _ => some op

/-- The hypotheses of `C101_observers` hold for object 2 while both threads copy it. -/
example : ∃ tr m m', Exec exCfgS .init tr m ∧ opOf (m.thread 0) = some (.copyCtor 6 exMs 2) ∧ opOf (m.thread 1) = some (.copyCtor 8 exMs 2) ∧
    m.Still exCfgS 2 ∧ Quiet exCfgS 2 m m' ∧ (m'.mem.blks 32).map (·.cell.isSome) ≠ (m.mem.blks 32).map (·.cell.isSome) := by
  have E : Exec exCfgS .init exMid.1 exMid.2 ∧ ∀ j, 2 ≤ j → exMid.2.thread j = .nothing := by
    have := runFn_exec (cfg := exCfgS) (w := .init) (K := 8) (s := exMoves1.take 78) (tr := []) (m := ⟨.init, fun _ => .nothing⟩) (fun _ _ => rfl) .init
    unfold exMid
    exact this
  have h0 : opOf (exMid.2.thread 0) = some (.copyCtor 6 exMs 2) := by decide +kernel
  have h1 : opOf (exMid.2.thread 1) = some (.copyCtor 8 exMs 2) := by decide +kernel
  have S : exMid.2.Still exCfgS 2 := by
    intro i op t base top book ht
    rcases Nat.lt_or_ge i 2 with h | h
    · have : i = 0 ∨ i = 1 := by omega
      rcases this with rfl | rfl
      · rw [ht] at h0; cases h0; decide
      · rw [ht] at h1; cases h1; decide
    · rw [E.2 i h] at ht; cases ht
  refine ⟨exMid.1, exMid.2, exLater.2, E.1, h0, h1, S, ?_, by decide +kernel⟩
  have := runFn_quiet (cfg := exCfgS) (tr := exMid.1) (m0 := exMid.2) (m := exMid.2) (K := 8) (s := [.go 0, .go 1, .go 1]) E.2 S
    (fun i op h => by simp at h) .refl
  unfold exLater
  exact this

/-- Steps from a given state. -/
inductive Runs (cfg : Cfg) : Machine → List Event → Machine → Prop
  | refl {m : Machine} : Runs cfg m [] m
  | step {m m1 m2 : Machine} {tr es : List Event} : Runs cfg m tr m1 → Step cfg m1 es m2 → Runs cfg m (tr ++ es) m2

theorem runFn_runs {m0 : Machine} {K : Nat} {s : List Move} (hm : ∀ j, 2 ≤ j → m.thread j = .nothing) (h : Runs cfg m0 tr m) :
    Runs cfg m0 (runFn cfg true K s tr m).1 (runFn cfg true K s tr m).2 := by
  induction s generalizing tr m with
  | nil => exact h
  | cons x s ih =>
    unfold runFn
    split
    · rename_i hst
      obtain ⟨h1, h2⟩ := stepFn_step hm hst
      exact ih h2 (.step h h1)
    · exact ih hm h

def isAccess (i : Nat) (l : Loc) (x : Bool) : Option Event → Bool
  | some (.access j l' x') => j == i && decide (l' = l) && x' == x
  | _ => false

def isStart : Event → Bool
  | .starts _ _ => true
  | _ => false

theorem race_of {i j : Nat} {l : Loc} {x y : Bool} (n k : Nat) (h1 : isAccess i l x tr[n]? = true) (h2 : isAccess j l y (tr.drop (n + 1))[k]? = true)
    (hij : i ≠ j) (hxy : x = true ∨ y = true) (h3 : ((tr.drop (n + 1)).take k).all (fun e => !isStart e) = true) : Race tr := by
  have key : ∀ {i l x} {s : List Event} {n : Nat}, isAccess i l x s[n]? = true → s = s.take n ++ .access i l x :: s.drop (n + 1) := by
    intro i l x s n h
    cases he : s[n]? with
    | none => rw [he] at h; cases h
    | some e =>
      rw [he] at h
      have hs : s = s.take n ++ e :: s.drop (n + 1) := by
        obtain ⟨hn, rfl⟩ := List.getElem?_eq_some_iff.1 he
        rw [List.getElem_cons_drop, List.take_append_drop]
      cases e with
      | access j l' x' =>
        simp only [isAccess, Bool.and_eq_true, beq_iff_eq, decide_eq_true_eq] at h
        obtain ⟨⟨rfl, rfl⟩, rfl⟩ := h
        exact hs
      | _ => cases h
  refine ⟨tr.take n, i, l, x, (tr.drop (n + 1)).take k, j, y, ((tr.drop (n + 1)).drop (k + 1)), ?_, hij, hxy, ?_⟩
  · rw [List.append_assoc, List.cons_append, ← key h2]; exact key h1
  · rintro ⟨t1, op, r, t2, op', t3, e⟩
    rw [e] at h3
    simp [isStart] at h3

def addNames (x : Names) (k : Nat) : Names := ⟨x.blk + k, x.obj + k, x.tick + k⟩

open AnyAny.Mem (exStart2)

/-- Object 4 has a value. Thread 0 has begun to assign to it, and thread 1 to copy it. -/
def exClash : Machine where
  mem := { exStart2 with nextBlk := exStart2.nextBlk + 16, nextObj := exStart2.nextObj + 16, tick := exStart2.tick + 16 }
  thread j :=
    if j = 0 then .busy (.mutate 4 2 9) (Fine.exec exStd (.mutate 4 2 9)) (namesOf exStart2) (addNames (namesOf exStart2) 8) (fresh exStart2)
    else if j = 1 then
      .busy (.copyCtor 2 exMs 4) (Fine.exec exStd (.copyCtor 2 exMs 4)) (addNames (namesOf exStart2) 8) (addNames (namesOf exStart2) 16)
        { fresh exStart2 with nextBlk := exStart2.nextBlk + 8, nextObj := exStart2.nextObj + 8, tick := exStart2.tick + 8 }
    else .nothing

def exClashRun : List Event × Machine := runFn exStd true 8 (List.replicate 20 [.go 0, .go 1]).flatten [] exClash

/-- The condition on the beginning of operations is needed: two operations that are legal, one of which modifies an object that the other one uses, make
a data race when they overlap. -/
theorem C101_needs_exclusion : ∃ m tr m', Legal exStd exStart2 (.mutate 4 2 9) ∧ Legal exStd exStart2 (.copyCtor 2 exMs 4) ∧
    m.mem.anys = exStart2.anys ∧ m.mem.blks = exStart2.blks ∧
    (∃ b1 t1 c1 b2 t2 c2, m.thread 0 = .busy (.mutate 4 2 9) (Fine.exec exStd (.mutate 4 2 9)) b1 t1 c1 ∧
      m.thread 1 = .busy (.copyCtor 2 exMs 4) (Fine.exec exStd (.copyCtor 2 exMs 4)) b2 t2 c2) ∧
    Runs exStd m tr m' ∧ Race tr := by
  refine ⟨exClash, exClashRun.1, exClashRun.2, by decide +kernel, by decide +kernel, rfl, rfl, ⟨_, _, _, _, _, _, rfl, rfl⟩, ?_, ?_⟩
  · have := runFn_runs (cfg := exStd) (m0 := exClash) (K := 8) (s := (List.replicate 20 [.go 0, .go 1]).flatten) (tr := []) (m := exClash)
      (fun j hj => by simp only [exClash]; rw [if_neg (by omega), if_neg (by omega)]) .refl
    unfold exClashRun
    exact this
  · exact race_of (i := 0) (j := 1) (l := .blk 0) (x := true) (y := false) 6 0 (by decide +kernel) (by decide +kernel) (by decide) (.inl rfl) (by decide +kernel)

end AnyAny.Sync
