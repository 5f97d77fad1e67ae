import Verif.Spec.SwarmThreads
import Verif.Lemmas.SwarmReentry2
/-! Lemmas about threads that use one swarm. -/
namespace AnyAny.SwarmRe

variable {R W : Nat → Prop}

structure Agree (R : Nat → Prop) (s s' : State) : Prop where
  calls : s.calls = s'.calls
  cmd : s.cmd = s'.cmd
  loops : s.loops = s'.loops
  same : ∀ j, R j → SameC s s' j

def LOk (R W : Nat → Prop) : List Loop → Prop
  | [] => True
  | l :: ls => R l.i ∧ (∀ j ∈ l.rest, R j) ∧ (∀ b, (l.k b).Uses R W (ls.head?.map (·.i))) ∧ LOk R W ls

def TGood (R W : Nat → Prop) (s : State) : Prop := s.cmd.Uses R W (s.loops.head?.map (·.i)) ∧ LOk R W s.loops

theorem begin_tgood {C : Cfg} (hb : ∀ v i, R i → (C.body v i).Uses R W (some i)) (v k) (ls : List Loop) (s : State) (js : List Nat)
    (hj : ∀ j ∈ js, R j) (hk : ∀ b, (k b).Uses R W (ls.head?.map (·.i))) (hl : LOk R W ls) : TGood R W (begin C v k ls s js) := by
  induction js with
  | nil => exact ⟨hk _, hl⟩
  | cons j js ih =>
    have h1 := hj j (List.mem_cons_self ..)
    have h2 := fun x hx => hj x (List.mem_cons_of_mem j hx)
    simp only [begin]; split
    · exact ih h2
    · exact ⟨hb v j h1, h1, h2, hk, hl⟩

theorem begin_agree {C : Cfg} (v k) (ls : List Loop) {s s' : State} (js : List Nat) (hj : ∀ j ∈ js, R j) (h : Agree R s s') :
    Agree R (begin C v k ls s js) (begin C v k ls s' js) := by
  induction js with
  | nil => exact ⟨h.calls, rfl, rfl, h.same⟩
  | cons j js ih =>
    have h1 := h.same j (hj j (List.mem_cons_self ..))
    have h2 := fun x hx => hj x (List.mem_cons_of_mem j hx)
    simp only [begin, ← h1.1, ← h1.2.2.1, ← h1.2.2.2, ← h.calls]; split
    · exact ih h2
    · exact ⟨rfl, rfl, rfl, h.same⟩

theorem begin_same {C : Cfg} (v k) (ls : List Loop) (s : State) (js : List Nat) (j : Nat) : SameC (begin C v k ls s js) s j := by
  induction js with
  | nil => exact ⟨rfl, rfl, rfl, rfl⟩
  | cons i js ih =>
    simp only [begin]; split
    · exact ih
    · exact ⟨rfl, rfl, rfl, rfl⟩

/-- Steps of programs that keep the rule: they use only the containers of `R`, change only those of `W`, and keep to the rule. -/
theorem step_agree {C : Cfg} (hw : ∀ j, W j → R j) (hb : ∀ v i, R i → (C.body v i).Uses R W (some i)) {s s' : State} (hg : TGood R W s)
    (h : Agree R s s') :
    match step C s with
    | .next t => ∃ t', step C s' = .next t' ∧ Agree R t t' ∧ TGood R W t ∧ (∀ j, ¬ W j → SameC t s j)
    | .fin b t => t = s ∧ step C s' = .fin b s'
    | .ub => step C s' = .ub := by
  obtain ⟨cont, cap, egen, lgen, calls, cmd, loops⟩ := s
  obtain ⟨cont', cap', egen', lgen', calls', cmd', loops'⟩ := s'
  obtain ⟨hcalls, hcmd, hloops, hsame⟩ := h
  simp only at hcalls hcmd hloops
  subst hcalls hcmd hloops
  obtain ⟨hu, hl⟩ := hg
  have hrefl : ∀ j, ¬ W j → SameC ⟨cont, cap, egen, lgen, calls, cmd, loops⟩ ⟨cont, cap, egen, lgen, calls, cmd, loops⟩ j :=
    fun j _ => ⟨rfl, rfl, rfl, rfl⟩
  cases cmd with
  | ret =>
    cases loops with
    | nil => exact ⟨rfl, rfl⟩
    | cons l ls =>
      obtain ⟨h1, h2, h3, h4⟩ := hl
      obtain ⟨e1, e2, e3, e4⟩ := hsame l.i h1
      simp only at e1 e2 e3 e4
      simp only [step, advance, ← e1, ← e3, ← e4]
      by_cases c1 : egen l.i ≠ l.egen ∨ lgen l.i ≠ l.lgen
      · simp only [c1, if_true]
      · simp only [c1, if_false]
        by_cases c2 : l.pos + 1 = (if C.node l.i then (cont l.i).length else l.last)
        · rw [if_pos c2, if_pos c2]
          exact ⟨_, rfl, begin_agree _ _ _ _ h2 ⟨rfl, rfl, rfl, hsame⟩, begin_tgood hb _ _ _ _ _ h2 h3 h4, fun j _ => begin_same ..⟩
        · rw [if_neg c2, if_neg c2]
          exact ⟨_, rfl, ⟨rfl, rfl, rfl, hsame⟩, ⟨hb _ _ h1, h1, h2, h3, h4⟩, fun j _ => ⟨rfl, rfl, rfl, rfl⟩⟩
  | raise =>
    cases loops with
    | nil => exact ⟨rfl, rfl⟩
    | cons l ls => exact ⟨_, rfl, ⟨rfl, rfl, rfl, hsame⟩, ⟨hl.2.2.1 true, hl.2.2.2⟩, fun j _ => ⟨rfl, rfl, rfl, rfl⟩⟩
  | insert j x k =>
    obtain ⟨e1, e2, e3, e4⟩ := hsame j (hw j hu.1)
    simp only at e1 e2 e3 e4
    simp only [step]
    refine ⟨_, rfl, ?_, ?_, ?_⟩
    · simp only [pushBack, upd_same, ← e1, ← e2, ← e3, ← e4]
      split
      · refine ⟨rfl, rfl, rfl, fun i hi => ?_⟩
        obtain ⟨f1, f2, f3, f4⟩ := hsame i hi
        refine ⟨?_, f2, f3, f4⟩
        simp only [upd]; split
        · rfl
        · exact f1
      · split
        · refine ⟨rfl, rfl, rfl, fun i hi => ?_⟩
          obtain ⟨f1, f2, f3, f4⟩ := hsame i hi
          refine ⟨?_, f2, f3, ?_⟩ <;> simp only [upd] <;> split <;> first | rfl | assumption
        · refine ⟨rfl, rfl, rfl, fun i hi => ?_⟩
          obtain ⟨f1, f2, f3, f4⟩ := hsame i hi
          refine ⟨?_, ?_, ?_, ?_⟩ <;> simp only [upd] <;> split <;> first | rfl | assumption
    · obtain ⟨g1, -, g3, -, -⟩ := pushBack_facts C j x k ⟨cont, cap, egen, lgen, calls, .insert j x k, loops⟩
      simp only [TGood, g1, g3]
      exact ⟨hu.2, hl⟩
    · intro i hi
      have hne : i ≠ j := fun e => hi (e ▸ hu.1)
      simp only [pushBack]
      split
      · exact ⟨upd_other _ _ hne, rfl, rfl, rfl⟩
      · split
        · exact ⟨upd_other _ _ hne, rfl, rfl, upd_other _ _ hne⟩
        · exact ⟨upd_other _ _ hne, upd_other _ _ hne, upd_other _ _ hne, upd_other _ _ hne⟩
  | clear j k =>
    obtain ⟨e1, e2, e3, e4⟩ := hsame j (hw j hu.1)
    simp only at e1 e2 e3 e4
    simp only [step]
    refine ⟨_, rfl, ⟨rfl, rfl, rfl, fun i hi => ?_⟩, ⟨hu.2, hl⟩, fun i hi => ?_⟩
    · obtain ⟨f1, f2, f3, f4⟩ := hsame i hi
      refine ⟨?_, f2, ?_, ?_⟩
      · simp only [upd]; split
        · rfl
        · exact f1
      · simp only [upd, ← e3]; split
        · rfl
        · exact f3
      · simp only [← e4]; split
        · exact f4
        · simp only [upd]; split
          · rfl
          · exact f4
    · have hne : i ≠ j := fun e => hi (e ▸ hu.1)
      refine ⟨upd_other _ _ hne, rfl, upd_other _ _ hne, ?_⟩
      simp only; split
      · rfl
      · exact upd_other _ _ hne
  | reserve j n k =>
    obtain ⟨e1, e2, e3, e4⟩ := hsame j (hw j hu.1)
    simp only at e1 e2 e3 e4
    simp only [step, ← e2]
    by_cases c : C.node j = true ∨ n ≤ cap j
    · simp only [c, if_true]
      exact ⟨_, rfl, ⟨rfl, rfl, rfl, hsame⟩, ⟨hu.2, hl⟩, fun i _ => ⟨rfl, rfl, rfl, rfl⟩⟩
    · simp only [c, if_false]
      refine ⟨_, rfl, ⟨rfl, rfl, rfl, fun i hi => ?_⟩, ⟨hu.2, hl⟩, fun i hi => ?_⟩
      · obtain ⟨f1, f2, f3, f4⟩ := hsame i hi
        refine ⟨f1, ?_, ?_, ?_⟩ <;> simp only [upd, ← e3, ← e4] <;> split <;> first | rfl | assumption
      · have hne : i ≠ j := fun e => hi (e ▸ hu.1)
        exact ⟨rfl, upd_other _ _ hne, upd_other _ _ hne, upd_other _ _ hne⟩
  | count j k =>
    have e1 : cont j = cont' j := (hsame j hu.1).1
    simp only [step, ← e1]
    exact ⟨_, rfl, ⟨rfl, rfl, rfl, hsame⟩, ⟨hu.2 _, hl⟩, fun i _ => ⟨rfl, rfl, rfl, rfl⟩⟩
  | get k =>
    cases loops with
    | nil => rfl
    | cons l ls =>
      obtain ⟨e1, e2, e3, e4⟩ := hsame l.i hl.1
      simp only at e1 e2 e3 e4
      simp only [step, ← e1, ← e3]
      by_cases c : egen l.i ≠ l.egen
      · rw [if_pos c, if_pos c]
      · rw [if_neg c, if_neg c]
        rcases (cont l.i)[l.pos]? with _ | x
        · rfl
        · exact ⟨_, rfl, ⟨rfl, rfl, rfl, hsame⟩, ⟨hu x, hl⟩, fun i _ => ⟨rfl, rfl, rfl, rfl⟩⟩
  | set x k =>
    cases loops with
    | nil => rfl
    | cons l ls =>
      obtain ⟨e1, e2, e3, e4⟩ := hsame l.i hl.1
      simp only at e1 e2 e3 e4
      simp only [step, ← e1, ← e3]
      by_cases c : egen l.i ≠ l.egen
      · rw [if_pos c, if_pos c]
      · rw [if_neg c, if_neg c]
        by_cases c2 : l.pos < (cont l.i).length
        · rw [if_pos c2, if_pos c2]
          refine ⟨_, rfl, ⟨rfl, rfl, rfl, fun i hi => ?_⟩, ⟨hu.2, hl⟩, fun i hi => ?_⟩
          · obtain ⟨f1, f2, f3, f4⟩ := hsame i hi
            refine ⟨?_, f2, f3, f4⟩
            simp only [upd]; split
            · rfl
            · exact f1
          · have hne : i ≠ l.i := fun e => hi (e ▸ hu.1 l.i rfl)
            exact ⟨upd_other _ _ hne, rfl, rfl, rfl⟩
        · rw [if_neg c2, if_neg c2]
  | visit v js k =>
    simp only [step]
    exact ⟨_, rfl, begin_agree _ _ _ _ hu.1 ⟨rfl, rfl, rfl, hsame⟩, begin_tgood hb _ _ _ _ _ hu.1 hu.2 hl, fun j _ => begin_same ..⟩

theorem peeked_mem (s : State) (js : List Nat) : ∀ j ∈ peeked s js, j ∈ js := by
  induction js with
  | nil => simp [peeked]
  | cons i js ih =>
    intro j hj
    simp only [peeked] at hj
    split at hj
    · rcases List.mem_cons.1 hj with rfl | hj
      · exact List.mem_cons_self ..
      · exact List.mem_cons_of_mem _ (ih j hj)
    · simp only [List.mem_singleton] at hj; subst hj; exact List.mem_cons_self ..

theorem access_ok (hw : ∀ j, W j → R j) {s : State} (hg : TGood R W s) {j : Nat} {x : Bool} (h : (j, x) ∈ access s) :
    R j ∧ (x = true → W j) := by
  obtain ⟨cont, cap, egen, lgen, calls, cmd, loops⟩ := s
  obtain ⟨hu, hl⟩ := hg
  cases cmd with
  | ret =>
    cases loops with
    | nil => simp [access] at h
    | cons l ls =>
      simp only [access, List.mem_cons, List.mem_map] at h
      rcases h with h | ⟨i, hi, h⟩
      · cases h; exact ⟨hl.1, by simp⟩
      · cases h; exact ⟨hl.2.1 _ (peeked_mem _ _ _ hi), by simp⟩
  | raise => simp [access] at h
  | insert i y k => simp only [access, List.mem_singleton] at h; cases h; exact ⟨hw _ hu.1, fun _ => hu.1⟩
  | clear i k => simp only [access, List.mem_singleton] at h; cases h; exact ⟨hw _ hu.1, fun _ => hu.1⟩
  | reserve i n k => simp only [access, List.mem_singleton] at h; cases h; exact ⟨hw _ hu.1, fun _ => hu.1⟩
  | count i k => simp only [access, List.mem_singleton] at h; cases h; exact ⟨hu.1, by simp⟩
  | get k =>
    cases loops with
    | nil => simp [access] at h
    | cons l ls => simp [access] at h; obtain ⟨rfl, rfl⟩ := h; exact ⟨hl.1, by simp⟩
  | set y k =>
    cases loops with
    | nil => simp [access] at h
    | cons l ls => simp [access] at h; obtain ⟨rfl, rfl⟩ := h; exact ⟨hl.1, fun _ => hu.1 _ rfl⟩
  | visit v js k =>
    simp only [access, List.mem_map] at h
    obtain ⟨i, hi, h⟩ := h
    cases h; exact ⟨hu.1 _ (peeked_mem _ _ _ hi), by simp⟩

/-! ### All threads -/

/-- Where the thread is, as if it had been alone. -/
def Alone (C : Cfg) (R W : Nat → Prop) (cont : Nat → List Nat) (cap : Nat → Nat) (g : Shared) : Option Cmd → Option Local → Prop
  | none, l => l = none
  | some c, some l => ∃ n s, runN C n (start cont cap c) = .next s ∧ Agree R (join g l) s ∧ TGood R W (join g l)
  | some c, none => ∃ n b s, runN C n (start cont cap c) = .fin b s ∧ ∀ j, R j → g.cont j = s.cont j

structure Inv (C : Nat → Cfg) (R W : Nat → Nat → Prop) (cont : Nat → List Nat) (cap : Nat → Nat) (p : Nat → Option Cmd) (w : World) : Prop where
  threads : ∀ t, Alone (C t) (R t) (W t) cont cap w.sh (p t) (w.th t)
  rest : ∀ j, (∀ t c, p t = some c → ¬ W t j) → w.sh.cont j = cont j

variable {C : Nat → Cfg} {R W : Nat → Nat → Prop} {cont : Nat → List Nat} {cap : Nat → Nat} {p : Nat → Option Cmd}

theorem inv_launch (hk : ∀ t c, p t = some c → Keeps (C t) (R t) (W t) c) : Inv C R W cont cap p (launch cont cap p) := by
  refine ⟨fun t => ?_, fun j _ => rfl⟩
  simp only [launch]
  rcases e : p t with _ | c
  · rfl
  · exact ⟨0, _, rfl, ⟨rfl, rfl, rfl, fun j _ => ⟨rfl, rfl, rfl, rfl⟩⟩, (hk t c e).2.1, trivial⟩

theorem Alone.frame {C : Cfg} {R W : Nat → Prop} {g g' : Shared} {q : Option Cmd} {l : Option Local} (h : Alone C R W cont cap g q l)
    (hs : ∀ j, R j → g'.cont j = g.cont j ∧ g'.cap j = g.cap j ∧ g'.egen j = g.egen j ∧ g'.lgen j = g.lgen j) :
    Alone C R W cont cap g' q l := by
  rcases q with _ | c
  · exact h
  · rcases l with _ | l
    · obtain ⟨n, b, s, h1, h2⟩ := h
      exact ⟨n, b, s, h1, fun j hj => by rw [(hs j hj).1, h2 j hj]⟩
    · obtain ⟨n, s, h1, h2, h3⟩ := h
      refine ⟨n, s, h1, ⟨h2.calls, h2.cmd, h2.loops, fun j hj => ?_⟩, h3⟩
      obtain ⟨a, b, c, d⟩ := hs j hj
      obtain ⟨a', b', c', d'⟩ := h2.same j hj
      exact ⟨a.trans a', b.trans b', c.trans c', d.trans d'⟩

theorem runN_step {C : Cfg} {n : Nat} {s t : State} (h : runN C n s = .next t) : runN C (n + 1) s = step C t := by
  rw [runN_add C n 1 h]
  simp only [runN]
  cases step C t <;> rfl

theorem inv_move (hk : ∀ t c, p t = some c → Keeps (C t) (R t) (W t) c) (ha : Apart R W) {w : World} (hi : Inv C R W cont cap p w) (t : Nat) :
    match move C t w with
    | .to w' => Inv C R W cont cap p w'
    | .idle => True
    | .ub => ∃ c n, p t = some c ∧ runN (C t) n (start cont cap c) = .ub := by
  simp only [move]
  have ht := hi.threads t
  rcases e : w.th t with _ | l
  · trivial
  · rw [e] at ht
    rcases ep : p t with _ | c
    · rw [ep] at ht; cases ht
    · rw [ep] at ht
      obtain ⟨n, s, h1, h2, h3⟩ := ht
      obtain ⟨k1, k2, k3⟩ := hk t c ep
      have hst := step_agree k1 k3 h3 h2
      have hr := runN_step h1
      dsimp only
      revert hst
      rcases es : step (C t) (join w.sh l) with u | ⟨b, u⟩ | _
      · rintro ⟨u', e1, e2, e3, e4⟩
        refine ⟨fun v => ?_, fun j hj => ?_⟩
        · by_cases hv : v = t
          · subst hv
            simp only [upd_same, ep]
            exact ⟨n + 1, u', by rw [hr, e1], e2, e3⟩
          · simp only [upd_other _ _ hv]
            exact (hi.threads v).frame fun j hj => e4 j (fun hwj => ha t v j (fun e => hv e.symm) hwj hj)
        · exact (e4 j (hj t c ep)).1.trans (hi.rest j hj)
      · rintro ⟨rfl, e1⟩
        refine ⟨fun v => ?_, fun j hj => hi.rest j hj⟩
        by_cases hv : v = t
        · subst hv
          simp only [upd_same, ep]
          exact ⟨n + 1, b, s, by rw [hr, e1], fun j hj => (h2.same j hj).1⟩
        · simp only [upd_other _ _ hv]
          exact (hi.threads v).frame fun j hj => ⟨rfl, rfl, rfl, rfl⟩
      · intro e1
        exact ⟨c, n + 1, rfl, by rw [hr, e1]⟩

theorem inv_sched (hk : ∀ t c, p t = some c → Keeps (C t) (R t) (W t) c) (ha : Apart R W) (ts : List Nat) {w : World}
    (hi : Inv C R W cont cap p w) :
    match sched C ts w with
    | some w' => Inv C R W cont cap p w'
    | none => ∃ t c n, p t = some c ∧ runN (C t) n (start cont cap c) = .ub := by
  induction ts generalizing w with
  | nil => exact hi
  | cons t ts ih =>
    have hm := inv_move hk ha hi t
    simp only [sched]
    revert hm
    rcases move C t w with w' | _ | _
    · exact fun h => ih h
    · rintro ⟨c, n, h1, h2⟩; exact ⟨t, c, n, h1, h2⟩
    · exact fun _ => ih hi

theorem runN_le_ub {C : Cfg} {n m : Nat} {s : State} (h : n ≤ m) {b : Bool} {t : State} (hf : runN C n s = .fin b t) : runN C m s = .fin b t := by
  induction n generalizing s m with
  | zero => cases hf
  | succ n ih =>
    cases m with
    | zero => omega
    | succ m =>
      simp only [runN] at hf ⊢
      revert hf
      rcases step C s with u | ⟨c, u⟩ | _
      · exact fun hf => ih (by omega) hf
      · exact id
      · exact id

theorem fin_unique {C : Cfg} {n m : Nat} {s t t' : State} {b b' : Bool} (h : runN C n s = .fin b t) (h' : runN C m s = .fin b' t') :
    b = b' ∧ t = t' := by
  rcases Nat.le_total n m with hl | hl
  · have := runN_le_ub hl h; rw [h'] at this; cases this; exact ⟨rfl, rfl⟩
  · have := runN_le_ub hl h'; rw [h] at this; cases this; exact ⟨rfl, rfl⟩

/-! ### `access` is all a step uses. -/

theorem begin_peeked {C : Cfg} (v k) (ls : List Loop) {s s' : State} (js : List Nat) (hc : s.calls = s'.calls)
    (h : ∀ j ∈ peeked s js, SameC s s' j) :
    (begin C v k ls s js).local = (begin C v k ls s' js).local := by
  induction js with
  | nil => simp only [begin, State.local, hc]
  | cons j js ih =>
    simp only [peeked] at h
    by_cases e : (s.cont j).isEmpty = true
    · simp only [e, if_true] at h
      have h1 := h j (List.mem_cons_self ..)
      simp only [begin, ← h1.1, e, if_true]
      exact ih fun i hi => h i (List.mem_cons_of_mem _ hi)
    · simp only [e] at h
      have h1 := h j (by simp)
      simp only [begin, ← h1.1, ← h1.2.2.1, ← h1.2.2.2, e, ← hc]
      rfl

theorem step_frame {C : Cfg} {s t : State} (h : step C s = .next t) {j : Nat} (hj : (j, true) ∉ access s) : SameC t s j := by
  obtain ⟨cont, cap, egen, lgen, calls, cmd, loops⟩ := s
  cases cmd with
  | ret =>
    cases loops with
    | nil => simp [step] at h
    | cons l ls =>
      simp only [step, advance] at h
      generalize (if C.node l.i then (cont l.i).length else l.last) = w at h
      split at h
      · cases h
      · split at h
        · cases h; exact begin_same ..
        · cases h; exact ⟨rfl, rfl, rfl, rfl⟩
  | raise =>
    cases loops with
    | nil => simp [step] at h
    | cons l ls => simp only [step] at h; cases h; exact ⟨rfl, rfl, rfl, rfl⟩
  | insert i x k =>
    have hne : j ≠ i := by simpa [access] using hj
    simp only [step] at h; cases h
    simp only [pushBack]; split
    · exact ⟨upd_other _ _ hne, rfl, rfl, rfl⟩
    · split
      · exact ⟨upd_other _ _ hne, rfl, rfl, upd_other _ _ hne⟩
      · exact ⟨upd_other _ _ hne, upd_other _ _ hne, upd_other _ _ hne, upd_other _ _ hne⟩
  | clear i k =>
    have hne : j ≠ i := by simpa [access] using hj
    simp only [step] at h; cases h
    refine ⟨upd_other _ _ hne, rfl, upd_other _ _ hne, ?_⟩
    simp only; split
    · rfl
    · exact upd_other _ _ hne
  | reserve i n k =>
    have hne : j ≠ i := by simpa [access] using hj
    simp only [step] at h
    split at h
    · cases h; exact ⟨rfl, rfl, rfl, rfl⟩
    · cases h; exact ⟨rfl, upd_other _ _ hne, upd_other _ _ hne, upd_other _ _ hne⟩
  | count i k => simp only [step] at h; cases h; exact ⟨rfl, rfl, rfl, rfl⟩
  | get k =>
    cases loops with
    | nil => simp [step] at h
    | cons l ls =>
      simp only [step] at h
      split at h
      · cases h
      · split at h
        · cases h; exact ⟨rfl, rfl, rfl, rfl⟩
        · cases h
  | set x k =>
    cases loops with
    | nil => simp [step] at h
    | cons l ls =>
      have hne : j ≠ l.i := by simpa [access] using hj
      simp only [step] at h
      split at h
      · cases h
      · split at h
        · cases h; exact ⟨upd_other _ _ hne, rfl, rfl, rfl⟩
        · cases h
  | visit v js k => simp only [step] at h; cases h; exact begin_same ..

/-- A step in another state of the other containers: the same thing happens to the thread and to the containers used. -/
theorem step_access {C : Cfg} {s s' : State} (hl : s.local = s'.local) (h : ∀ j x, (j, x) ∈ access s → SameC s s' j) :
    match step C s with
    | .next t => ∃ t', step C s' = .next t' ∧ t.local = t'.local ∧ ∀ j, (j, true) ∈ access s → SameC t t' j
    | .fin b t => t = s ∧ step C s' = .fin b s'
    | .ub => step C s' = .ub := by
  obtain ⟨cont, cap, egen, lgen, calls, cmd, loops⟩ := s
  obtain ⟨cont', cap', egen', lgen', calls', cmd', loops'⟩ := s'
  simp only [State.local, Local.mk.injEq] at hl
  obtain ⟨rfl, rfl, rfl⟩ := hl
  cases cmd with
  | ret =>
    cases loops with
    | nil => exact ⟨rfl, rfl⟩
    | cons l ls =>
      obtain ⟨e1, e2, e3, e4⟩ := h l.i false (by simp [access])
      simp only at e1 e2 e3 e4
      simp only [step, advance, ← e1, ← e3, ← e4]
      by_cases c1 : egen l.i ≠ l.egen ∨ lgen l.i ≠ l.lgen
      · rw [if_pos c1, if_pos c1]
      · rw [if_neg c1, if_neg c1]
        by_cases c2 : l.pos + 1 = (if C.node l.i then (cont l.i).length else l.last)
        · rw [if_pos c2, if_pos c2]
          refine ⟨_, rfl, begin_peeked _ _ _ _ rfl fun j hj => h j false ?_, fun j hj => ?_⟩
          · simp only [access, List.mem_cons, List.mem_map]; exact .inr ⟨j, hj, rfl⟩
          · simp [access] at hj
        · rw [if_neg c2, if_neg c2]
          exact ⟨_, rfl, rfl, fun j hj => by simp [access] at hj⟩
  | raise =>
    cases loops with
    | nil => exact ⟨rfl, rfl⟩
    | cons l ls => exact ⟨_, rfl, rfl, fun j hj => by simp [access] at hj⟩
  | insert i x k =>
    obtain ⟨e1, e2, e3, e4⟩ := h i true (by simp [access])
    simp only at e1 e2 e3 e4
    simp only [step]
    refine ⟨_, rfl, ?_, fun j hj => ?_⟩
    · simp only [State.local, (pushBack_facts C i x k _).1, (pushBack_facts C i x k _).2.2.1, (pushBack_facts C i x k _).2.2.2.1]
    · have hj : j = i := by simpa [access] using hj
      subst hj
      simp only [pushBack, upd_same, ← e1, ← e2, ← e3, ← e4]
      split
      · exact ⟨by simp [upd], e2, e3, e4⟩
      · split
        · exact ⟨by simp [upd], e2, e3, by simp [upd]⟩
        · exact ⟨by simp [upd], by simp [upd], by simp [upd], by simp [upd]⟩
  | clear i k =>
    obtain ⟨e1, e2, e3, e4⟩ := h i true (by simp [access])
    simp only at e1 e2 e3 e4
    simp only [step]
    refine ⟨_, rfl, rfl, fun j hj => ?_⟩
    have hj : j = i := by simpa [access] using hj
    subst hj
    refine ⟨by simp [upd], e2, by simp [upd, e3], ?_⟩
    simp only; split
    · exact e4
    · simp [upd, e4]
  | reserve i n k =>
    obtain ⟨e1, e2, e3, e4⟩ := h i true (by simp [access])
    simp only at e1 e2 e3 e4
    simp only [step, ← e2]
    by_cases c : C.node i = true ∨ n ≤ cap i
    · simp only [c, if_true]
      refine ⟨_, rfl, rfl, fun j hj => ?_⟩
      have hj : j = i := by simpa [access] using hj
      subst hj
      exact ⟨e1, e2, e3, e4⟩
    · simp only [c, if_false]
      refine ⟨_, rfl, rfl, fun j hj => ?_⟩
      have hj : j = i := by simpa [access] using hj
      subst hj
      exact ⟨e1, by simp [upd], by simp [upd, e3], by simp [upd, e4]⟩
  | count i k =>
    have e1 : cont i = cont' i := (h i false (by simp [access])).1
    simp only [step, ← e1]
    exact ⟨_, rfl, rfl, fun j hj => by simp [access] at hj⟩
  | get k =>
    cases loops with
    | nil => rfl
    | cons l ls =>
      obtain ⟨e1, e2, e3, e4⟩ := h l.i false (by simp [access])
      simp only at e1 e2 e3 e4
      simp only [step, ← e1, ← e3]
      by_cases c : egen l.i ≠ l.egen
      · rw [if_pos c, if_pos c]
      · rw [if_neg c, if_neg c]
        rcases (cont l.i)[l.pos]? with _ | x
        · rfl
        · exact ⟨_, rfl, rfl, fun j hj => by simp [access] at hj⟩
  | set x k =>
    cases loops with
    | nil => rfl
    | cons l ls =>
      obtain ⟨e1, e2, e3, e4⟩ := h l.i true (by simp [access])
      simp only at e1 e2 e3 e4
      simp only [step, ← e1, ← e3]
      by_cases c : egen l.i ≠ l.egen
      · rw [if_pos c, if_pos c]
      · rw [if_neg c, if_neg c]
        by_cases c2 : l.pos < (cont l.i).length
        · rw [if_pos c2, if_pos c2]
          refine ⟨_, rfl, rfl, fun j hj => ?_⟩
          have hj : j = l.i := by simpa [access] using hj
          subst hj
          exact ⟨by simp [upd], e2, e3, e4⟩
        · rw [if_neg c2, if_neg c2]
  | visit v js k =>
    simp only [step]
    refine ⟨_, rfl, begin_peeked _ _ _ _ rfl fun j hj => h j false ?_, fun j hj => by simp [access] at hj⟩
    simp only [access, List.mem_map]; exact ⟨j, hj, rfl⟩

end AnyAny.SwarmRe
