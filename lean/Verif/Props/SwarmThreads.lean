import Verif.Lemmas.SwarmThreads
import Verif.Props.SwarmReentry
/-
C121: threads that use different types of one swarm. Specification: Spec/SwarmThreads.lean.
-/
namespace AnyAny.SwarmRe

variable {C : Nat → Cfg} {R W : Nat → Nat → Prop} {cont : Nat → List Nat} {cap : Nat → Nat} {p : Nat → Option Cmd}

/-- What the containers of `access` are is all that a step uses: with other values in the other containers the same happens, and nothing
else changes. -/
theorem C121_access {D : Cfg} {s s' : State} (hl : s.local = s'.local) (h : ∀ j x, (j, x) ∈ access s → SameC s s' j) :
    (step D s = .ub ↔ step D s' = .ub) ∧
    (∀ t, step D s = .next t → (∀ j, (j, true) ∉ access s → SameC t s j) ∧
      ∃ t', step D s' = .next t' ∧ t.local = t'.local ∧ ∀ j, (j, true) ∈ access s → SameC t t' j) := by
  have hs := step_access (C := D) hl h
  revert hs
  rcases e : step D s with t | ⟨b, t⟩ | _
  · rintro ⟨t', e', h1, h2⟩
    refine ⟨by simp [e'], fun u hu => ?_⟩
    cases hu
    exact ⟨fun j hj => step_frame e hj, t', e', h1, h2⟩
  · rintro ⟨_, e'⟩
    exact ⟨by simp [e'], by simp⟩
  · intro e'
    exact ⟨by simp [e'], by simp⟩

/-- No data race: threads without locks, in any order of their steps, if no thread uses a type that another one changes. Inserting, clearing, reserving,
counting, reading, writing and visiting for different types may go on at the same time, and so may everything that only reads. -/
theorem C121_no_race (hk : ∀ t c, p t = some c → Keeps (C t) (R t) (W t) c) (ha : Apart R W) (ts : List Nat) {w : World}
    (h : sched C ts (launch cont cap p) = some w) : ¬ Race w := by
  have hi := inv_sched hk ha ts (inv_launch (cont := cont) (cap := cap) hk)
  rw [h] at hi
  rintro ⟨t, u, a, b, j, x, y, hne, h1, h2, h3, h4, hw⟩
  have ht := hi.threads t
  have hu := hi.threads u
  rw [h1] at ht; rw [h2] at hu
  rcases ep : p t with _ | c
  · rw [ep] at ht; cases ht
  rcases eq : p u with _ | d
  · rw [eq] at hu; cases hu
  rw [ep] at ht; rw [eq] at hu
  obtain ⟨_, _, _, _, g1⟩ := ht
  obtain ⟨_, _, _, _, g2⟩ := hu
  have k1 := access_ok (hk t c ep).1 g1 h3
  have k2 := access_ok (hk u d eq).1 g2 h4
  rcases hw with rfl | rfl
  · exact ha t u j hne (k1.2 rfl) k2.1
  · exact ha u t j (fun e => hne e.symm) (k2.2 rfl) k1.1

/-- If no thread has undefined behaviour when it is alone, none has together with the others. -/
theorem C121_safe (hk : ∀ t c, p t = some c → Keeps (C t) (R t) (W t) c) (ha : Apart R W)
    (hs : ∀ t c n, p t = some c → runN (C t) n (start cont cap c) ≠ .ub) (ts : List Nat) :
    (sched C ts (launch cont cap p)).isSome := by
  have hi := inv_sched hk ha ts (inv_launch (cont := cont) (cap := cap) hk)
  revert hi
  rcases sched C ts (launch cont cap p) with _ | w
  · rintro ⟨t, c, n, h1, h2⟩; exact absurd h2 (hs t c n h1)
  · exact fun _ => rfl

/-- Each thread does what it does alone: a running thread has made the calls, and has the program and the values of its types, that it has alone
after some steps. -/
theorem C121_running (hk : ∀ t c, p t = some c → Keeps (C t) (R t) (W t) c) (ha : Apart R W) (ts : List Nat) {w : World}
    (h : sched C ts (launch cont cap p) = some w) {t : Nat} {c : Cmd} {l : Local} (hp : p t = some c) (hl : w.th t = some l) :
    ∃ n s, runN (C t) n (start cont cap c) = .next s ∧ s.local = l ∧ ∀ j, R t j → w.sh.cont j = s.cont j := by
  have hi := inv_sched hk ha ts (inv_launch (cont := cont) (cap := cap) hk)
  rw [h] at hi
  have ht := hi.threads t
  rw [hp, hl] at ht
  obtain ⟨n, s, h1, h2, _⟩ := ht
  refine ⟨n, s, h1, ?_, fun j hj => (h2.same j hj).1⟩
  have a := h2.calls; have b := h2.cmd; have d := h2.loops
  simp only [join] at a b d
  simp only [State.local, ← a, ← b, ← d]

/-- … and a thread that has ended leaves its types as it does alone. -/
theorem C121_ended (hk : ∀ t c, p t = some c → Keeps (C t) (R t) (W t) c) (ha : Apart R W) (ts : List Nat) {w : World}
    (h : sched C ts (launch cont cap p) = some w) {t : Nat} {c : Cmd} (hp : p t = some c) (hl : w.th t = none) :
    ∃ n b s, runN (C t) n (start cont cap c) = .fin b s ∧ ∀ j, R t j → w.sh.cont j = s.cont j := by
  have hi := inv_sched hk ha ts (inv_launch (cont := cont) (cap := cap) hk)
  rw [h] at hi
  have ht := hi.threads t
  rw [hp, hl] at ht
  exact ht

/-- So the order of the steps does not matter: when all threads have ended, all containers are the same for every order. -/
theorem C121_deterministic (hk : ∀ t c, p t = some c → Keeps (C t) (R t) (W t) c) (ha : Apart R W) (ts ts' : List Nat) {w w' : World}
    (h : sched C ts (launch cont cap p) = some w) (h' : sched C ts' (launch cont cap p) = some w')
    (he : ∀ t, w.th t = none) (he' : ∀ t, w'.th t = none) : w.sh.cont = w'.sh.cont := by
  funext j
  by_cases hj : ∃ t c, p t = some c ∧ W t j
  · obtain ⟨t, c, hp, hw⟩ := hj
    obtain ⟨n, b, s, e, g⟩ := C121_ended hk ha ts h hp (he t)
    obtain ⟨n', b', s', e', g'⟩ := C121_ended hk ha ts' h' hp (he' t)
    obtain ⟨-, rfl⟩ := fin_unique e e'
    rw [g j ((hk t c hp).1 j hw), g' j ((hk t c hp).1 j hw)]
  · have hn : ∀ t c, p t = some c → ¬ W t j := fun t c hp hw => hj ⟨t, c, hp, hw⟩
    have hi := inv_sched hk ha ts (inv_launch (cont := cont) (cap := cap) hk)
    have hi' := inv_sched hk ha ts' (inv_launch (cont := cont) (cap := cap) hk)
    rw [h] at hi; rw [h'] at hi'
    rw [hi.rest j hn, hi'.rest j hn]

/-- The condition is needed: a visit of a type and an insertion for it, by two threads, whatever the containers have. -/
theorem C121_same_type_fails (t u i x v : Nat) (js : List Nat) (k : Bool → Cmd) (k' : Cmd) (hne : t ≠ u) (hi : cont i ≠ [])
    (hp : p t = some (.visit v (i :: js) k)) (hq : p u = some (.insert i x k')) : Race (launch cont cap p) := by
  refine ⟨t, u, ⟨[], .visit v (i :: js) k, []⟩, ⟨[], .insert i x k', []⟩, i, false, true, hne, ?_, ?_, ?_, ?_, .inr rfl⟩
  · simp [launch, hp]
  · simp [launch, hq]
  · simp [access, join, peeked, launch, hi]
  · simp [access, join]

/-- Two threads insert values of one type. -/
theorem C121_insert_fails (t u i x y : Nat) (k k' : Cmd) (hne : t ≠ u)
    (hp : p t = some (.insert i x k)) (hq : p u = some (.insert i y k')) : Race (launch cont cap p) := by
  refine ⟨t, u, ⟨[], .insert i x k, []⟩, ⟨[], .insert i y k', []⟩, i, true, true, hne, ?_, ?_, ?_, ?_, .inr rfl⟩
  · simp [launch, hp]
  · simp [launch, hq]
  · simp [access, join]
  · simp [access, join]

/-! ### Example -/

/-- Thread 0 visits the types 0 and 1, doubles the values of type 0 and spawns values of type 1; thread 1 inserts values of type 2; both count
the values of type 3. -/
def exThreads : Nat → Option Cmd := fun t =>
  if t = 0 then some (.count 3 fun _ => .visit 0 [0, 1] fun _ => .ret)
  else if t = 1 then some (.count 3 fun n => .insert 2 n (.insert 2 1 .ret)) else none

def exBody (t : Nat) : Cfg where
  node := fun _ => false
  body := fun _ i => if t = 0 ∧ i < 2 then spawner (fun i x => if i = 0 then (2 * x, [(1, x)]) else (x + 1, [])) i else .ret
  grow := fun n => 2 * n

def exR : Nat → Nat → Prop := fun t j => if t = 0 then j < 2 ∨ j = 3 else j = 2 ∨ j = 3
def exW : Nat → Nat → Prop := fun t j => if t = 0 then j < 2 else j = 2

theorem exKeeps : ∀ t c, exThreads t = some c → Keeps (exBody t) (exR t) (exW t) c := by
  intro t c h
  by_cases h0 : t = 0
  · subst h0
    simp only [exThreads, if_true, Option.some.injEq] at h
    subst h
    refine ⟨fun j => ?_, ⟨by simp [exR], fun _ => ⟨by simp [exR], fun _ => trivial⟩⟩, fun v i hi => ?_⟩
    · simp only [exW, exR, if_true]; exact .inl
    · by_cases hlt : i < 2
      · simp only [exBody, hlt, and_self, if_true]
        refine fun n => ⟨fun j e => by cases e; simpa [exW] using hlt, ?_⟩
        by_cases hi0 : i = 0
        · simp only [hi0, if_true, inserts]; exact ⟨by simp [exW], trivial⟩
        · simp only [hi0, if_false, inserts]; trivial
      · simp only [exBody, hlt, and_false, if_false]; trivial
  · simp only [exThreads, h0, if_false] at h
    by_cases h1 : t = 1
    · subst h1
      simp only [if_true, Option.some.injEq] at h
      subst h
      refine ⟨fun j => ?_, ⟨by simp [exR], fun _ => ⟨by simp [exW], by simp [exW], trivial⟩⟩, fun v i hi => ?_⟩
      · simp only [exW, exR, h0, if_false]; exact .inl
      · simp only [exBody, h0, false_and, if_false]; trivial
    · simp [h1] at h

theorem exApart : Apart (fun t => if t ≤ 1 then exR t else fun _ => False) (fun t => if t ≤ 1 then exW t else fun _ => False) := by
  intro t u j hne
  by_cases ht : t = 0
  · subst ht
    by_cases hu : u = 1
    · subst hu
      show exW 0 j → ¬ exR 1 j
      simp [exR, exW]; omega
    · have : ¬ u ≤ 1 := by omega
      simp [this]
  · by_cases ht1 : t = 1
    · subst ht1
      by_cases hu : u = 0
      · subst hu
        show exW 1 j → ¬ exR 0 j
        simp [exR, exW]; omega
      · have : ¬ u ≤ 1 := by omega
        simp [this]
    · have : ¬ t ≤ 1 := by omega
      simp [this]

/-- The hypotheses hold for them. -/
example (ts : List Nat) (w : World) (h : sched exBody ts (launch exCont (fun _ => 2) exThreads) = some w) : ¬ Race w := by
  refine C121_no_race (R := fun t => if t ≤ 1 then exR t else fun _ => False) (W := fun t => if t ≤ 1 then exW t else fun _ => False)
    (fun t c hp => ?_) exApart ts h
  have ht : t ≤ 1 := by
    by_cases h0 : t = 0
    · omega
    · by_cases h1 : t = 1
      · omega
      · simp [exThreads, h0, h1] at hp
  simp only [ht, if_true]
  exact exKeeps t c hp

/-- Two orders of the steps, the same result. -/
example : (sched exBody (List.replicate 30 0 ++ List.replicate 9 1) (launch exCont (fun _ => 2) exThreads)).map
    (fun w => (w.sh.cont 0, w.sh.cont 1, w.sh.cont 2, (w.th 0).isSome, (w.th 1).isSome)) = some ([10, 12], [8, 6, 7], [0, 1], false, false) := by
  decide +kernel
example : (sched exBody ((List.replicate 30 [0, 1]).flatten) (launch exCont (fun _ => 2) exThreads)).map
    (fun w => (w.sh.cont 0, w.sh.cont 1, w.sh.cont 2, (w.th 0).isSome, (w.th 1).isSome)) = some ([10, 12], [8, 6, 7], [0, 1], false, false) := by
  decide +kernel

end AnyAny.SwarmRe
