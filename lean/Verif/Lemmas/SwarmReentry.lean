import Verif.Spec.SwarmReentry
/-! Lemmas about visitors that use the swarm they visit. -/
namespace AnyAny.SwarmRe

variable (C : Cfg)

/-- The iterators of a running loop are valid. -/
structure LoopOk (s : State) (l : Loop) : Prop where
  egen : s.egen l.i = l.egen
  lgen : s.lgen l.i = l.lgen
  pos : l.pos < (s.cont l.i).length
  last : C.node l.i = false → l.last = (s.cont l.i).length

def Good (s : State) : Prop := ∀ l ∈ s.loops, LoopOk C s l

def mk (l : Loop) : At := ⟨l.v, l.i, l.pos, l.rest, l.k⟩

theorem ideal_def (s : State) : s.ideal = ⟨s.cont, s.calls, s.cmd, s.loops.map mk⟩ := rfl

theorem begin_ideal (v : Nat) (k : Bool → Cmd) (loops : List Loop) (s : State) (js : List Nat) :
    (begin C v k loops s js).ideal = s.ideal.enter C.body v k (loops.map mk) js := by
  induction js with
  | nil => rfl
  | cons j js ih =>
    simp only [begin, Ideal.enter]
    by_cases e : s.cont j = []
    · simp [e, ideal_def] at ih ⊢; exact ih
    · simp [e, ideal_def, mk]

theorem begin_good (v : Nat) (k : Bool → Cmd) (loops : List Loop) (s : State) (js : List Nat)
    (h : ∀ l ∈ loops, LoopOk C s l) : Good C (begin C v k loops s js) := by
  induction js with
  | nil => exact fun l hl => ⟨(h l hl).1, (h l hl).2, (h l hl).3, (h l hl).4⟩
  | cons j js ih =>
    simp only [begin]
    by_cases e : s.cont j = []
    · simpa [e] using ih
    · simp only [List.isEmpty_iff, e, if_false]
      intro l hl
      rcases List.mem_cons.1 hl with rfl | hl
      · exact ⟨rfl, rfl, by simpa [List.length_pos_iff] using e, fun _ => rfl⟩
      · exact ⟨(h l hl).1, (h l hl).2, (h l hl).3, (h l hl).4⟩

theorem visiting_iff (s : State) (j : Nat) : s.ideal.Visiting j ↔ ∃ l ∈ s.loops, l.i = j := by
  constructor
  · rintro ⟨_, hm, rfl⟩
    obtain ⟨l, hl, rfl⟩ := List.mem_map.1 hm
    exact ⟨l, hl, rfl⟩
  · rintro ⟨l, hl, rfl⟩
    exact ⟨mk l, List.mem_map.2 ⟨l, hl, rfl⟩, rfl⟩

theorem upd_same {α : Type} (f : Nat → α) (k : Nat) (x : α) : upd f k x k = x := by simp [upd]
theorem upd_other {α : Type} (f : Nat → α) {k i : Nat} (x : α) (h : i ≠ k) : upd f k x i = f i := by simp [upd, h]

theorem pushBack_ideal (j x : Nat) (k : Cmd) (s : State) :
    (pushBack C j x k s).ideal = { s.ideal with cmd := k, cont := upd s.cont j (s.cont j ++ [x]) } := by
  simp only [pushBack]; split
  · rfl
  · split <;> rfl

theorem step_good (s : State) (hg : Good C s) (ho : s.ideal.Ok C.node) :
    match step C s with
    | .next s' => Good C s' ∧ s.ideal.step C.body = .next s'.ideal
    | .fin b s' => s' = s ∧ s.ideal.step C.body = .fin b s'.ideal
    | .ub => False := by
  obtain ⟨cont, cap, egen, lgen, calls, cmd, loops⟩ := s
  cases cmd with
  | ret =>
    cases loops with
    | nil => exact ⟨rfl, rfl⟩
    | cons l ls =>
      have hl := hg l (List.mem_cons_self ..)
      have hls : ∀ m ∈ ls, LoopOk C ⟨cont, cap, egen, lgen, calls, .ret, l :: ls⟩ m := fun m hm => hg m (List.mem_cons_of_mem _ hm)
      have hlast : (if C.node l.i then (cont l.i).length else l.last) = (cont l.i).length := by
        cases e : C.node l.i
        · simpa using hl.last e
        · rfl
      have e1 : ¬ (egen l.i ≠ l.egen ∨ lgen l.i ≠ l.lgen) := by
        have := hl.egen; have := hl.lgen; simp_all
      have hp := hl.pos
      simp only at hp
      simp only [step, advance, e1, if_false, hlast]
      by_cases e2 : l.pos + 1 = (cont l.i).length
      · simp only [e2, if_true]
        refine ⟨begin_good C _ _ _ _ _ hls, ?_⟩
        have : ¬ (l.pos + 1 < (cont l.i).length) := by omega
        rw [begin_ideal]
        simp only [Ideal.step, ideal_def, List.map_cons, mk, this, if_false]
      · simp only [e2, if_false]
        have h3 : l.pos + 1 < (cont l.i).length := by omega
        constructor
        · intro m hm
          rcases List.mem_cons.1 hm with rfl | hm
          · exact ⟨hl.egen, hl.lgen, h3, hl.last⟩
          · exact ⟨(hls m hm).1, (hls m hm).2, (hls m hm).3, (hls m hm).4⟩
        · simp only [Ideal.step, ideal_def, List.map_cons, mk, h3, if_true]
  | raise =>
    cases loops with
    | nil => exact ⟨rfl, rfl⟩
    | cons l ls =>
      exact ⟨fun m hm => ⟨(hg m (List.mem_cons_of_mem _ hm)).1, (hg m (List.mem_cons_of_mem _ hm)).2,
        (hg m (List.mem_cons_of_mem _ hm)).3, (hg m (List.mem_cons_of_mem _ hm)).4⟩, rfl⟩
  | insert j x k =>
    simp only [step]
    refine ⟨?_, by rw [pushBack_ideal]; rfl⟩
    cases e : C.node j
    · have ho' : ∀ m ∈ loops, m.i ≠ j := by
        intro m hm em
        rcases ho with h | h
        · simp [e] at h
        · exact h ((visiting_iff _ _).2 ⟨m, hm, em⟩)
      intro m hm
      have hm' : m ∈ loops := by
        simp only [pushBack, e] at hm; revert hm; simp only [Bool.false_eq_true, if_false]; split <;> exact id
      have hne := ho' m hm'
      have h := hg m hm'
      simp only [pushBack, e, Bool.false_eq_true, if_false]
      split
      · exact ⟨h.1, by simpa [upd_other _ _ hne] using h.2, by simpa [upd_other _ _ hne] using h.3, by simpa [upd_other _ _ hne] using h.4⟩
      · exact ⟨by simpa [upd_other _ _ hne] using h.1, by simpa [upd_other _ _ hne] using h.2,
          by simpa [upd_other _ _ hne] using h.3, by simpa [upd_other _ _ hne] using h.4⟩
    · simp only [pushBack, e, if_true]
      intro m hm
      have h := hg m hm
      by_cases hj : m.i = j
      · refine ⟨h.1, h.2, ?_, fun hn => by simp [hj, e] at hn⟩
        have := h.3; simp only [hj, upd_same, List.length_append] at this ⊢; omega
      · exact ⟨h.1, h.2, by simpa [upd_other _ _ hj] using h.3, by simpa [upd_other _ _ hj] using h.4⟩
  | clear j k =>
    simp only [step]
    refine ⟨fun m hm => ?_, rfl⟩
    have hne : m.i ≠ j := fun em => ho ((visiting_iff _ _).2 ⟨m, hm, em⟩)
    have h := hg m hm
    refine ⟨by simpa [upd_other _ _ hne] using h.1, ?_, by simpa [upd_other _ _ hne] using h.3, by simpa [upd_other _ _ hne] using h.4⟩
    have := h.2
    simp only; split
    · exact this
    · simpa [upd_other _ _ hne] using this
  | reserve j n k =>
    simp only [step]
    by_cases e : C.node j = true ∨ n ≤ cap j
    · simp only [e, if_true]
      exact ⟨fun m hm => ⟨(hg m hm).1, (hg m hm).2, (hg m hm).3, (hg m hm).4⟩, rfl⟩
    · simp only [e, if_false]
      refine ⟨fun m hm => ?_, rfl⟩
      have hne : m.i ≠ j := by
        intro em
        rcases ho with h | h
        · exact e (.inl h)
        · exact h ((visiting_iff _ _).2 ⟨m, hm, em⟩)
      have h := hg m hm
      exact ⟨by simpa [upd_other _ _ hne] using h.1, by simpa [upd_other _ _ hne] using h.2, h.3, h.4⟩
  | count j k => exact ⟨fun m hm => ⟨(hg m hm).1, (hg m hm).2, (hg m hm).3, (hg m hm).4⟩, rfl⟩
  | get k =>
    cases loops with
    | nil => exact ho rfl
    | cons l ls =>
      have hl := hg l (List.mem_cons_self ..)
      have e1 : ¬ (egen l.i ≠ l.egen) := by simpa using hl.egen
      have hp : l.pos < (cont l.i).length := hl.pos
      simp only [step, e1, if_false, List.getElem?_eq_getElem hp]
      refine ⟨fun m hm => ⟨(hg m hm).1, (hg m hm).2, (hg m hm).3, (hg m hm).4⟩, ?_⟩
      simp only [Ideal.step, ideal_def, List.map_cons, mk, List.getElem?_eq_getElem hp]
  | set x k =>
    cases loops with
    | nil => exact ho rfl
    | cons l ls =>
      have hl := hg l (List.mem_cons_self ..)
      have e1 : ¬ (egen l.i ≠ l.egen) := by simpa using hl.egen
      have hp : l.pos < (cont l.i).length := hl.pos
      simp only [step, e1, if_false, hp, if_true]
      refine ⟨fun m hm => ?_, ?_⟩
      · have h := hg m hm
        by_cases hj : m.i = l.i
        · exact ⟨h.1, h.2, by have := h.3; simp only [hj, upd_same, List.length_set] at this ⊢; exact this,
            by have := h.4; simp only [hj, upd_same, List.length_set] at this ⊢; exact this⟩
        · exact ⟨h.1, h.2, by simpa [upd_other _ _ hj] using h.3, by simpa [upd_other _ _ hj] using h.4⟩
      · simp only [Ideal.step, ideal_def, List.map_cons, mk, hp, if_true]
  | visit v js k =>
    simp only [step]
    exact ⟨begin_good C _ _ _ _ _ (fun m hm => ⟨(hg m hm).1, (hg m hm).2, (hg m hm).3, (hg m hm).4⟩), by rw [begin_ideal]; rfl⟩

theorem runN_good (n : Nat) (s : State) (hg : Good C s) (hc : s.ideal.Careful C.body C.node) :
    match runN C n s with
    | .next s' => Good C s' ∧ s.ideal.runN C.body n = .next s'.ideal
    | .fin b s' => s.ideal.runN C.body n = .fin b s'.ideal
    | .ub => False := by
  induction n generalizing s with
  | zero => exact ⟨hg, rfl⟩
  | succ n ih =>
    have h := step_good C s hg (hc 0 _ rfl)
    simp only [runN]
    revert h
    cases step C s with
    | next s' =>
      intro h
      have h2 := ih s' h.1 (fun m t ht => hc (m + 1) t (by simp only [Ideal.runN, h.2]; exact ht))
      simp only [Ideal.runN, h.2]
      exact h2
    | fin b s' => intro h; simp only [Ideal.runN, h.2]
    | ub => exact id

/-! ### Code that visits some types and changes others. -/

def AtOk (node : Nat → Bool) (V M : Nat → Prop) : List At → Prop
  | [] => True
  | l :: ls => V l.i ∧ (∀ j ∈ l.rest, V j) ∧ (∀ b, (l.k b).Within node V M (!ls.isEmpty)) ∧ AtOk node V M ls

def IGood (node : Nat → Bool) (V M : Nat → Prop) (s : Ideal) : Prop :=
  s.cmd.Within node V M (!s.loops.isEmpty) ∧ AtOk node V M s.loops

theorem AtOk.mem {node V M} {ls : List At} (h : AtOk node V M ls) : ∀ l ∈ ls, V l.i := by
  induction ls with
  | nil => simp
  | cons a ls ih =>
    intro l hl
    rcases List.mem_cons.1 hl with rfl | hl
    · exact h.1
    · exact ih h.2.2.2 l hl

theorem enter_IGood {node V M} {body : Nat → Nat → Cmd} (hb : ∀ v i, V i → (body v i).Within node V M true)
    (v k) (loops : List At) (s : Ideal) (js : List Nat) (hj : ∀ j ∈ js, V j)
    (hk : ∀ b, (k b).Within node V M (!loops.isEmpty)) (hl : AtOk node V M loops) :
    IGood node V M (s.enter body v k loops js) := by
  induction js with
  | nil => exact ⟨hk _, hl⟩
  | cons j js ih =>
    simp only [Ideal.enter]
    by_cases e : s.cont j = []
    · simp only [e, if_true]
      exact ih (fun x hx => hj x (List.mem_cons_of_mem _ hx))
    · simp only [e, if_false]
      exact ⟨hb v j (hj j (List.mem_cons_self ..)), hj j (List.mem_cons_self ..), fun x hx => hj x (List.mem_cons_of_mem _ hx), hk, hl⟩

theorem IGood.step {node V M} {body : Nat → Nat → Cmd} (hb : ∀ v i, V i → (body v i).Within node V M true)
    {s s' : Ideal} (h : IGood node V M s) (hs : s.step body = .next s') : IGood node V M s' := by
  obtain ⟨cont, calls, cmd, loops⟩ := s
  obtain ⟨hw, hl⟩ := h
  cases cmd with
  | ret =>
    cases loops with
    | nil => simp [Ideal.step] at hs
    | cons l ls =>
      simp only [Ideal.step] at hs
      split at hs
      · cases hs; exact ⟨hb _ _ hl.1, hl⟩
      · cases hs; exact enter_IGood hb _ _ _ _ _ hl.2.1 hl.2.2.1 hl.2.2.2
  | raise =>
    cases loops with
    | nil => simp [Ideal.step] at hs
    | cons l ls => simp only [Ideal.step] at hs; cases hs; exact ⟨hl.2.2.1 true, hl.2.2.2⟩
  | insert j x k => simp only [Ideal.step] at hs; cases hs; exact ⟨hw.2, hl⟩
  | clear j k => simp only [Ideal.step] at hs; cases hs; exact ⟨hw.2, hl⟩
  | reserve j n k => simp only [Ideal.step] at hs; cases hs; exact ⟨hw.2, hl⟩
  | count j k => simp only [Ideal.step] at hs; cases hs; exact ⟨hw _, hl⟩
  | get k =>
    cases loops with
    | nil => simp [Ideal.step] at hs
    | cons l ls =>
      simp only [Ideal.step] at hs
      split at hs
      · cases hs; exact ⟨hw.2 _, hl⟩
      · cases hs
  | set x k =>
    cases loops with
    | nil => simp [Ideal.step] at hs
    | cons l ls =>
      simp only [Ideal.step] at hs
      split at hs
      · cases hs; exact ⟨hw.2, hl⟩
      · cases hs
  | visit v js k =>
    simp only [Ideal.step] at hs; cases hs
    exact enter_IGood hb _ _ _ _ _ hw.1 hw.2 hl

theorem IGood.ok {node V M} (hd : ∀ j, V j → ¬ M j) {s : Ideal} (h : IGood node V M s) : s.Ok node := by
  obtain ⟨cont, calls, cmd, loops⟩ := s
  obtain ⟨hw, hl⟩ := h
  have hv : ∀ j, Ideal.Visiting ⟨cont, calls, cmd, loops⟩ j → V j := by
    rintro j ⟨l, hm, rfl⟩; exact hl.mem l hm
  cases cmd with
  | insert j x k => exact hw.1.imp id (fun m v => hd j (hv j v) m)
  | clear j k => exact fun v => hd j (hv j v) hw.1
  | reserve j n k => exact .inr (fun v => hd j (hv j v) hw.1)
  | get k => intro e; have := hw.1; simp only at e; simp [e] at this
  | set x k => intro e; have := hw.1; simp only at e; simp [e] at this
  | _ => trivial

theorem IGood.careful {node V M} {body : Nat → Nat → Cmd} (hb : ∀ v i, V i → (body v i).Within node V M true)
    (hd : ∀ j, V j → ¬ M j) {s : Ideal} (h : IGood node V M s) : s.Careful body node := by
  intro n
  induction n generalizing s with
  | zero => intro s' e; cases e; exact h.ok hd
  | succ n ih =>
    intro s' e
    simp only [Ideal.runN] at e
    revert e
    rcases e1 : s.step body with t | ⟨b, t⟩ | _
    · exact ih (h.step hb e1) s'
    · simp
    · simp

/-! ### An end iterator that was invalidated stays so. -/

theorem begin_gens (v k) (loops : List Loop) (s : State) (js : List Nat) :
    (begin C v k loops s js).lgen = s.lgen ∧ (begin C v k loops s js).egen = s.egen := by
  induction js with
  | nil => exact ⟨rfl, rfl⟩
  | cons j js ih =>
    simp only [begin]; split
    · exact ih
    · exact ⟨rfl, rfl⟩

theorem upd_mono (f : Nat → Nat) (j i : Nat) : f i ≤ upd f j (f j + 1) i := by
  simp only [upd]; split
  · next h => subst h; omega
  · omega

theorem step_mono {s s' : State} (h : step C s = .next s') (i : Nat) : s.lgen i ≤ s'.lgen i ∧ s.egen i ≤ s'.egen i := by
  obtain ⟨cont, cap, egen, lgen, calls, cmd, loops⟩ := s
  cases cmd with
  | ret =>
    cases loops with
    | nil => simp [step] at h
    | cons l ls =>
      simp only [step, advance] at h
      generalize (if C.node l.i then (cont l.i).length else l.last) = w at h
      split at h
      · cases h
      · split at h
        · cases h; rw [(begin_gens C ..).1, (begin_gens C ..).2]; exact ⟨Nat.le_refl _, Nat.le_refl _⟩
        · cases h; exact ⟨Nat.le_refl _, Nat.le_refl _⟩
  | raise =>
    cases loops with
    | nil => simp [step] at h
    | cons l ls => simp only [step] at h; cases h; exact ⟨Nat.le_refl _, Nat.le_refl _⟩
  | insert j x k =>
    simp only [step] at h; cases h
    simp only [pushBack]; split
    · exact ⟨Nat.le_refl _, Nat.le_refl _⟩
    · split
      · exact ⟨upd_mono .., Nat.le_refl _⟩
      · exact ⟨upd_mono .., upd_mono ..⟩
  | clear j k =>
    simp only [step] at h; cases h
    refine ⟨?_, upd_mono ..⟩
    simp only; split
    · exact Nat.le_refl _
    · exact upd_mono ..
  | reserve j n k =>
    simp only [step] at h
    split at h
    · cases h; exact ⟨Nat.le_refl _, Nat.le_refl _⟩
    · cases h; exact ⟨upd_mono .., upd_mono ..⟩
  | count j k => simp only [step] at h; cases h; exact ⟨Nat.le_refl _, Nat.le_refl _⟩
  | get k =>
    cases loops with
    | nil => simp [step] at h
    | cons l ls =>
      simp only [step] at h
      split at h
      · cases h
      · split at h
        · cases h; exact ⟨Nat.le_refl _, Nat.le_refl _⟩
        · cases h
  | set x k =>
    cases loops with
    | nil => simp [step] at h
    | cons l ls =>
      simp only [step] at h
      split at h
      · cases h
      · split at h
        · cases h; exact ⟨Nat.le_refl _, Nat.le_refl _⟩
        · cases h
  | visit v js k =>
    simp only [step] at h; cases h; rw [(begin_gens C ..).1, (begin_gens C ..).2]; exact ⟨Nat.le_refl _, Nat.le_refl _⟩

theorem runN_mono {n : Nat} {s s' : State} (h : runN C n s = .next s') (i : Nat) : s.lgen i ≤ s'.lgen i ∧ s.egen i ≤ s'.egen i := by
  induction n generalizing s with
  | zero => cases h; exact ⟨Nat.le_refl _, Nat.le_refl _⟩
  | succ n ih =>
    simp only [runN] at h
    revert h
    rcases e : step C s with t | ⟨b, t⟩ | _
    · intro h
      have h1 := step_mono C e i
      have h2 := ih h
      exact ⟨Nat.le_trans h1.1 h2.1, Nat.le_trans h1.2 h2.2⟩
    · simp
    · simp

end AnyAny.SwarmRe
