import Verif.Lemmas.SwarmReentry
/-! Visits by visitors which update their value and insert values of other types. -/
namespace AnyAny.SwarmRe

variable (C : Cfg)

def Reach (s s' : State) : Prop := ∃ n, runN C n s = .next s'

theorem runN_add (m n : Nat) {s t : State} (h : runN C m s = .next t) : runN C (m + n) s = runN C n t := by
  induction m generalizing s with
  | zero => cases h; simp
  | succ m ih =>
    rw [Nat.add_right_comm]
    simp only [runN] at h ⊢
    revert h
    rcases step C s with u | ⟨b, u⟩ | _
    · exact fun h => ih h
    · simp
    · simp

theorem Reach.refl (s : State) : Reach C s s := ⟨0, rfl⟩
theorem Reach.trans {s t u : State} : Reach C s t → Reach C t u → Reach C s u := fun ⟨m, h⟩ ⟨n, k⟩ => ⟨m + n, by rw [runN_add C m n h, k]⟩
theorem Reach.one {s t : State} (h : step C s = .next t) : Reach C s t := ⟨1, by simp only [runN, h]⟩

theorem pushBack_facts (j x : Nat) (k : Cmd) (s : State) :
    (pushBack C j x k s).cmd = k ∧ (pushBack C j x k s).cont = upd s.cont j (s.cont j ++ [x]) ∧
    (pushBack C j x k s).loops = s.loops ∧ (pushBack C j x k s).calls = s.calls ∧
    ∀ i, i ≠ j → (pushBack C j x k s).egen i = s.egen i ∧ (pushBack C j x k s).lgen i = s.lgen i := by
  simp only [pushBack]; split
  · exact ⟨rfl, rfl, rfl, rfl, fun i _ => ⟨rfl, rfl⟩⟩
  · split
    · exact ⟨rfl, rfl, rfl, rfl, fun i h => ⟨rfl, upd_other _ _ h⟩⟩
    · exact ⟨rfl, rfl, rfl, rfl, fun i h => ⟨upd_other _ _ h, upd_other _ _ h⟩⟩

theorem ofType_cons (j : Nat) (y : Nat × Nat) (ys : List (Nat × Nat)) :
    ofType j (y :: ys) = (if y.1 = j then [y.2] else []) ++ ofType j ys := by
  simp only [ofType, List.filter_cons]
  by_cases h : y.1 = j <;> simp [h]

theorem ofType_append (j : Nat) (ys zs : List (Nat × Nat)) : ofType j (ys ++ zs) = ofType j ys ++ ofType j zs := by
  simp [ofType]

theorem ofType_none (i : Nat) (ys : List (Nat × Nat)) (h : ∀ y ∈ ys, y.1 ≠ i) : ofType i ys = [] := by
  simp only [ofType, List.map_eq_nil_iff, List.filter_eq_nil_iff]
  intro y hy; simpa using h y hy

theorem inserts_run (i : Nat) (ys : List (Nat × Nat)) (hy : ∀ y ∈ ys, y.1 ≠ i) (s : State) (hc : s.cmd = inserts .ret ys) :
    ∃ s', Reach C s s' ∧ s'.cmd = .ret ∧ s'.loops = s.loops ∧ s'.calls = s.calls ∧
      (∀ j, s'.cont j = s.cont j ++ ofType j ys) ∧ s'.egen i = s.egen i ∧ s'.lgen i = s.lgen i := by
  induction ys generalizing s with
  | nil => exact ⟨s, Reach.refl C s, hc, rfl, rfl, fun j => by simp [ofType], rfl, rfl⟩
  | cons y ys ih =>
    obtain ⟨h1, h2, h3, h4, h5⟩ := pushBack_facts C y.1 y.2 (inserts .ret ys) s
    have hst : step C s = .next (pushBack C y.1 y.2 (inserts .ret ys) s) := by
      simp only [step, hc, inserts]
    obtain ⟨s', r, a1, a2, a3, a4, a5, a6⟩ := ih (fun z hz => hy z (List.mem_cons_of_mem _ hz)) _ h1
    have hne : i ≠ y.1 := fun e => hy y (List.mem_cons_self ..) e.symm
    refine ⟨s', (Reach.one C hst).trans C r, a1, a2.trans h3, a3.trans h4, fun j => ?_, a5.trans (h5 i hne).1, a6.trans (h5 i hne).2⟩
    rw [a4 j, h2, ofType_cons]
    by_cases e : y.1 = j
    · subst e; simp [upd]
    · have : j ≠ y.1 := fun h => e h.symm
      simp [upd, this, e]

variable (f : Nat → Nat → Nat × List (Nat × Nat))

theorem loop_run (v i : Nat) (rest : List Nat) (k : Bool → Cmd) (ls : List Loop) (hb : C.body v i = spawner f i)
    (hf : ∀ x y, y ∈ (f i x).2 → y.1 ≠ i) (todo : List Nat) :
    ∀ (dn : List Nat) (x : Nat) (s : State), s.cont i = dn ++ x :: todo → s.cmd = spawner f i →
      s.loops = ⟨v, i, dn.length, dn.length + 1 + todo.length, s.egen i, s.lgen i, rest, k⟩ :: ls →
      ∃ s', Reach C s (begin C v k ls s' rest) ∧ s'.cont i = dn ++ (x :: todo).map (fun x => (f i x).1) ∧
        (∀ j, j ≠ i → s'.cont j = s.cont j ++ ofType j ((x :: todo).flatMap (fun x => (f i x).2))) ∧
        s'.calls = s.calls ++ (List.range' (dn.length + 1) todo.length).map (fun p => (v, i, p)) := by
  induction todo with
  | nil =>
    intro dn x s hcont hcmd hl
    have hlen : (s.cont i).length = dn.length + 1 := by simp [hcont]
    have hx : (s.cont i)[dn.length]? = some x := by simp [hcont]
    -- read and write
    have e1 : step C s = .next { s with cmd := .set (f i x).1 (inserts .ret (f i x).2) } := by
      simp only [step, hcmd, spawner, hl, ne_eq, not_true, if_false, hx]
    have e2 : step C { s with cmd := .set (f i x).1 (inserts .ret (f i x).2) } =
        .next { s with cmd := inserts .ret (f i x).2, cont := upd s.cont i ((s.cont i).set dn.length (f i x).1) } := by
      have : dn.length < (s.cont i).length := by omega
      simp only [step, hl, ne_eq, not_true, if_false, this, if_true]
    obtain ⟨t, r, a1, a2, a3, a4, a5, a6⟩ := inserts_run C i (f i x).2 (hf x)
      { s with cmd := inserts .ret (f i x).2, cont := upd s.cont i ((s.cont i).set dn.length (f i x).1) } rfl
    simp only at a2 a3 a4 a5 a6
    have hti : t.cont i = dn ++ [(f i x).1] := by
      rw [a4 i, ofType_none i _ (hf x)]; simp [upd, hcont]
    have e3 : step C t = .next (begin C v k ls t rest) := by
      simp only [step, a1, a2, hl, advance, a5, a6, ne_eq, not_true, or_self, if_false, hti]
      simp
    refine ⟨t, (((Reach.one C e1).trans C (Reach.one C e2)).trans C r).trans C (Reach.one C e3), by simpa using hti, fun j hj => ?_, by simp [a3]⟩
    rw [a4 j]; simp [upd, hj]
  | cons y todo ih =>
    intro dn x s hcont hcmd hl
    have hlen : (s.cont i).length = dn.length + 1 + (todo.length + 1) := by simp [hcont]; omega
    have hx : (s.cont i)[dn.length]? = some x := by simp [hcont]
    have e1 : step C s = .next { s with cmd := .set (f i x).1 (inserts .ret (f i x).2) } := by
      simp only [step, hcmd, spawner, hl, ne_eq, not_true, if_false, hx]
    have e2 : step C { s with cmd := .set (f i x).1 (inserts .ret (f i x).2) } =
        .next { s with cmd := inserts .ret (f i x).2, cont := upd s.cont i ((s.cont i).set dn.length (f i x).1) } := by
      have : dn.length < (s.cont i).length := by omega
      simp only [step, hl, ne_eq, not_true, if_false, this, if_true]
    obtain ⟨t, r, a1, a2, a3, a4, a5, a6⟩ := inserts_run C i (f i x).2 (hf x)
      { s with cmd := inserts .ret (f i x).2, cont := upd s.cont i ((s.cont i).set dn.length (f i x).1) } rfl
    simp only at a2 a3 a4 a5 a6
    have hti : t.cont i = dn ++ (f i x).1 :: y :: todo := by
      rw [a4 i, ofType_none i _ (hf x)]; simp [upd, hcont]
    have htl : (t.cont i).length = dn.length + 1 + (todo.length + 1) := by simp [hti]; omega
    let t2 : State := { t with
        cmd := spawner f i, calls := t.calls ++ [(v, i, dn.length + 1)]
        loops := ⟨v, i, dn.length + 1, dn.length + 1 + (todo.length + 1), s.egen i, s.lgen i, rest, k⟩ :: ls }
    have e3 : step C t = .next t2 := by
      have hne : ¬ (dn.length + 1 = dn.length + 1 + (todo.length + 1)) := by omega
      simp only [step, a1, a2, hl, advance, a5, a6, ne_eq, not_true, or_self, if_false, htl, List.length_cons, ite_self, hne, hb]
      rfl
    obtain ⟨u, ru, b1, b2, b3⟩ := ih (dn ++ [(f i x).1]) y t2 (by simp [t2, hti]) rfl (by
      simp only [t2, List.length_append, List.length_cons, List.length_nil, a5, a6]
      congr 2; omega)
    refine ⟨u, ((((Reach.one C e1).trans C (Reach.one C e2)).trans C r).trans C (Reach.one C e3)).trans C ru, by simpa using b1, fun j hj => ?_, ?_⟩
    · rw [b2 j hj]
      simp only [t2]
      rw [a4 j]
      simp [upd, hj, ofType_append]
    · rw [b3]
      simp [t2, a3, List.range'_succ]

theorem spawned_nil {cont : Nat → List Nat} {i : Nat} (h : cont i = []) : spawned f cont i = cont := by
  funext j
  simp only [spawned]; split
  · next e => subst e; simp [h]
  · simp [h, ofType]

theorem types_run (v : Nat) (k : Bool → Cmd) (ls : List Loop) (js : List Nat) (hb : ∀ i ∈ js, C.body v i = spawner f i)
    (hf : ∀ i ∈ js, ∀ x y, y ∈ (f i x).2 → y.1 ≠ i) (s : State) :
    ∃ s', Reach C (begin C v k ls s js) s' ∧ s'.cmd = k false ∧ s'.loops = ls ∧ s'.cont = spawnedAll f s.cont js ∧
      s'.calls = s.calls ++ (visitedAll f s.cont js).map (fun p => (v, p.1, p.2)) := by
  induction js generalizing s with
  | nil => exact ⟨_, Reach.refl C _, rfl, rfl, rfl, by simp [begin, visitedAll]⟩
  | cons i js ih =>
    have hb' := fun j hj => hb j (List.mem_cons_of_mem _ hj)
    have hf' := fun j hj => hf j (List.mem_cons_of_mem i hj)
    rcases e : s.cont i with _ | ⟨x, todo⟩
    · obtain ⟨s', r, h1, h2, h3, h4⟩ := ih hb' hf' s
      refine ⟨s', by simpa [begin, e] using r, h1, h2, ?_, ?_⟩
      · simp only [spawnedAll, List.foldl_cons, spawned_nil f e]; exact h3
      · simp only [visitedAll, e, List.length_nil, List.range_zero, List.map_nil, List.nil_append, spawned_nil f e]; exact h4
    · let s1 : State := { s with
        cmd := C.body v i, calls := s.calls ++ [(v, i, 0)]
        loops := ⟨v, i, 0, (s.cont i).length, s.egen i, s.lgen i, js, k⟩ :: ls }
      have hbeg : begin C v k ls s (i :: js) = s1 := by simp [begin, e, s1]
      obtain ⟨t, r, a1, a2, a3⟩ := loop_run C f v i js k ls (hb i (List.mem_cons_self ..)) (hf i (List.mem_cons_self ..)) todo [] x s1
        (by simp [s1, e]) (hb i (List.mem_cons_self ..)) (by simp [s1, e]; omega)
      have hcont : t.cont = spawned f s.cont i := by
        funext j
        simp only [spawned]
        by_cases h : j = i
        · subst h; simp only [if_true, a1, e, List.nil_append]
        · simp only [h, if_false, a2 j h, e]; rfl
      obtain ⟨s', r', h1, h2, h3, h4⟩ := ih hb' hf' t
      refine ⟨s', hbeg ▸ r.trans C r', h1, h2, ?_, ?_⟩
      · rw [h3, hcont]; rfl
      · rw [h4, hcont, a3]
        simp [s1, visitedAll, e, List.range_eq_range', List.range'_succ]

/-! ### Iterators are not newer than the containers. -/

def Bnd (s : State) : Prop := ∀ l ∈ s.loops, l.lgen ≤ s.lgen l.i ∧ l.egen ≤ s.egen l.i

theorem begin_loops (v k) (loops : List Loop) (s : State) (js : List Nat) (h : ∀ l ∈ loops, l.lgen ≤ s.lgen l.i ∧ l.egen ≤ s.egen l.i) :
    ∀ l ∈ (begin C v k loops s js).loops, l.lgen ≤ s.lgen l.i ∧ l.egen ≤ s.egen l.i := by
  induction js with
  | nil => exact h
  | cons j js ih =>
    simp only [begin]; split
    · exact ih
    · intro l hl
      rcases List.mem_cons.1 hl with rfl | hl
      · exact ⟨Nat.le_refl _, Nat.le_refl _⟩
      · exact h l hl

/-- The loops after a step: those before, one moved, or those of a visit that begins. -/
theorem step_bnd {s s' : State} (hb : Bnd s) (h : step C s = .next s') : Bnd s' := by
  have hm := step_mono C h
  suffices hs : ∀ l ∈ s'.loops, l.lgen ≤ s.lgen l.i ∧ l.egen ≤ s.egen l.i from
    fun l hl => ⟨Nat.le_trans (hs l hl).1 (hm l.i).1, Nat.le_trans (hs l hl).2 (hm l.i).2⟩
  obtain ⟨cont, cap, egen, lgen, calls, cmd, loops⟩ := s
  cases cmd with
  | ret =>
    cases loops with
    | nil => simp [step] at h
    | cons l ls =>
      have hls := fun m hm => hb m (List.mem_cons_of_mem l hm)
      simp only [step, advance] at h
      generalize (if C.node l.i then (cont l.i).length else l.last) = w at h
      split at h
      · cases h
      · split at h
        · cases h; exact begin_loops C _ _ _ _ _ hls
        · cases h
          intro m hm
          rcases List.mem_cons.1 hm with rfl | hm
          · exact hb l (List.mem_cons_self ..)
          · exact hls m hm
  | raise =>
    cases loops with
    | nil => simp [step] at h
    | cons l ls => simp only [step] at h; cases h; exact fun m hm => hb m (List.mem_cons_of_mem l hm)
  | insert j x k =>
    simp only [step] at h; cases h
    rw [(pushBack_facts C j x k _).2.2.1]; exact hb
  | clear j k => simp only [step] at h; cases h; exact hb
  | reserve j n k =>
    simp only [step] at h
    split at h <;> (cases h; exact hb)
  | count j k => simp only [step] at h; cases h; exact hb
  | get k =>
    cases loops with
    | nil => simp [step] at h
    | cons l ls =>
      simp only [step] at h
      split at h
      · cases h
      · split at h
        · cases h; exact hb
        · cases h
  | set x k =>
    cases loops with
    | nil => simp [step] at h
    | cons l ls =>
      simp only [step] at h
      split at h
      · cases h
      · split at h
        · cases h; exact hb
        · cases h
  | visit v js k =>
    simp only [step] at h; cases h; exact begin_loops C _ _ _ _ _ hb

theorem runN_bnd {n : Nat} {s s' : State} (hb : Bnd s) (h : runN C n s = .next s') : Bnd s' := by
  induction n generalizing s with
  | zero => cases h; exact hb
  | succ n ih =>
    simp only [runN] at h
    revert h
    rcases e : step C s with t | ⟨b, t⟩ | _
    · exact fun h => ih (step_bnd C hb e) h
    · simp
    · simp

end AnyAny.SwarmRe
