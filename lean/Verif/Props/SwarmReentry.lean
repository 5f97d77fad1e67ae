import Verif.Lemmas.SwarmReentry2
/-
C120: visitors that use the swarm they visit. Specification: Spec/SwarmReentry.lean.
-/
namespace AnyAny.SwarmRe

variable (C : Cfg) (cont : Nat → List Nat) (cap : Nat → Nat) (c : Cmd)

/-- If no container of a type being visited is changed (lists may grow), nothing undefined happens, whatever the capacities are and however
visits are nested. -/
theorem C120_safe (h : (Ideal.start cont c).Careful C.body C.node) (n : Nat) : runN C n (start cont cap c) ≠ .ub := by
  have := runN_good C n (start cont cap c) (by intro l hl; simp [start] at hl) h
  intro e; rw [e] at this; exact this

/-- … and every step shows what is expected: the values, the calls of visitors, and what comes next. -/
theorem C120_refines (h : (Ideal.start cont c).Careful C.body C.node) (n : Nat) :
    (runN C n (start cont cap c)).map State.ideal = (Ideal.start cont c).runN C.body n := by
  have := runN_good C n (start cont cap c) (by intro l hl; simp [start] at hl) h
  revert this
  rcases runN C n (start cont cap c) with s | ⟨b, s⟩ | _
  · exact fun h => h.2.symm
  · exact fun h => h.symm
  · exact False.elim

/-- Code that visits some types and changes others keeps the rule. -/
theorem C120_disjoint (V M : Nat → Prop) (hd : ∀ j, V j → ¬ M j) (hb : ∀ v i, V i → (C.body v i).Within C.node V M true)
    (hc : c.Within C.node V M false) (n : Nat) : runN C n (start cont cap c) ≠ .ub :=
  C120_safe C cont cap c (IGood.careful hb hd ⟨hc, trivial⟩) n

/-- A visitor replaces each value and inserts values of other types. The visit ends, each listed type has had all the values visited which were
there when its turn came, in order: what was inserted for a type listed later is visited too, what was inserted for a type listed
before is not. -/
theorem C120_spawn (f : Nat → Nat → Nat × List (Nat × Nat)) (v : Nat) (js : List Nat) (hb : ∀ i ∈ js, C.body v i = spawner f i)
    (hf : ∀ i ∈ js, ∀ x y, y ∈ (f i x).2 → y.1 ≠ i) :
    ∃ n s, runN C n (start cont cap (.visit v js (fun _ => .ret))) = .fin false s ∧ s.cont = spawnedAll f cont js ∧
      s.calls = (visitedAll f cont js).map (fun p => (v, p.1, p.2)) := by
  obtain ⟨s, ⟨n, r⟩, h1, h2, h3, h4⟩ := types_run C f v (fun _ => .ret) [] js hb hf (start cont cap (.visit v js (fun _ => .ret)))
  refine ⟨1 + (n + 1), s, ?_, h3, by simpa [start] using h4⟩
  have e1 : runN C 1 (start cont cap (.visit v js (fun _ => .ret))) =
      .next (begin C v (fun _ => .ret) [] (start cont cap (.visit v js (fun _ => .ret))) js) := rfl
  rw [runN_add C 1 (n + 1) e1, runN_add C n 1 r]
  simp only [runN, step, h1, h2]

/-- In general: once a value was inserted in a vector being visited (by the visitor or by anything it calls), that visit cannot go on: when the
visitor returns, the behaviour is undefined. It can only be left by an exception. -/
theorem C120_spoiled (n m : Nat) (s s' : State) (j x : Nat) (k : Cmd) (l : Loop) (ls : List Loop)
    (h : runN C n (start cont cap c) = .next s) (hc : s.cmd = .insert j x k) (hj : C.node j = false) (hl : l ∈ s.loops) (hi : l.i = j)
    (h' : runN C (m + 1) s = .next s') (hs : s'.loops = l :: ls) (hr : s'.cmd = .ret) : step C s' = .ub := by
  have hb := runN_bnd C (s := start cont cap c) (by intro l hl; simp [start] at hl) h l hl
  have e : step C s = .next (pushBack C j x k s) := by simp only [step, hc]
  have h2 : runN C m (pushBack C j x k s) = .next s' := by simpa only [runN, e] using h'
  have h3 := (runN_mono C h2 l.i).1
  have h4 : (pushBack C j x k s).lgen l.i = s.lgen l.i + 1 := by
    simp only [pushBack, hj, Bool.false_eq_true, if_false]
    split <;> simp [upd, hi]
  have h5 : s'.lgen l.i ≠ l.lgen := by omega
  simp only [step, hr, hs, advance, h5, ne_eq, not_false_eq_true, or_true, if_true]

/-- A visitor that inserts a value of the type it was called with: undefined for a vector, whatever its capacity is, for every swarm with such a
value. -/
theorem C120_own_fails (v i x : Nat) (k : Bool → Cmd) (hn : C.node i = false) (hb : C.body v i = .insert i x .ret) (hi : cont i ≠ []) :
    runN C 3 (start cont cap (.visit v [i] k)) = .ub := by
  have e1 : step C (start cont cap (.visit v [i] k)) =
      .next ⟨cont, cap, fun _ => 0, fun _ => 0, [(v, i, 0)], .insert i x .ret, [⟨v, i, 0, (cont i).length, 0, 0, [], k⟩]⟩ := by
    simp [step, start, begin, hi, hb]
  have e2 : ∀ s s' s'' : State, step C s = .next s' → step C s' = .next s'' → step C s'' = .ub → runN C 3 s = .ub := by
    intro s s' s'' h1 h2 h3; simp only [runN, h1, h2, h3]
  obtain ⟨h1, -, h3, -, -⟩ := pushBack_facts C i x .ret ⟨cont, cap, fun _ => 0, fun _ => 0, [(v, i, 0)], .insert i x .ret,
      [⟨v, i, 0, (cont i).length, 0, 0, [], k⟩]⟩
  refine e2 _ _ _ e1 rfl (C120_spoiled C cont cap (.visit v [i] k) 1 0 ⟨cont, cap, fun _ => 0, fun _ => 0, [(v, i, 0)], .insert i x .ret,
      [⟨v, i, 0, (cont i).length, 0, 0, [], k⟩]⟩ _ i x .ret _ [] ?_ rfl hn (List.mem_singleton.2 rfl) rfl ?_ h3 h1)
  · simp only [runN, e1]
  · simp only [runN, step]

/-- The visitor may still use its value if the vector had room for the new value, and it may not if it had none. -/
theorem C120_value_after_insert (s : State) (i x : Nat) (k : Nat → Cmd) (l : Loop) (ls : List Loop)
    (hc : s.cmd = .insert i x (.get k)) (hs : s.loops = l :: ls) (hi : l.i = i) (hn : C.node i = false) (he : s.egen i = l.egen)
    (hp : l.pos < (s.cont i).length) :
    runN C 2 s = .ub ↔ s.cap i ≤ (s.cont i).length := by
  have e : step C s = .next (pushBack C i x (.get k) s) := by simp only [step, hc]
  obtain ⟨h1, h2, h3, -, -⟩ := pushBack_facts C i x (.get k) s
  have e3 : runN C 2 s = runN C 1 (pushBack C i x (.get k) s) := by simp only [runN, e]
  rw [e3]
  simp only [runN, step, h1, h2, h3, hs]
  have hlen : (upd s.cont i (s.cont i ++ [x]) i).length = (s.cont i).length + 1 := by simp [upd]
  have hget : (upd s.cont i (s.cont i ++ [x]) l.i)[l.pos]? = some (s.cont i)[l.pos] := by
    simp only [hi, upd_same]; rw [List.getElem?_append_left hp, List.getElem?_eq_getElem hp]
  by_cases hle : (s.cont i).length + 1 ≤ s.cap i
  · have : (pushBack C i x (.get k) s).egen l.i = l.egen := by
      simp only [pushBack, hn, Bool.false_eq_true, if_false, hlen, hle, if_true, hi, he]
    simp only [this, ne_eq, not_true, if_false, hget]
    exact ⟨fun h => (nomatch h), fun h => absurd hle (by omega)⟩
  · have : (pushBack C i x (.get k) s).egen l.i ≠ l.egen := by
      rw [upd_same] at hlen
      simp only [pushBack, hn, Bool.false_eq_true, if_false, hi, upd_same, hlen, hle]; omega
    simp only [this, ne_eq, not_false_eq_true, if_true]
    exact ⟨fun _ => by omega, fun _ => trivial⟩

/-- The same visitor on a list: each value it inserts is visited in turn, the visit does not end. -/
theorem C120_list_endless_fails (v i x : Nat) (k : Bool → Cmd) (hn : C.node i = true) (hb : C.body v i = .insert i x .ret) (hi : cont i ≠ [])
    (n : Nat) : ∃ s, runN C n (start cont cap (.visit v [i] k)) = .next s := by
  let Inv : State → Prop := fun s => ∃ l, s.loops = [l] ∧ l.v = v ∧ l.i = i ∧ s.egen i = l.egen ∧ s.lgen i = l.lgen ∧
    ((s.cmd = .insert i x .ret ∧ l.pos < (s.cont i).length) ∨ (s.cmd = .ret ∧ l.pos + 1 < (s.cont i).length))
  have hstep : ∀ s, Inv s → ∃ s', step C s = .next s' ∧ Inv s' := by
    rintro s ⟨l, h1, h2, h3, h4, h5, ⟨h6, h7⟩ | ⟨h6, h7⟩⟩
    · refine ⟨pushBack C i x .ret s, by simp only [step, h6], l, ?_⟩
      simp only [pushBack, hn, if_true, upd_same, List.length_append, List.length_singleton]
      exact ⟨h1, h2, h3, h4, h5, .inr ⟨trivial, by omega⟩⟩
    · subst h3
      refine ⟨{ s with cmd := C.body l.v l.i, calls := s.calls ++ [(l.v, l.i, l.pos + 1)], loops := [{ l with pos := l.pos + 1 }] }, ?_,
        { l with pos := l.pos + 1 }, rfl, h2, rfl, h4, h5, .inl ⟨by simp only [h2, hb], h7⟩⟩
      have hne : ¬ (l.pos + 1 = (s.cont l.i).length) := by omega
      simp only [step, h6, h1, advance, h4, h5, ne_eq, not_true, or_self, if_false, hn, if_true, hne]
  have hrun : ∀ n s, Inv s → ∃ s', runN C n s = .next s' := by
    intro n
    induction n with
    | zero => exact fun s _ => ⟨s, rfl⟩
    | succ n ih =>
      intro s h
      obtain ⟨s', e, h'⟩ := hstep s h
      simp only [runN, e]
      exact ih s' h'
  cases n with
  | zero => exact ⟨_, rfl⟩
  | succ n =>
    have e1 : step C (start cont cap (.visit v [i] k)) =
        .next ⟨cont, cap, fun _ => 0, fun _ => 0, [(v, i, 0)], .insert i x .ret, [⟨v, i, 0, (cont i).length, 0, 0, [], k⟩]⟩ := by
      simp [step, start, begin, hi, hb]
    simp only [runN, e1]
    exact hrun n _ ⟨_, rfl, rfl, rfl, rfl, rfl, .inl ⟨rfl, by simpa [List.length_pos_iff] using hi⟩⟩

/-! ### Examples -/

/-- Three types: 0 and 1 in vectors, 2 in a list. The visitor 0 doubles a value of type 0 and inserts it as one of type 1; it adds one to
values of type 1. The visitor 1 inserts a copy of a value of type 0 and throws. -/
def exCfg : Cfg where
  node := fun i => i == 2
  body := fun v i =>
    if v = 0 then spawner (fun i x => if i = 0 then (2 * x, [(1, x)]) else (x + 1, [])) i
    else .get fun x => .insert i x .raise
  grow := fun n => 2 * n

def exCont : Nat → List Nat := fun i => if i = 0 then [5, 6] else if i = 1 then [7] else []

/-- What the visit of the types 0 and 1 gives: the values inserted by the first are visited by the second; in the other order they are not. -/
example : ((runN exCfg 100 (start exCont (fun _ => 2) (.visit 0 [0, 1] fun _ => .ret))).map
    (fun s => (s.cont 0, s.cont 1, s.calls))) matches .fin false ([10, 12], [8, 6, 7], [(0, 0, 0), (0, 0, 1), (0, 1, 0), (0, 1, 1), (0, 1, 2)]) := by
  decide +kernel
example : ((runN exCfg 100 (start exCont (fun _ => 2) (.visit 0 [1, 0] fun _ => .ret))).map
    (fun s => (s.cont 0, s.cont 1, s.calls))) matches .fin false ([10, 12], [8, 5, 6], [(0, 1, 0), (0, 0, 0), (0, 0, 1)]) := by
  decide +kernel
/-- The hypotheses of `C120_spawn` hold of it. -/
example : (∀ i ∈ [0, 1], exCfg.body 0 i = spawner (fun i x => if i = 0 then (2 * x, [(1, x)]) else (x + 1, [])) i) ∧
    (∀ i ∈ [0, 1], ∀ x y, y ∈ ((fun i x => if i = 0 then (2 * x, [(1, x)]) else (x + 1, [])) i x : Nat × List (Nat × Nat)).2 → y.1 ≠ i) := by
  constructor
  · intro i _; rfl
  · intro i hi x y hy
    simp only [List.mem_cons, List.not_mem_nil, or_false] at hi
    rcases hi with rfl | rfl
    · simp only [if_true, List.mem_singleton] at hy; simp [hy]
    · simp at hy
/-- Visitor 1 spoils its visit and throws: defined. -/
example : ((runN exCfg 100 (start exCont (fun _ => 2) (.visit 1 [0, 1] fun _ => .ret))).map (fun s => (s.cont 0, s.cont 1, s.calls)))
    matches .fin false ([5, 6, 5], [7], [(1, 0, 0)]) := by decide +kernel
/-- Code that visits the type 0 and changes the type 1, so that `C120_disjoint` applies. -/
example (n : Nat) : runN { exCfg with body := fun _ => exCfg.body 0 } n
    (start exCont (fun _ => 0) (.visit 0 [0] (fun _ => .reserve 1 10 .ret))) ≠ .ub := by
  refine C120_disjoint _ _ _ _ (· = 0) (· = 1) (by intro j h e; simp [h] at e) ?_ ?_ n
  · rintro v _ rfl
    exact ⟨rfl, fun n => ⟨rfl, .inr rfl, trivial⟩⟩
  · exact ⟨by simp, fun b => ⟨rfl, trivial⟩⟩

end AnyAny.SwarmRe
