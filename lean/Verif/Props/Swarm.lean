import Verif.Lemmas.Swarm
/-
C57, C58, C86: variant_swarm.
-/
namespace AnyAny.Swarm

variable {n : Nat} {V : Fin n → Type} {c : (i : Fin n) → Cont (V i)} {σ R : Type}

/-- **C57**, sequences (`variant_swarm`). Whatever the history, also if operations throw exceptions, a swarm is the
`std::vector<std::variant<Ts...>>` of the same history with the values sorted by type: `visit_all` calls the visitor for exactly the values
of the vector, each once, those of the first type first, and those of one type in the order of insertion; `size`, `count`, `empty` and `view` agree with it. -/
theorem C57_history (hc : ∀ i, Seq (c i)) {w : World V} {S : SWorld V} (h : Reach c w S) {d sw} (hd : w d = some sw) :
    ∃ l, S d = some l ∧
      (∀ {σ R : Type} (v : Visitor V σ R) out s, (visitAll v out sw s).1 = runAll v out (grouped (List.finRange n) l) s) ∧
      (grouped (List.finRange n) l).Perm l ∧
      size sw = l.length ∧ (∀ i, count sw i = (ofType i l).length) ∧ (empty sw = true ↔ l = []) ∧ ∀ i, view sw i = ofType i l := by
  obtain ⟨l, hl, hr⟩ := (h.rep hc).getW hd
  have hfun : sw = fun i => ofType i l := funext hr
  have hsz : size sw = l.length := by rw [← ofType_sum l, hfun]; rfl
  refine ⟨l, hl, ?_, grouped_perm l, hsz, fun i => by rw [hfun]; rfl, ?_, hr⟩
  · intro σ R v out s
    rw [visitAll, visit_nodup v out _ (List.nodup_finRange n), hfun]; rfl
  · constructor
    · intro he
      apply List.eq_nil_of_length_eq_zero
      rw [← hsz, hfun]
      simp only [empty, List.all_eq_true, List.mem_finRange, forall_const, List.isEmpty_iff] at he
      have : ∀ is : List (Fin n), (is.map fun i => (sw i).length).foldr (· + ·) 0 = 0 := by
        intro is; induction is with
        | nil => rfl
        | cons i is ih => simp only [List.map_cons, List.foldr_cons, ih, he i, List.length_nil]
      rw [← hfun]; exact this _
    · rintro rfl
      simp [empty, hr]

/-- Every legal operation compiles, and completes or throws, at any moment `t`; in both cases the history goes on, so C57 holds for what
comes afterwards. -/
theorem C57_exists (hc : ∀ i, Seq (c i)) {w : World V} {S : SWorld V} (h : Reach c w S) {op} (L : Legal S op) (t : Nat) :
    (∃ w', exec c t w op = some (w', none) ∧ Reach c w' (specStep S op)) ∨
    ∃ w' i S', exec c t w op = some (w', some i) ∧ ThrowStep ofType S op i (leftIn w' op i) S' ∧ Reach c w' S' := by
  obtain ⟨⟨w', r⟩, he⟩ := exec_some (t := t) hc (h.rep hc) L
  cases r with
  | none => exact .inl ⟨w', he, .step h L he⟩
  | some i =>
    obtain ⟨S', hS⟩ := throws_exists (h.rep hc) he
    exact .inr ⟨w', i, S', he, hS, .throws h L he hS⟩

/-- A swarm exists in the one world iff in the other. -/
theorem C57_alive (hc : ∀ i, Seq (c i)) {w : World V} {S : SWorld V} (h : Reach c w S) (d : Nat) : (w d).isSome = (S d).isSome := by
  have := h.rep hc d
  cases hw : w d <;> cases hS : S d <;> simp_all

/-- **C57**, any containers, for example sets: each container has the values that were added and not erased, up to the order and as far as
the container keeps them (`add`), and nothing else. -/
theorem C57_any_container {add : (i : Fin n) → List (V i) → V i → List (V i)} (hc : ∀ i, Adds (add i) (c i)) {w : World V} {T}
    (h : BagReach c add w T) {d sw} (hd : w d = some sw) :
    ∃ t, T d = some t ∧ (∀ i, (view sw i).Perm (t i)) ∧ (∀ i, count sw i = (t i).length) ∧ (empty sw = true ↔ ∀ i, t i = []) := by
  obtain ⟨t, ht, hp⟩ := (h.rep hc).getW hd
  refine ⟨t, ht, hp, fun i => (hp i).length_eq, ?_⟩
  simp only [empty, List.all_eq_true, List.mem_finRange, forall_const, List.isEmpty_iff]
  exact ⟨fun he i => by have := hp i; rw [he i] at this; exact this.nil_eq.symm,
    fun he i => by have := hp i; rw [he i] at this; exact this.eq_nil⟩

/-- `size()` is the sum of the counts and the number of calls of `visit_all`, and `visit_all` goes through the containers in the order of
the types, whatever the containers are. -/
theorem C57_visit_any (sw : Swarm V) :
    (∀ {σ R : Type} (v : Visitor V σ R) out s,
      (visitAll v out sw s).1 = runAll v out ((List.finRange n).flatMap fun i => (view sw i).map fun x => ⟨i, x⟩) s) ∧
    size sw = ((List.finRange n).flatMap fun i => (view sw i).map fun x => (⟨i, x⟩ : Val V)).length := by
  refine ⟨fun v out s => visit_nodup v out _ (List.nodup_finRange n) sw s, ?_⟩
  have : ∀ is : List (Fin n), (is.map fun i => (sw i).length).foldr (· + ·) 0 =
      (is.flatMap fun i => (view sw i).map fun x => (⟨i, x⟩ : Val V)).length := by
    intro is; induction is with
    | nil => rfl
    | cons i is ih => simp only [List.map_cons, List.foldr_cons, ih, List.flatMap_cons, List.length_append, List.length_map, view]
  exact this _

/-- The visitor that records the values it is given (and returns nothing). -/
def recorder : Visitor V (List (Val V)) Unit := fun i s x => (s ++ [⟨i, x⟩], x, .void)

theorem runAll_recorder (out : List (Val V) → Unit → List (Val V) × Bool) (l s : List (Val V)) :
    runAll recorder out l s = (s ++ l, false) := by
  induction l generalizing s with
  | nil => simp [runAll]
  | cons x xs ih => simp [runAll, recorder] at ih ⊢; rw [ih]; simp

/-- **C57** as seen by a program: the values passed to the visitor, in order. -/
theorem C57_values (hc : ∀ i, Seq (c i)) {w : World V} {S : SWorld V} (h : Reach c w S) {d sw} (hd : w d = some sw) :
    ∃ l, S d = some l ∧ ((visitAll recorder (fun s _ => (s, false)) sw []).1.1).Perm l ∧
      (visitAll recorder (fun s _ => (s, false)) sw []).1.1 = grouped (List.finRange n) l := by
  obtain ⟨l, hl, hv, hp, _⟩ := C57_history hc h hd
  refine ⟨l, hl, ?_⟩
  rw [hv, runAll_recorder]; exact ⟨hp, rfl⟩

/-- **C58**, visitors that do not change the values (all visitors of a const swarm): `visit<Types...>` calls the visitor with the values of
the first type listed, then of the second, and so on, also if a type is listed twice; nothing changes in the swarm. -/
theorem C58_visit_const (v : Visitor V σ R) (hv : Reading v) (out : σ → R → σ × Bool) (types : List (Fin n)) (sw : Swarm V) (s : σ) :
    visit v out types sw s = (runAll v out (types.flatMap fun i => (view sw i).map fun x => ⟨i, x⟩) s, sw) :=
  visit_reading v hv out types sw s

/-- **C58**, any visitor, types listed once; the values of other types are not touched, and no value is added or lost. -/
theorem C58_visit (v : Visitor V σ R) (out : σ → R → σ × Bool) (types : List (Fin n)) (hn : types.Nodup) (sw : Swarm V) (s : σ) :
    (visit v out types sw s).1 = runAll v out (types.flatMap fun i => (view sw i).map fun x => ⟨i, x⟩) s ∧
    (∀ j, j ∉ types → view (visit v out types sw s).2 j = view sw j) ∧
    (∀ j, count (visit v out types sw s).2 j = count sw j) :=
  ⟨visit_nodup v out types hn sw s, fun _ hj => visit_other v out types sw s hj, visit_length v out types sw s⟩

/-- What the calls of a visitor do if nobody looks at their results: one call after the other, until one throws. -/
def calls (v : Visitor V σ R) : List (Val V) → σ → σ × Bool
  | [], s => (s, false)
  | x :: xs, s =>
    match v x.1 s x.2 with
    | (s', _, .throws) => (s', true)
    | (s', _, _) => calls v xs s'

/-- **C58**, `visit<Types...>(v)` and (for `types` = all) `visit_all(v)`, which ignore the results: the visitor is called with every value of the types
listed, in order, whatever it returns, until a call throws; values of other types are not touched, and no value is added or lost. -/
theorem C58_visit_ignore (v : Visitor V σ R) (types : List (Fin n)) (sw : Swarm V) (s : σ) :
    (types.Nodup ∨ Reading v → (visitIgnore v types sw s).1 = calls v (types.flatMap fun i => (view sw i).map fun x => ⟨i, x⟩) s) ∧
    (Reading v → (visitIgnore v types sw s).2 = sw) ∧
    (∀ j, j ∉ types → view (visitIgnore v types sw s).2 j = view sw j) ∧ (∀ j, count (visitIgnore v types sw s).2 j = count sw j) := by
  have hc : ∀ (l : List (Val V)) (s : σ), runAll v (fun s _ => (s, false)) l s = calls v l s := by
    intro l
    induction l with
    | nil => intro s; rfl
    | cons x xs ih =>
      intro s
      simp only [runAll, calls]
      obtain ⟨s', y, r, hv⟩ : ∃ s' y r, v x.1 s x.2 = (s', y, r) := ⟨_, _, _, rfl⟩
      cases r <;> simp [hv, ih]
  refine ⟨fun h => ?_, fun h => ?_, fun _ hj => visit_other v _ types sw s hj, visit_length v _ types sw s⟩
  · rw [← hc]
    rcases h with h | h
    · exact visit_nodup v _ types h sw s
    · exact congrArg Prod.fst (visit_reading v h _ types sw s)
  · exact congrArg Prod.snd (visit_reading v h _ types sw s)

/-- Visiting a list of types is visiting its parts in turn, also if visitors change values and types are repeated; an exception ends it. -/
theorem C58_visit_append (v : Visitor V σ R) (out : σ → R → σ × Bool) (types types' : List (Fin n)) (sw : Swarm V) (s : σ) :
    visit v out (types ++ types') sw s = if (visit v out types sw s).1.2 then visit v out types sw s
      else visit v out types' (visit v out types sw s).2 (visit v out types sw s).1.1 := by
  induction types generalizing sw s with
  | nil => rfl
  | cons i is ih =>
    simp only [List.cons_append, visit]
    split
    · rename_i h; simp [h]
    · exact ih _ _

/-- What a visitor writes into a value is what the swarm has afterwards, at the same place; values that come after an exception are as they
were. -/
theorem C58_visit_writes (v : Visitor V σ R) (out : σ → R → σ × Bool) (pre post : List (Fin n)) (i : Fin n) (hn : (pre ++ i :: post).Nodup)
    (sw : Swarm V) (s : σ) (k : Nat) (x : V i) (hx : (view sw i)[k]? = some x) :
    let before := runAll v out ((pre.flatMap fun j => (view sw j).map fun x => ⟨j, x⟩) ++ ((view sw i).take k).map fun x => ⟨i, x⟩) s
    (view (visit v out (pre ++ i :: post) sw s).2 i)[k]? = some (if before.2 then x else (v i before.1 x).2.1) := by
  obtain ⟨hp, hq, hd⟩ := List.nodup_append.1 hn
  have hi : i ∉ pre := fun h => hd i h i List.mem_cons_self rfl
  have hi' : i ∉ post := (List.nodup_cons.1 hq).1
  intro before
  have hbef : before = if (visit v out pre sw s).1.2 then (visit v out pre sw s).1
      else (runAll v out (((sw i).take k).map fun x => ⟨i, x⟩) (visit v out pre sw s).1.1) := by
    rw [visit_nodup v out pre hp]; exact runAll_append v out _ _ s
  simp only [view] at hx ⊢
  rw [C58_visit_append]
  by_cases h : (visit v out pre sw s).1.2 = true
  · simp only [h, if_true] at hbef ⊢
    have : before.2 = true := by rw [hbef]; exact h
    rw [if_pos this, visit_other v out pre sw s hi]; exact hx
  · simp only [h, Bool.false_eq_true, if_false] at hbef ⊢
    subst before
    simp only [hbef]
    rw [← forEach_get v out i (sw i) _ k x hx]
    simp only [visit, visit_other v out pre sw s hi]
    split
    · dsimp only; rw [setS_same]
    · rw [visit_other v out post _ _ hi', setS_same]

/-- **C58**, `visit_copy` and (for `types` = all) `visit_copy_all`: the results of the calls (until one throws, if any) are written in order
from the position of the output iterator, nothing else in the array changes, and the returned iterator is behind the last. -/
theorem C58_visit_copy (v : Visitor V σ R) (types : List (Fin n)) (h : types.Nodup ∨ Reading v) (sw : Swarm V) (s : σ) (o : Out R) :
    let rs := (results v (types.flatMap fun i => (view sw i).map fun x => ⟨i, x⟩) s).1
    let o' := (visitCopy v types sw s o).1.1.2
    o'.pos = o.pos + rs.length ∧ (∀ k (hk : k < rs.length), o'.mem (o.pos + k) = rs[k]) ∧
    (∀ a, (a < o.pos ∨ o.pos + rs.length ≤ a) → o'.mem a = o.mem a) ∧
    (visitCopy v types sw s o).1.1.1 = (results v (types.flatMap fun i => (view sw i).map fun x => ⟨i, x⟩) s).2.1 ∧
    (visitCopy v types sw s o).1.2 = (results v (types.flatMap fun i => (view sw i).map fun x => ⟨i, x⟩) s).2.2 := by
  have key : (visitCopy v types sw s o).1 =
      (((results v (types.flatMap fun i => (view sw i).map fun x => ⟨i, x⟩) s).2.1,
       (results v (types.flatMap fun i => (view sw i).map fun x => ⟨i, x⟩) s).1.foldl Out.write o),
       (results v (types.flatMap fun i => (view sw i).map fun x => ⟨i, x⟩) s).2.2) := by
    rw [visitCopy, ← runAll_copy]
    rcases h with h | h
    · rw [visit_nodup _ _ _ h]; rfl
    · rw [visit_reading (σ := σ × Out R) _ (fun i (st : σ × Out R) x => h i st.1 x)]; rfl
  intro rs o'
  have ho : o' = rs.foldl Out.write o := congrArg (fun p => p.1.2) key
  obtain ⟨h1, h2, h3⟩ := write_all rs o
  rw [ho]
  exact ⟨h1, h2, h3, congrArg (fun p => p.1.1) key, congrArg Prod.snd key⟩

/-- `visit_copy(out)` and `visit_copy_all(out)`: the identity visitor, values of the types `Types...` converted to one type `R`. -/
def identity (conv : (i : Fin n) → V i → R) : Visitor V Unit R := fun i s x => (s, x, .val (conv i x))

/-- **C58**: the values themselves are copied to the output, in order. -/
theorem C58_copy_values (conv : (i : Fin n) → V i → R) (types : List (Fin n)) (sw : Swarm V) (o : Out R) :
    let xs := types.flatMap fun i => (view sw i).map (conv i)
    let r := visitCopy (identity conv) types sw () o
    r.2 = sw ∧ r.1.2 = false ∧ r.1.1.2.pos = o.pos + xs.length ∧ (∀ k (hk : k < xs.length), r.1.1.2.mem (o.pos + k) = xs[k]) ∧
    ∀ a, (a < o.pos ∨ o.pos + xs.length ≤ a) → r.1.1.2.mem a = o.mem a := by
  have hread : Reading (identity conv) := fun _ _ _ => rfl
  have hres : ∀ l : List (Val V), (results (identity conv) l ()).1 = l.map fun x => conv x.1 x.2 := by
    intro l; induction l with
    | nil => rfl
    | cons x xs ih => simp only [results, identity, List.map_cons] at ih ⊢; rw [ih]
  have hxs : (results (identity conv) (types.flatMap fun i => (view sw i).map fun x => ⟨i, x⟩) ()).1 =
      types.flatMap fun i => (view sw i).map (conv i) := by
    rw [hres, List.map_flatMap]; simp [List.map_map, Function.comp_def]
  have hok : ∀ l : List (Val V), (results (identity conv) l ()).2.2 = false := by
    intro l; induction l with
    | nil => rfl
    | cons x xs ih => simp only [results, identity] at ih ⊢; exact ih
  obtain ⟨h1, h2, h3, _, h5⟩ := C58_visit_copy (identity conv) types (.inr hread) sw () o
  intro xs r
  refine ⟨?_, h5.trans (hok _), ?_, ?_, ?_⟩
  · exact congrArg Prod.snd (visit_reading _ (fun i st x => rfl) _ types sw _)
  · simp only [hxs] at h1; exact h1
  · intro k hk
    have := h2 k (by rw [hxs]; exact hk)
    rw [this]; exact List.getElem_of_eq hxs _
  · intro a ha; exact h3 a (by rw [hxs]; exact ha)

/-! ### C86: exceptions -/

/-- The swarm that an operation changes. -/
def Op.target : Op V → Option Nat
  | .make d | .copy d _ | .copyAssign d _ | .move d _ | .destroy d | .insert d _ _ | .insertInit d _ _ | .emplace d _ _ | .insertVariant d _
  | .erase d _ _ | .eraseRange d _ _ _ | .swap d _ => some d

/-- **C86**. An exception from a container of a swarm, at any moment of any history: no swarm disappears or appears, other swarms are as
before, and in this swarm the values of all other types, except for copy assignment. -/
theorem C86_others {w w' : World V} {op : Op V} {t i} (he : exec c t w op = some (w', some i)) :
    (∀ e, (w' e).isSome = (w e).isSome) ∧ (∀ e, op.target ≠ some e → w' e = w e) ∧
    ((∀ d s, op ≠ .copyAssign d s) → ∀ e x x', w e = some x → w' e = some x' → ∀ j, j ≠ i → view x' j = view x j) := by
  rcases exec_throws he with ⟨d, s, rfl, rfl⟩ | ⟨d, s, x, y, x', rfl, hx, hy, rfl, h1, h2⟩ | ⟨d, s, s', ho, hs, rfl, h1⟩
  · exact ⟨fun _ => rfl, fun _ _ => rfl, fun _ e x x' h h' j _ => by rw [h] at h'; cases h'; rfl⟩
  · refine ⟨fun e => ?_, fun e he => upd_ne _ _ _ (fun h => he (by rw [h]; rfl)), fun h => absurd rfl (h d s)⟩
    by_cases hd : e = d
    · subst hd; simp [hx]
    · rw [upd_ne _ _ _ hd]
  · refine ⟨fun e => ?_, fun e he => upd_ne _ _ _ (fun h => he ?_), fun _ e x x' h h' j hj => ?_⟩
    · by_cases hd : e = d
      · subst hd; simp [hs]
      · rw [upd_ne _ _ _ hd]
    · subst h
      cases op <;> cases ho <;> rfl
    · by_cases hd : e = d
      · subst hd
        rw [upd_same] at h'; cases h'
        rw [hs] at h; cases h
        exact h1 j hj
      · rw [upd_ne _ _ _ hd, h] at h'; cases h'; rfl

/-- **C86**. `insert(value)`, `emplace` and insertion of a `std::variant` have no effect if they throw, provided that this holds for the
containers (`std::vector`, `std::deque`, `std::list` and `std::set`: C++ standard); the copy constructor never has. -/
theorem C86_strong (hc : ∀ i, Strong (c i)) {w w' : World V} {op : Op V} {t i} (he : exec c t w op = some (w', some i))
    (hop : (∃ d j x, op = .insert d j x ∨ op = .emplace d j x) ∨ (∃ d x, op = .insertVariant d x) ∨ ∃ d s, op = .copy d s) : w' = w := by
  have key : ∀ {d j} {s : Swarm V} {x f}, w d = some s →
      ((c j).pushBack = some f ∨ (c j).emplaceBack = some f ∨ (c j).insertVal = some f ∨ (c j).insertEnd = some f ∨ (c j).emplaceVal = some f) →
      (some (upd w d (some (setR s j (f t (s j) x)).1), (setR s j (f t (s j) x)).2) : Option (World V × Option (Fin n))) = some (w', some i) →
      w' = w := by
    intro d j s x f hw hf h
    simp only [Option.some.injEq, Prod.mk.injEq] at h
    obtain ⟨rfl, h2⟩ := h
    rw [setR_fst, (hc j).one f hf t _ x (setR_some h2).2, setS_self]
    funext e
    by_cases hd : e = d
    · subst hd; rw [upd_same, hw]
    · rw [upd_ne _ _ _ hd]
  rcases hop with ⟨d, j, x, rfl | rfl⟩ | ⟨d, ⟨j, x⟩, rfl⟩ | ⟨d, s, rfl⟩
  · cases hw : w d with
    | none => simp [exec, hw] at he
    | some s =>
      cases hi : insert c t s j x with
      | none => simp [exec, hw, hi] at he
      | some q =>
        obtain ⟨f, hf, rfl⟩ := insert_setR hi
        simp only [exec, hw, hi, store, Option.bind_eq_bind, Option.bind_some] at he
        exact key hw hf he
  · cases hw : w d with
    | none => simp [exec, hw] at he
    | some s =>
      cases hi : emplace c t s j x with
      | none => simp [exec, hw, hi] at he
      | some q =>
        obtain ⟨f, hf, rfl⟩ := emplace_setR hi
        simp only [exec, hw, hi, store, Option.bind_eq_bind, Option.bind_some] at he
        exact key hw hf he
  · cases hw : w d with
    | none => simp [exec, hw] at he
    | some s =>
      cases hi : insert c t s j x with
      | none => simp [exec, hw, inserterVisit, hi] at he
      | some q =>
        obtain ⟨f, hf, rfl⟩ := insert_setR hi
        simp only [exec, hw, inserterVisit, hi, store, Option.bind_eq_bind, Option.bind_some] at he
        exact key hw hf he
  · rcases exec_throws he with ⟨_, _, _, rfl⟩ | ⟨_, _, _, _, _, h, _⟩ | ⟨_, _, _, h, _⟩
    · rfl
    · cases h
    · cases h

/-- **C86**. Exceptions come from containers: an operation does not report one from a container no member of which throws. So none throws if
no container does. -/
theorem C86_source {i : Fin n} (hq : Quiet (c i)) {w w' : World V} {op : Op V} {t j} (he : exec c t w op = some (w', some j)) : j ≠ i := by
  rintro rfl
  have set : ∀ {d k} {s : Swarm V} {r}, (k = j → r.2 = false) → some (store w d (setR s k r)) = some (w', some j) → False := by
    intro d k s r hr h
    simp only [store, setR, Option.some.injEq, Prod.mk.injEq] at h
    obtain ⟨_, h⟩ := h
    split at h
    · cases h; rw [hr rfl] at *; contradiction
    · cases h
  have ins : ∀ {d k x} {s : Swarm V}, ((Swarm.insert c t s k x).bind fun r => some (store w d r)) = some (w', some j) → False := by
    intro d k x s h
    simp only [Swarm.insert] at h
    split at h
    · rename_i f hf
      exact set (fun hk => by subst hk; exact hq.one f (.inl hf) _ _ _) h
    · split at h
      · rename_i f hf
        exact set (fun hk => by subst hk; exact hq.one f (.inr (.inr (.inl hf))) _ _ _) h
      · split at h
        · rename_i f hf
          exact set (fun hk => by subst hk; exact hq.one f (.inr (.inr (.inr (.inl hf)))) _ _ _) h
        · cases h
  have asg : ∀ (is : List (Fin n)) (d s : Swarm V), (assignFrom c t d s is).2 ≠ some j := by
    intro is
    induction is with
    | nil => intro d s h; cases h
    | cons k is ih =>
      intro d s
      simp only [assignFrom]
      split
      · rename_i l hl
        intro h
        cases h
        rw [hq.assign] at hl; cases hl
      · exact ih _ _
  cases op with
  | make | destroy => cases he
  | copy d s =>
    obtain ⟨x, hx, he⟩ := Option.bind_eq_some_iff.1 he
    split at he
    · rename_i k hk
      cases he
      simp only [copyCtor] at hk
      split at hk
      · rename_i k hf
        cases hk
        have := List.find?_some hf
        rw [hq.copy] at this; cases this
      · cases hk
    · cases he
  | copyAssign d s =>
    obtain ⟨x, hx, he⟩ := Option.bind_eq_some_iff.1 he
    obtain ⟨y, hy, he⟩ := Option.bind_eq_some_iff.1 he
    simp only [store, Option.some.injEq, Prod.mk.injEq] at he
    exact asg _ _ _ he.2
  | move d s =>
    obtain ⟨x, hx, he⟩ := Option.bind_eq_some_iff.1 he
    cases he
  | insert d k x =>
    obtain ⟨s, hs, he⟩ := Option.bind_eq_some_iff.1 he
    exact ins he
  | insertVariant d x =>
    obtain ⟨s, hs, he⟩ := Option.bind_eq_some_iff.1 he
    exact ins he
  | insertInit d k xs =>
    obtain ⟨s, hs, he⟩ := Option.bind_eq_some_iff.1 he
    obtain ⟨r, hr, he⟩ := Option.bind_eq_some_iff.1 he
    simp only [insertInit] at hr
    split at hr
    · rename_i f hf
      cases hr
      exact set (fun hk => by subst hk; exact hq.list f (.inl hf) _ _ _) he
    · split at hr
      · rename_i f hf
        cases hr
        exact set (fun hk => by subst hk; exact hq.list f (.inr hf) _ _ _) he
      · cases hr
  | emplace d k x =>
    obtain ⟨s, hs, he⟩ := Option.bind_eq_some_iff.1 he
    obtain ⟨r, hr, he⟩ := Option.bind_eq_some_iff.1 he
    simp only [emplace] at hr
    split at hr
    · rename_i f hf
      cases hr
      exact set (fun hk => by subst hk; exact hq.one f (.inr (.inl hf)) _ _ _) he
    · split at hr
      · rename_i f hf
        cases hr
        exact set (fun hk => by subst hk; exact hq.one f (.inr (.inr (.inr (.inr hf)))) _ _ _) he
      · cases hr
  | erase d k m =>
    obtain ⟨s, hs, he⟩ := Option.bind_eq_some_iff.1 he
    simp only [erase] at he
    split at he
    · exact set (fun _ => rfl) he
    · rename_i l hl
      exact set (fun hk => by subst hk; rw [hq.erase] at hl; cases hl) he
  | eraseRange d k b e =>
    obtain ⟨s, hs, he⟩ := Option.bind_eq_some_iff.1 he
    simp only [eraseRange] at he
    split at he
    · exact set (fun _ => rfl) he
    · rename_i l hl
      exact set (fun hk => by subst hk; rw [hq.erase] at hl; cases hl) he
  | swap d e =>
    obtain ⟨s, hs, he⟩ := Option.bind_eq_some_iff.1 he
    obtain ⟨y, hy, he⟩ := Option.bind_eq_some_iff.1 he
    cases he

/-- Containers that satisfy the hypothesis: vectors that never run out of memory. -/
example : Quiet (vec Nat) where
  one := by rintro f (h | h | h | h | h) t l x <;> cases h <;> rfl
  list := by rintro f (h | h) t l x <;> cases h; rfl
  erase _ _ _ _ := rfl
  copy _ _ := rfl
  assign _ _ _ := rfl

/-- **C86**, copy assignment, exactly: the types before the one whose container threw have the new values, those behind it the old ones. -/
theorem C86_copyAssign_partial {w w' : World V} {d s : Nat} {t i} (he : exec c t w (.copyAssign d s) = some (w', some i)) :
    ∃ x y x', w d = some x ∧ w s = some y ∧ w' d = some x' ∧ (∀ e, e ≠ d → w' e = w e) ∧
      (∀ j, j < i → view x' j = view y j) ∧ ∀ j, i < j → view x' j = view x j := by
  rcases exec_throws he with ⟨_, _, h, _⟩ | ⟨_, _, x, y, x', h, hx, hy, rfl, h1, h2⟩ | ⟨_, _, _, h, _⟩
  · cases h
  · cases h; exact ⟨x, y, x', hx, hy, upd_same _ _ _, fun e he => upd_ne _ _ _ he, h1, h2⟩
  · cases h

/-- **C86**, visits: if the call of the visitor for the value `x` at position `k` of the type `i` throws, and no call before, then it was
the last call; the values before have what the visitor wrote, `x` what the throwing call wrote, and the values after it are as they were;
no value is added or lost. -/
theorem C86_visit (v : Visitor V σ R) (out : σ → R → σ × Bool) (pre post : List (Fin n)) (i : Fin n) (hn : (pre ++ i :: post).Nodup)
    (sw : Swarm V) (s s' : σ) (k : Nat) (x : V i) (hx : (view sw i)[k]? = some x)
    (hb : runAll v out ((pre.flatMap fun j => (view sw j).map fun x => ⟨j, x⟩) ++ ((view sw i).take k).map fun x => ⟨i, x⟩) s = (s', false))
    (ht : (v i s' x).2.2 = .throws) :
    let r := visit v out (pre ++ i :: post) sw s
    r.1 = ((v i s' x).1, true) ∧ (view r.2 i)[k]? = some (v i s' x).2.1 ∧ (∀ m, k < m → (view r.2 i)[m]? = (view sw i)[m]?) ∧
    (∀ j, j ∈ post → view r.2 j = view sw j) ∧ ∀ j, count r.2 j = count sw j := by
  obtain ⟨hk, hx'⟩ := List.getElem?_eq_some_iff.1 hx
  obtain ⟨hp, hq, hd⟩ := List.nodup_append.1 hn
  have hi : i ∉ pre := fun h => hd i h i List.mem_cons_self rfl
  have hi' : i ∉ post := (List.nodup_cons.1 hq).1
  have hthrow : applyVisitor v out i s' x = (((v i s' x).1, true), (v i s' x).2.1) := by
    simp only [applyVisitor, ht]
  -- the calls up to this one
  have hup : ∀ rest, runAll v out (((pre.flatMap fun j => (view sw j).map fun x => (⟨j, x⟩ : Val V)) ++
      ((view sw i).take k).map fun x => ⟨i, x⟩) ++ ⟨i, x⟩ :: rest) s = ((v i s' x).1, true) := by
    intro rest
    rw [runAll_append, hb]
    simp only [Bool.false_eq_true, if_false]
    rw [runAll_cons]; simp [hthrow]
  have hall : ∃ rest, ((pre ++ i :: post).flatMap fun j => (view sw j).map fun x => (⟨j, x⟩ : Val V)) =
      ((pre.flatMap fun j => (view sw j).map fun x => (⟨j, x⟩ : Val V)) ++ ((view sw i).take k).map fun x => ⟨i, x⟩) ++ ⟨i, x⟩ :: rest := by
    refine ⟨(((view sw i).drop (k + 1)).map fun x => ⟨i, x⟩) ++ post.flatMap fun j => (view sw j).map fun x => ⟨j, x⟩, ?_⟩
    rw [List.flatMap_append, List.flatMap_cons]
    conv => lhs; rw [← List.take_append_drop k (view sw i), List.drop_eq_getElem_cons hk, hx']
    simp
  obtain ⟨rest, hall⟩ := hall
  have h1 : (visit v out (pre ++ i :: post) sw s).1 = ((v i s' x).1, true) := by
    rw [visit_nodup v out _ hn]; exact (congrArg (runAll v out · s) hall).trans (hup rest)
  refine ⟨h1, ?_, fun m hm => ?_, fun j hj => ?_, visit_length v out _ sw s⟩
  · have := C58_visit_writes v out pre post i hn sw s k x hx
    simp only [hb] at this
    simpa using this
  · cases hy : (view sw i)[m]? with
    | none =>
      rw [List.getElem?_eq_none_iff] at hy ⊢
      have := visit_length v out (pre ++ i :: post) sw s i
      simp only [view] at hy ⊢; omega
    | some y =>
      have hw := C58_visit_writes v out pre post i hn sw s m y hy
      have hsplit : ((view sw i).take m).map (fun x => (⟨i, x⟩ : Val V)) =
          (((view sw i).take k).map fun x => ⟨i, x⟩) ++ ⟨i, x⟩ :: (((view sw i).take m).drop (k + 1)).map fun x => ⟨i, x⟩ := by
        have hkm : k < ((view sw i).take m).length := by rw [List.length_take]; omega
        conv => lhs; rw [← List.take_append_drop k ((view sw i).take m), List.drop_eq_getElem_cons hkm]
        simp [List.take_take, Nat.min_eq_left (Nat.le_of_lt hm), hx']
      rw [hsplit, ← List.append_assoc, hup] at hw
      simpa using hw
  · -- a type behind the one of the exception
    have hj' : j ∉ pre := fun h => hd j h j (List.mem_cons_of_mem _ hj) rfl
    have hji : j ≠ i := by rintro rfl; exact hi' hj
    have hpre : (visit v out pre sw s).1.2 = false := by
      rw [visit_nodup v out pre hp]
      cases hb2 : (runAll v out (pre.flatMap fun j => (sw j).map fun x => (⟨j, x⟩ : Val V)) s).2 with
      | false => rfl
      | true =>
        rw [runAll_append] at hb
        simp only [view, hb2, if_true] at hb
        rw [hb] at hb2; cases hb2
    rw [C58_visit_append] at h1 ⊢
    simp only [hpre, Bool.false_eq_true, if_false] at h1 ⊢
    have hfor : (forEach v out i (sw i) (visit v out pre sw s).1.1).1.2 = true := by
      simp only [view] at hk hx'
      rw [forEach_run, ← List.take_append_drop k (sw i), List.drop_eq_getElem_cons hk, List.map_append, runAll_append]
      have hst : runAll v out (((sw i).take k).map fun x => ⟨i, x⟩) (visit v out pre sw s).1.1 = (s', false) := by
        rw [runAll_append] at hb
        rw [visit_nodup v out pre hp] at hpre ⊢
        simp only [view, hpre, Bool.false_eq_true, if_false] at hb
        exact hb
      rw [hst]
      simp only [Bool.false_eq_true, if_false, List.map_cons]
      rw [runAll_cons]
      simp [hx', hthrow]
    simp only [visit, view, visit_other v out pre sw s hi, hfor, if_true]
    rw [setS_ne _ _ _ hji, visit_other v out pre sw s hj']

/-! ### examples -/

theorem vec_seq (α : Type) (bad) : Seq (vec α bad) where
  pushBack f h t l x := by cases h; dsimp only; split <;> simp
  emplaceBack f h t l x := by cases h; dsimp only; split <;> simp
  insertEnd f h t l x := by cases h; dsimp only; split <;> simp
  insertVal := rfl
  emplaceVal := rfl
  insertList := rfl
  insertListEnd f h t l xs := by cases h; dsimp only; split <;> simp
  adds := by simp [vec]
  emplaces := by simp [vec]
  addsList := by simp [vec]

theorem vec_strong (α : Type) (bad) : Strong (vec α bad) where
  one f h t l x := by
    simp only [vec, Option.some.injEq, reduceCtorEq, false_or, or_false] at h
    rcases h with h | h | h <;> (subst h; dsimp only; split <;> simp)

theorem insertSorted_perm {α} (lt : α → α → Bool) (x : α) (l : List α) : (insertSorted lt x l).Perm (x :: l) := by
  induction l with
  | nil => exact .refl _
  | cons y ys ih =>
    simp only [insertSorted]; split
    · exact .refl _
    · exact (ih.cons y).trans (.swap x y ys)

/-- `std::multiset` keeps every value. -/
theorem multiset_adds {α} (lt : α → α → Bool) : Adds (fun l x => x :: l) (multiset lt) where
  perm l l' x h := h.cons x
  one f h t l x _ := by
    simp only [multiset, Option.some.injEq, reduceCtorEq, false_or] at h
    rcases h with h | h | h <;> (subst h; exact insertSorted_perm lt x l)
  list f h t l xs _ := by
    simp only [multiset, Option.some.injEq, reduceCtorEq, or_false] at h
    subst h
    have : ∀ (xs l l' : List α), l.Perm l' → (xs.foldl (fun l x => insertSorted lt x l) l).Perm (xs.foldl (fun l x => x :: l) l') := by
      intro xs; induction xs with
      | nil => intro l l' p; exact p
      | cons x xs ih => intro l l' p; exact ih _ _ ((insertSorted_perm lt x l).trans (p.cons x))
    exact this xs l l (.refl _)

/-- `std::set` keeps one value of each equivalence class: the first. -/
theorem set_adds {α} (lt : α → α → Bool) (bad) : Adds (addUnique fun x y => !lt x y && !lt y x) (set lt bad) := by
  have hperm : ∀ l l' x, l.Perm l' → (addUnique (fun x y => !lt x y && !lt y x) l x).Perm (addUnique (fun x y => !lt x y && !lt y x) l' x) := by
    intro l l' x h
    have : l.any (fun y => !lt x y && !lt y x) = l'.any (fun y => !lt x y && !lt y x) := by
      rw [Bool.eq_iff_iff]; simp only [List.any_eq_true, h.mem_iff]
    simp only [addUnique, this]; split
    · exact h
    · exact h.cons x
  have hone : ∀ (l : List α) (x : α), (if l.any (fun y => !lt x y && !lt y x) then l else insertSorted lt x l).Perm (addUnique (fun x y => !lt x y && !lt y x) l x) := by
    intro l x; simp only [addUnique]; split
    · exact .refl _
    · exact insertSorted_perm lt x l
  refine ⟨hperm, ?_, ?_⟩
  · intro f h t l x hf
    simp only [set, Option.some.injEq, reduceCtorEq, false_or] at h
    have : f t l x = if bad t then (l, true) else (if l.any (fun y => !lt x y && !lt y x) then l else insertSorted lt x l, false) := by
      rcases h with h | h <;> (subst h; rfl)
    rw [this] at hf ⊢
    split at hf
    · cases hf
    · rename_i hb; simp only [hb, Bool.false_eq_true, if_false]; exact hone l x
  · intro f h t l xs _
    simp only [set, Option.some.injEq, reduceCtorEq, or_false] at h
    subst h
    have : ∀ (xs l l' : List α), l.Perm l' →
        (xs.foldl (fun (l : List α) (x : α) => if l.any (fun y => !lt x y && !lt y x) then l else insertSorted lt x l) l).Perm
          (xs.foldl (addUnique fun x y => !lt x y && !lt y x) l') := by
      intro xs; induction xs with
      | nil => intro l l' p; exact p
      | cons x xs ih => intro l l' p; exact ih _ _ ((hone l x).trans (hperm _ _ x p))
    exact this xs l l (.refl _)

theorem set_strong {α} (lt : α → α → Bool) (bad) : Strong (set lt bad) where
  one f h t l x := by
    simp only [set, Option.some.injEq, reduceCtorEq, false_or] at h
    rcases h with h | h <;> (subst h; dsimp only; split <;> simp)

/-- `variant_swarm<int, bool>`. -/
abbrev exV : Fin 2 → Type := fun i => if i = 0 then Nat else Bool

instance : ∀ i : Fin 2, DecidableEq (exV i) := fun i => by unfold exV; split <;> infer_instance

/-- Vectors for which memory runs out at the moment 9. -/
abbrev exC : (i : Fin 2) → Cont (exV i) := fun i => vec (exV i) (fun t => t == 9)

/-- The hypotheses of C57 are met, by a history whose vector of variants is `true, 7, 8, 9, false`: insert
5, true, 7; an insertion that throws; erase 5; insert {8, 9}; insert false. -/
example : ∃ w S sw, Reach exC w S ∧ w 0 = some sw ∧
    S 0 = some [⟨1, true⟩, ⟨0, (7 : Nat)⟩, ⟨0, (8 : Nat)⟩, ⟨0, (9 : Nat)⟩, ⟨1, false⟩] ∧ size sw = 5 := by
  have h0 : Reach exC _ _ := .init
  have h1 := h0.step (op := .make 0) (t := 0) trivial rfl
  have h2 := h1.step (op := .insert 0 0 (5 : Nat)) (t := 1) rfl rfl
  have h3 := h2.step (op := .emplace 0 1 true) (t := 2) rfl rfl
  have h4 := h3.step (op := .insertVariant 0 ⟨0, (7 : Nat)⟩) (t := 3) rfl rfl
  have h5 := h4.throws (op := .insert 0 0 (6 : Nat)) (t := 9) (i := 0) rfl rfl
    (S' := upd _ 0 (some [⟨0, (5 : Nat)⟩, ⟨1, true⟩, ⟨0, (7 : Nat)⟩])) ⟨0, _, _, rfl, rfl, rfl, rfl, fun _ _ => rfl⟩
  have h6 := h5.step (op := .erase 0 0 0) (t := 10) ⟨_, rfl, by decide⟩ rfl
  have h7 := h6.step (op := .insertInit 0 0 ([8, 9] : List Nat)) (t := 11) rfl rfl
  have h8 := h7.step (op := .insert 0 1 false) (t := 12) rfl rfl
  exact ⟨_, _, _, h8, rfl, rfl, rfl⟩

/-- For two multisets: 5, 3, 4 are kept in the order 3, 4, 5; the one at position 1 is erased. -/
example : ∃ w T sw, BagReach (V := fun _ : Fin 2 => Nat) (fun _ => multiset (fun a b => decide (a < b))) (fun _ l x => x :: l) w T ∧
    w 0 = some sw ∧ view sw 0 = [3, 5] ∧ (∃ t, T 0 = some t ∧ t 0 = [3, 5]) := by
  refine ⟨_, upd (fun _ => none) 0 (some fun i => if i = 0 then [3, 5] else []), _, .step (op := .erase 0 0 1) (t := 0)
    (T := upd (fun _ => none) 0 (some fun i => if i = 0 then [4, 3, 5] else []))
    (.step (op := .insertInit 0 0 [5, 3, 4]) (t := 0) (.step (op := .make 0) (t := 0) .init rfl rfl) ⟨fun _ => [], fun i => if i = 0 then [4, 3, 5] else [], rfl, ?_, ?_, ?_⟩ rfl)
    ⟨_, fun i => if i = 0 then [3, 5] else [], _, 4, rfl, ?_, rfl, rfl, ?_, ?_⟩ rfl, rfl, by decide +kernel, ⟨_, rfl, rfl⟩⟩
  · funext k; simp only [upd]; split <;> rfl
  · rfl
  · intro j hj; simp [hj]
  · funext k; simp only [upd]; split <;> rfl
  · exact .refl _
  · intro j hj; simp [hj]

/-- `visit<bool, int, bool>` of a swarm with 7, 8 and true: the calls. -/
example : (visit (V := exV) recorder (fun s _ => (s, false)) [1, 0, 1] (fun i => if h : i = 0 then h ▸ ([7, 8] : List Nat) else by
    have : i = 1 := by omega
    subst this; exact [true]) []).1 =
    ([⟨1, true⟩, ⟨0, (7 : Nat)⟩, ⟨0, (8 : Nat)⟩, ⟨1, true⟩], false) := rfl

/-- A visitor whose results are ignored is called for all values. -/
example : (visitIgnore (V := fun _ : Fin 2 => Nat) (fun _ (s : List Nat) x => (s ++ [x], x, .val x)) [1, 0] (fun i => if i = 0 then [7, 8] else [5]) []).1 =
    ([5, 7, 8], false) := rfl

/-- The hypotheses of `C86_strong` are met: an insertion that throws. -/
example : ∃ w w' S, Reach exC w S ∧ exec exC 9 w (.insert 0 0 (6 : Nat)) = some (w', some 0) ∧ (w 0).isSome :=
  ⟨_, _, _, (Reach.init (c := exC)).step (op := .make 0) (t := 0) trivial rfl, rfl, rfl⟩

/-- Vectors of which the second throws at the moment 9 + 1. -/
abbrev exD : (i : Fin 2) → Cont Nat := fun _ => vec Nat (fun t => t == 10)

/-- **C86** does not hold for copy assignment: `a = b` throws, and `a` has neither its own values nor those of `b`. -/
theorem C86_copyAssign_fails : ∃ (w w' : World fun _ : Fin 2 => Nat) (S : SWorld fun _ : Fin 2 => Nat) (x y x' : Swarm fun _ : Fin 2 => Nat) (t : Nat) (i : Fin 2),
    Reach exD w S ∧ exec exD t w (.copyAssign 0 1) = some (w', some i) ∧ w 0 = some x ∧ w 1 = some y ∧ w' 0 = some x' ∧
    view x 0 ++ view x 1 = [1, 2] ∧ view y 0 ++ view y 1 = [3, 4] ∧ view x' 0 = [3] ∧ view x' 0 ≠ view x 0 ∧ size x' = 2 ∧ x' ≠ x := by
  have h0 : Reach exD _ _ := .init
  have h1 := h0.step (op := .make 0) (t := 0) trivial rfl
  have h2 := h1.step (op := .insert 0 0 1) (t := 0) rfl rfl
  have h3 := h2.step (op := .insert 0 1 2) (t := 0) rfl rfl
  have h4 := h3.step (op := .make 1) (t := 0) trivial rfl
  have h5 := h4.step (op := .insert 1 0 3) (t := 0) rfl rfl
  have h6 := h5.step (op := .insert 1 1 4) (t := 0) rfl rfl
  refine ⟨_, _, _, _, _, _, 9, 1, h6, rfl, rfl, rfl, rfl, rfl, rfl, rfl, by decide, rfl, fun h => ?_⟩
  have := congrFun h 0
  revert this; decide

/-- A visitor that adds 1 to each value and throws for 8 after writing 0 there. -/
def exThrow : Visitor (fun _ : Fin 2 => Nat) Nat Unit := fun _ s x => if x = 8 then (s, 0, .throws) else (s + 1, x + 1, .void)

/-- The hypotheses of `C86_visit` are met. -/
example : ∃ sw : Swarm fun _ : Fin 2 => Nat, (view sw 0)[1]? = some 8 ∧
    runAll exThrow (fun s _ => (s, false)) ((([] : List (Fin 2)).flatMap fun j => (view sw j).map fun x => ⟨j, x⟩) ++
      ((view sw 0).take 1).map fun x => ⟨0, x⟩) 0 = (1, false) ∧ (exThrow 0 1 8).2.2 = .throws ∧
    view (visit exThrow (fun s _ => (s, false)) [0, 1] sw 0).2 0 = [8, 0, 9] :=
  ⟨fun i => if i = 0 then [7, 8, 9] else [5], rfl, rfl, rfl, rfl⟩

end AnyAny.Swarm
