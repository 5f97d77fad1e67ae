import Verif.Props.Dpv
/-
data_parallel_vector: C52, the state left by an operation that throws in a given field.
-/
namespace AnyAny.Dpv

variable {n : Nat} {V : Fin n → Type} {env : Env V} {w : World V} {S : SVecs V}

/-- The fold expression stops at the column `k`, the operation on which throws: the columns before it are done, those after it untouched. -/
theorem forCols_throw (f : (j : Fin n) → Nat → Col (V j) → Col (V j)) (left) {g} (pre : List (Fin n)) (k : Fin n) (post : List (Fin n))
    (hnd : (pre ++ k :: post).Nodup) (p : Parts V) (t : Nat) (h0 : ∀ i, i < pre.length → env.throws (t + i) = none)
    (h1 : env.throws (t + pre.length) = some g) :
    ∃ q t', forCols env f left (pre ++ k :: post) p t = (q, t', true) ∧ (∀ j ∈ pre, ∃ u, q j = f j u (p j)) ∧ q k = left g k (p k) ∧
      ∀ j, j ∉ pre → j ≠ k → q j = p j := by
  induction pre generalizing p t with
  | nil =>
    refine ⟨setP p k (left g k (p k)), t + 1, ?_, fun j hj => by simp at hj, setP_same _ _ _, fun j _ hj => setP_other _ _ hj⟩
    have h1' : env.throws t = some g := h1
    simp only [List.nil_append, forCols, h1']
  | cons a pre ih =>
    obtain ⟨ha, hnd'⟩ := List.nodup_cons.1 (show (a :: (pre ++ k :: post)).Nodup from hnd)
    have ha' : a ∉ pre ∧ k ≠ a := ⟨fun h => ha (by simp [h]), fun h => ha (by simp [h])⟩
    obtain ⟨q, t', e, e1, e2, e3⟩ := ih hnd' (setP p a (f a t (p a))) (t + 1)
      (fun i hi => by rw [Nat.add_assoc, Nat.add_comm 1 i]; exact h0 (i + 1) (by simp; omega))
      (by rw [Nat.add_assoc, Nat.add_comm 1]; exact h1)
    have ht : env.throws t = none := h0 0 (by simp)
    refine ⟨q, t', by simp only [List.cons_append, forCols, ht]; exact e, fun j hj => ?_, by rw [e2, setP_other _ _ ha'.2], fun j hj hk => ?_⟩
    · rcases List.mem_cons.1 hj with rfl | hj
      · exact ⟨t, by rw [e3 j ha'.1 ha'.2.symm, setP_same]⟩
      · obtain ⟨u, hu⟩ := e1 j hj
        have hne : j ≠ a := fun he => ha'.1 (he ▸ hj)
        exact ⟨u, by rw [hu, setP_other _ _ hne]⟩
    · have hj' : j ≠ a ∧ j ∉ pre := by simpa using hj
      rw [e3 j hj'.2 hk, setP_other _ _ hj'.1]

/-- The columns in order, around the column `k`. -/
theorem finRange_split (k : Fin n) : ∃ pre post, List.finRange n = pre ++ k :: post ∧ pre.length = k.val ∧ ∀ j, j ∈ pre ↔ j < k := by
  have hk : k.val < (List.finRange n).length := by simp
  refine ⟨(List.finRange n).take k.val, (List.finRange n).drop (k.val + 1), ?_, by simp, fun j => ?_⟩
  · conv => lhs; rw [← List.take_append_drop k.val (List.finRange n)]
    rw [List.drop_eq_getElem_cons hk]; simp
  · rw [List.mem_take_iff_getElem]
    constructor
    · rintro ⟨i, hi, rfl⟩
      simp only [List.getElem_finRange, Fin.lt_def]
      simp at hi ⊢; omega
    · intro hj
      exact ⟨j.val, by have := j.isLt; simp; exact hj, by simp⟩

theorem apply_throw {d : Nat} {p : Parts V} (hp : w.vecs d = some p) (f : (j : Fin n) → Nat → Col (V j) → Col (V j)) (left) {g} (k : Fin n)
    (h0 : ∀ i, i < k.val → env.throws (w.tick + i) = none) (h1 : env.throws (w.tick + k.val) = some g) :
    ∃ w' q, apply env d f left w = .exn w' ∧ w'.vecs d = some q ∧ (∀ j, j < k → ∃ u, q j = f j u (p j)) ∧ q k = left g k (p k) ∧
      ∀ j, k < j → q j = p j := by
  obtain ⟨pre, post, e, hl, hm⟩ := finRange_split k
  obtain ⟨q, t', e0, e1, e2, e3⟩ := forCols_throw (env := env) f left pre k post (e ▸ List.nodup_finRange n) p w.tick
    (fun i hi => h0 i (hl ▸ hi)) (hl.symm ▸ h1)
  refine ⟨⟨upd w.vecs d (some q), t'⟩, q, ?_, upd_same _ _ _, fun j hj => e1 j ((hm j).2 hj), e2, fun j hj => e3 j ?_ ?_⟩
  · simp only [apply, hp, e, e0]; rfl
  · rw [hm]; exact fun h => by simp only [Fin.lt_def] at h hj; omega
  · exact fun h => by subst h; simp only [Fin.lt_def] at hj; omega

/-- Members whose operation on one column has the strong guarantee (`std::vector` with a copyable type: `emplace_back`, `resize`). -/
def strongColumn : Op V → Bool
  | .emplaceBack .. | .pushBack .. | .resize .. | .resizeVal .. => true
  | _ => false

/-- The exact state after an exception: if the operation on field `k` throws, the operation is complete for the fields before `k`, and has not
happened for the fields after it; field `k` itself is as it was, or has the contents `std::vector` leaves.
(`hu`: `resize(sz)` for types without default member initialisers, see C66.) -/
theorem C52_throws_exact (h : Reach env w S) {op : Op V} (L : Legal S op) {d : Nat} (hop : resizing op = some d)
    (hu : usesDefault op = true → env.recDefault = env.fieldDefault) {xs ys : List (Rec V)}
    (hd : S d = some xs) (hd' : specStep env S op d = some ys) (k : Fin n) {g} (h0 : ∀ i, i < k.val → env.throws (w.tick + i) = none)
    (h1 : env.throws (w.tick + k.val) = some g) :
    ∃ w', exec env op w = .exn w' ∧ (∀ j, j < k → view d j w' = .ok (ys.map (· j)) w') ∧ (∀ j, k < j → view d j w' = .ok (xs.map (· j)) w') ∧
      view d k w' = .ok (if strongColumn op then xs.map (· k) else g.1 k (xs.map (· k))) w' := by
  have hn : 0 < n := Nat.lt_of_le_of_lt (Nat.zero_le _) k.isLt
  have R := h.rep hn
  obtain ⟨p, hp, gp⟩ := R.some d xs hd
  have hdat := gp.data
  have hlen := gp.len
  let P : World V → Parts V → List (V k) → Prop := fun w' q c =>
    w'.vecs d = some q ∧ (∀ j, j < k → (q j).data = ys.map (· j)) ∧ (∀ j, k < j → (q j).data = xs.map (· j)) ∧ (q k).data = c
  have done : ∀ {α : Type} (m' : M V α) (c : List (V k)), (∃ w' q, m' w = .exn w' ∧ P w' q c) → ∀ f : α → M V (Out V),
      ∃ w', (m' >>= f) w = .exn w' ∧ (∀ j, j < k → view d j w' = .ok (ys.map (· j)) w') ∧ (∀ j, k < j → view d j w' = .ok (xs.map (· j)) w') ∧
        view d k w' = .ok c w' := by
    rintro α m' c ⟨w', q, e, e1, e2, e3, e4⟩ f
    have hv : ∀ j, view d j w' = .ok (q j).data w' := fun j => by simp [view, bind, M.bind, get, e1, pure, M.pure]
    exact ⟨w', by rw [bind_apply, e], fun j hj => by rw [hv, e2 j hj], fun j hj => by rw [hv, e3 j hj], by rw [hv, e4]⟩
  have col : ∀ (f : (j : Fin n) → Nat → Col (V j) → Col (V j)) (left), (∀ j t, (f j t (p j)).data = ys.map (· j)) →
      ∃ w' q, apply env d f left w = .exn w' ∧ P w' q (left g k (p k)).data := by
    intro f left hf
    obtain ⟨w', q, e, e1, e2, e3, e4⟩ := apply_throw hp f left k h0 h1
    exact ⟨w', q, e, e1, fun j hj => by obtain ⟨u, hu⟩ := e2 j hj; rw [hu, hf], fun j hj => by rw [e4 j hj, hdat], by rw [e3]⟩
  have hs : (leftStrong g k (p k)).data = xs.map (· k) := hdat k
  have hb : (leftBasic g k (p k)).data = g.1 k (xs.map (· k)) := by simp only [leftBasic, hdat]
  have iter : ∀ {i : Nat}, i ≤ xs.length → iteratorAt d i w = .ok () w := by
    intro i hi
    have := iteratorAt_tri (E := fun _ => False) hn hp gp hi
    unfold Tri at this
    cases he : iteratorAt d i w with
    | ok a w1 => rw [he] at this; rw [← this]
    | exn w1 => rw [he] at this; exact this.elim
    | ub => rw [he] at this; exact this.elim
  have ins : ∀ {α : Type} {i : Nat} (vs : (j : Fin n) → List (V j)) (m : M V α), i ≤ xs.length →
      (∀ j t, (Col.insert env.grow i (vs j) t (p j)).data = ys.map (· j)) →
      ∃ w' q, (do iteratorAt d i; insertCols env d i vs; m : M V α) w = .exn w' ∧ P w' q (g.1 k (xs.map (· k))) := by
    intro α i vs m hi hf
    obtain ⟨w', q, e1, e2⟩ := col (fun j t c => Col.insert env.grow i (vs j) t c) leftBasic hf
    rw [hb] at e2
    refine ⟨w', q, ?_, e2⟩
    have hpos : positions d i w = .ok () w := by
      have : ∀ j, i ≤ (p j).data.length := fun j => by rw [hlen]; exact hi
      simp [positions, bind, M.bind, get, hp, this, pure, M.pure]
    rw [bind_apply, iter hi]; dsimp only
    have : insertCols env d i vs w = .exn w' := by unfold insertCols; rw [bind_apply, hpos]; exact e1
    rw [bind_apply, this]
  cases op with
  | emplaceBack d' v =>
    cases hop
    simp only [specStep, upd_same, hd, Option.map_some, Option.some.injEq] at hd'
    subst hd'
    exact done _ _ (hs ▸ col _ leftStrong (fun j t => by simp [Col.pushBack, hdat])) _
  | pushBack d' v =>
    cases hop
    simp only [specStep, upd_same, hd, Option.map_some, Option.some.injEq] at hd'
    subst hd'
    exact done _ _ (hs ▸ col _ leftStrong (fun j t => by simp [Col.pushBack, hdat])) _
  | emplace d' i v =>
    cases hop
    simp only [specStep, upd_same, hd, Option.map_some, Option.some.injEq] at hd'
    subst hd'
    obtain ⟨xs', hx, hi⟩ := L
    rw [hd] at hx; cases hx
    exact done _ _ (ins _ _ hi (fun j t => by simp [Col.insert, hdat, List.map_take, List.map_drop])) _
  | insertVal d' i v =>
    cases hop
    simp only [specStep, upd_same, hd, Option.map_some, Option.some.injEq] at hd'
    subst hd'
    obtain ⟨xs', hx, hi⟩ := L
    rw [hd] at hx; cases hx
    exact done _ _ (ins _ _ hi (fun j t => by simp [Col.insert, hdat, List.map_take, List.map_drop])) _
  | insertCount d' i c v =>
    cases hop
    simp only [specStep, upd_same, hd, Option.map_some, Option.some.injEq] at hd'
    subst hd'
    obtain ⟨xs', hx, hi⟩ := L
    rw [hd] at hx; cases hx
    exact done _ _ (ins _ _ hi (fun j t => by simp [Col.insert, hdat, List.map_take, List.map_drop])) _
  | erase d' i =>
    cases hop
    simp only [specStep, upd_same, hd, Option.map_some, Option.some.injEq] at hd'
    subst hd'
    obtain ⟨xs', hx, hi⟩ := L
    rw [hd] at hx; cases hx
    refine done _ _ ?_ _
    obtain ⟨w', q, e1, e2⟩ := hb ▸ col (fun _ _ c => Col.erase i c) leftBasic (fun j t => by
      simp only [Col.erase, hdat, List.eraseIdx_eq_take_drop_succ, List.map_append, List.map_take, List.map_drop])
    refine ⟨w', q, ?_, e2⟩
    have hsz : get d w = .ok p w := by simp [get, hp]
    simp only [erase]
    rw [bind_apply, hsz]; dsimp only
    rw [if_pos (fun j => by rw [hlen]; exact hi), bind_apply, e1]
  | resize d' c =>
    cases hop
    simp only [specStep, upd_same, hd, Option.map_some, Option.some.injEq] at hd'
    subst hd'
    exact done _ _ (hs ▸ col _ leftStrong (fun j t => by simp [Col.resize, hdat, List.map_take, hu rfl])) _
  | resizeVal d' c v =>
    cases hop
    simp only [specStep, upd_same, hd, Option.map_some, Option.some.injEq] at hd'
    subst hd'
    exact done _ _ (hs ▸ col _ leftStrong (fun j t => by simp [Col.resize, hdat, List.map_take])) _
  | copyAssign d' s =>
    cases hop
    simp only [specStep, upd_same] at hd'
    obtain ⟨q, hq, gq⟩ := R.some s ys hd'
    refine done _ _ ?_ _
    obtain ⟨w', p', e1, e2⟩ := hb ▸ col (fun j t c => if d = s then c else Col.assign env.grow (q j).data t c) leftBasic
      (fun j t => by
        by_cases hc : d = s
        · subst hc; rw [hd] at hd'; cases hd'; simp [hdat]
        · simp [hc, Col.assign, gq.data])
    refine ⟨w', p', ?_, e2⟩
    simp only [copyAssign]
    rw [bind_apply]; simp only [get, hq]; exact e1
  | _ => cases hop

/-- The exact condition of C52 after an exception: an operation that was to change the size and throws in field `k` leaves all spans with the same
length if and only if no field before `k` was changed, or field `k` was left with the new length, and no field after `k` remains, or field `k` was
left with the old length. -/
theorem C52_exact (h : Reach env w S) {op : Op V} (L : Legal S op) {d : Nat} (hop : resizing op = some d)
    (hu : usesDefault op = true → env.recDefault = env.fieldDefault) {xs ys : List (Rec V)}
    (hd : S d = some xs) (hd' : specStep env S op d = some ys) (k : Fin n) {g} (h0 : ∀ i, i < k.val → env.throws (w.tick + i) = none)
    (h1 : env.throws (w.tick + k.val) = some g) :
    ∃ w' l, exec env op w = .exn w' ∧ view d k w' = .ok l w' ∧
      ((∀ j j' a b, view d j w' = .ok a w' → view d j' w' = .ok b w' → a.length = b.length) ↔
        (k.val = 0 ∨ l.length = ys.length) ∧ (k.val + 1 = n ∨ l.length = xs.length)) := by
  obtain ⟨w', e, e1, e2, e3⟩ := C52_throws_exact h L hop hu hd hd' k h0 h1
  refine ⟨w', _, e, e3, fun H => ⟨?_, ?_⟩, fun ⟨H1, H2⟩ => ?_⟩
  · by_cases hk : k.val = 0
    · exact .inl hk
    · refine .inr ?_
      have hlt : (⟨0, by omega⟩ : Fin n) < k := by simp only [Fin.lt_def]; omega
      have := H k ⟨0, by omega⟩ _ _ e3 (e1 _ hlt)
      simpa using this
  · by_cases hk : k.val + 1 = n
    · exact .inl hk
    · refine .inr ?_
      have hlt : k < (⟨k.val + 1, by omega⟩ : Fin n) := by simp only [Fin.lt_def]; omega
      have := H k ⟨k.val + 1, by omega⟩ _ _ e3 (e2 _ hlt)
      simpa using this
  · generalize (if strongColumn op = true then xs.map (· k) else g.1 k (xs.map (· k))) = l at e3 H1 H2
    have key : ∀ j a, view d j w' = .ok a w' → a.length = l.length := by
      intro j a ha
      rcases Nat.lt_trichotomy j.val k.val with hlt | heq | hgt
      · rw [e1 j hlt] at ha
        injection ha with ha; subst ha
        simp only [List.length_map]
        rcases H1 with H1 | H1
        · omega
        · exact H1.symm
      · have : j = k := Fin.ext heq
        subst this
        rw [e3] at ha
        injection ha with ha; rw [ha]
      · rw [e2 j hgt] at ha
        injection ha with ha; subst ha
        simp only [List.length_map]
        rcases H2 with H2 | H2
        · have := j.isLt; omega
        · exact H2.symm
    exact fun j j' a b ha hb => (key j a ha).trans (key j' b hb).symm

/-- In particular for `push_back`: the spans keep equal lengths exactly if the first field throws, and then nothing has changed. -/
theorem C52_push_back_exact (h : Reach env w S) {d : Nat} {xs : List (Rec V)} (hd : S d = some xs) (v : Rec V) (k : Fin n) {g}
    (h0 : ∀ i, i < k.val → env.throws (w.tick + i) = none) (h1 : env.throws (w.tick + k.val) = some g) :
    ∃ w', exec env (.pushBack d v) w = .exn w' ∧
      (∀ j, view d j w' = .ok (xs.map (· j) ++ if j < k then [v j] else []) w') ∧
      ((∀ j j' a b, view d j w' = .ok a w' → view d j' w' = .ok b w' → a.length = b.length) ↔ k.val = 0) := by
  have L : Legal S (.pushBack d v) := by simp [Legal, hd]
  have hd' : specStep env S (.pushBack d v) d = some (xs ++ [v]) := by simp [specStep, upd_same, hd]
  obtain ⟨w', e, e1, e2, e3⟩ := C52_throws_exact h L rfl (fun h => by cases h) hd hd' k h0 h1
  obtain ⟨w2, l, f, f1, f2⟩ := C52_exact h L rfl (fun h => by cases h) hd hd' k h0 h1
  rw [e] at f; injection f with f; subst f
  rw [e3] at f1; injection f1 with f1; subst f1
  refine ⟨w', e, fun j => ?_, f2.trans ?_⟩
  · rcases Nat.lt_trichotomy j.val k.val with hlt | heq | hgt
    · rw [e1 j hlt, if_pos (show j < k from hlt)]; simp
    · have : j = k := Fin.ext heq
      subst this
      rw [e3, if_neg (show ¬ j < j from Nat.lt_irrefl _)]; simp [strongColumn]
    · rw [e2 j hgt, if_neg (show ¬ j < k from Nat.not_lt.2 (Nat.le_of_lt hgt))]; simp
  · simp only [strongColumn, if_true, List.length_map, List.length_append, List.length_cons, List.length_nil]
    constructor
    · rintro ⟨h | h, _⟩
      · exact h
      · omega
    · exact fun h => ⟨.inl h, .inr trivial⟩

/-- Such a state: an empty container of records of an `int` and a `string`. If the allocation for the string throws, the spans differ. -/
example : ∃ w, Reach (exEnv fun t => t == 1) w (upd (fun _ => none) 0 (some [])) ∧ ∃ w', exec (exEnv fun t => t == 1) (.pushBack 0 (exRec 1 "a")) w = .exn w' ∧
    ¬ ∀ j j' a b, view 0 j w' = .ok a w' → view 0 j' w' = .ok b w' → a.length = b.length := by
  have h : Reach (exEnv fun t => t == 1) _ _ := Reach.step (Reach.init) (op := .defaultCtor 0) rfl (fun h => (by cases h)) rfl
  obtain ⟨w', e, _, e2⟩ := C52_push_back_exact h (d := 0) (xs := []) rfl (exRec 1 "a") 1 (fun i hi => by
    have : i = 0 := by simp at hi; omega
    subst this; rfl) rfl
  exact ⟨_, h, w', e, fun hc => by have := e2.1 hc; simp at this⟩

/-! ### insertion of a range at the end -/

/-- No operation throws: all columns are done. -/
theorem forCols_done (f : (j : Fin n) → Nat → Col (V j) → Col (V j)) (left) (js : List (Fin n)) (hnd : js.Nodup) (p : Parts V) (t : Nat)
    (h0 : ∀ i, i < js.length → env.throws (t + i) = none) :
    ∃ q, forCols env f left js p t = (q, t + js.length, false) ∧ (∀ j ∈ js, ∃ u, q j = f j u (p j)) ∧ ∀ j, j ∉ js → q j = p j := by
  induction js generalizing p t with
  | nil => exact ⟨p, rfl, fun j hj => by simp at hj, fun _ _ => rfl⟩
  | cons a js ih =>
    obtain ⟨ha, hnd'⟩ := List.nodup_cons.1 hnd
    obtain ⟨q, e, e1, e2⟩ := ih hnd' (setP p a (f a t (p a))) (t + 1)
      (fun i hi => by rw [Nat.add_assoc, Nat.add_comm 1 i]; exact h0 (i + 1) (by simp; omega))
    have ht : env.throws t = none := h0 0 (by simp)
    refine ⟨q, ?_, fun j hj => ?_, fun j hj => ?_⟩
    · simp only [forCols, ht, e, List.length_cons]
      rw [Nat.add_assoc, Nat.add_comm 1]
    · rcases List.mem_cons.1 hj with rfl | hj
      · exact ⟨t, by rw [e2 j ha, setP_same]⟩
      · obtain ⟨u, hu⟩ := e1 j hj
        have hne : j ≠ a := fun he => ha (he ▸ hj)
        exact ⟨u, by rw [hu, setP_other _ _ hne]⟩
    · have hj' : j ≠ a ∧ j ∉ js := by simpa using hj
      rw [e2 j hj'.2, setP_other _ _ hj'.1]

theorem emplaceBackAll_throw {d : Nat} {g} (k : Fin n) (vs : List (Rec V)) (e : Nat) (he : e < vs.length) {p : Parts V} (w : World V)
    (hp : w.vecs d = some p) (h0 : ∀ i, i < e * n + k.val → env.throws (w.tick + i) = none)
    (h1 : env.throws (w.tick + (e * n + k.val)) = some g) :
    ∃ w' q, emplaceBackAll env d vs w = .exn w' ∧ w'.vecs d = some q ∧
      ∀ j, (q j).data = (p j).data ++ (vs.take (if j < k then e + 1 else e)).map (· j) := by
  induction vs generalizing e p w with
  | nil => simp at he
  | cons v vs ih =>
    cases e with
    | zero =>
      obtain ⟨w', q, e0, e1, e2, e3, e4⟩ := apply_throw hp (fun j t c => Col.pushBack env.grow (v j) t c) leftStrong k
        (fun i hi => h0 i (by omega)) (by simpa using h1)
      refine ⟨w', q, ?_, e1, fun j => ?_⟩
      · unfold emplaceBackAll emplaceBack
        rw [bind_apply, e0]
      · rcases Nat.lt_trichotomy j.val k.val with hlt | heq | hgt
        · obtain ⟨u, hu⟩ := e2 j hlt
          rw [hu, if_pos (show j < k from hlt)]
          simp [Col.pushBack]
        · have : j = k := Fin.ext heq
          subst this
          rw [e3, if_neg (show ¬ j < j from Nat.lt_irrefl _)]
          simp [leftStrong]
        · rw [e4 j hgt, if_neg (show ¬ j < k from Nat.not_lt.2 (Nat.le_of_lt hgt))]
          simp
    | succ e =>
      have hmul : (e + 1) * n = n + e * n := by rw [Nat.add_mul, Nat.one_mul, Nat.add_comm]
      obtain ⟨q, e0, e1, _⟩ := forCols_done (env := env) (fun j t c => Col.pushBack env.grow (v j) t c) leftStrong (List.finRange n)
        (List.nodup_finRange n) p w.tick (fun i hi => h0 i (by simp at hi; omega))
      have hap : emplaceBack env d v w = .ok () ⟨upd w.vecs d (some q), w.tick + n⟩ := by
        simp only [emplaceBack, apply, hp, e0, List.length_finRange]; rfl
      obtain ⟨w', q', f0, f1, f2⟩ := ih e (by simpa using he) ⟨upd w.vecs d (some q), w.tick + n⟩ (upd_same _ _ _)
        (fun i hi => by
          show env.throws (w.tick + n + i) = none
          rw [Nat.add_assoc]; exact h0 (n + i) (by omega))
        (by
          show env.throws (w.tick + n + (e * n + k.val)) = some g
          rw [Nat.add_assoc, ← Nat.add_assoc n, ← hmul]; exact h1)
      refine ⟨w', q', ?_, f1, fun j => ?_⟩
      · unfold emplaceBackAll
        rw [bind_apply, hap]
        exact f0
      · obtain ⟨u, hu⟩ := e1 j (List.mem_finRange j)
        rw [f2 j, hu]
        split <;> simp [Col.pushBack]

/-- `insert(end(), first, last)` that throws for the field `k` of the element number `e`: the elements before it stay in the container, and so do the
fields before `k` of the element itself. The spans have equal lengths exactly if the first field threw. -/
theorem C52_insert_end_exact (h : Reach env w S) {d : Nat} {xs : List (Rec V)} (hd : S d = some xs) (vs : List (Rec V)) (ra : Bool) (e : Nat)
    (he : e < vs.length) (k : Fin n) {g} (h0 : ∀ i, i < e * n + k.val → env.throws (w.tick + i) = none)
    (h1 : env.throws (w.tick + (e * n + k.val)) = some g) :
    ∃ w', exec env (.insertRange d xs.length vs ra) w = .exn w' ∧
      (∀ j, view d j w' = .ok (xs.map (· j) ++ (vs.take (if j < k then e + 1 else e)).map (· j)) w') ∧
      ((∀ j j' a b, view d j w' = .ok a w' → view d j' w' = .ok b w' → a.length = b.length) ↔ k.val = 0) := by
  have hn : 0 < n := Nat.lt_of_le_of_lt (Nat.zero_le _) k.isLt
  obtain ⟨p, hp, gp⟩ := (h.rep hn).some d xs hd
  obtain ⟨w', q, e0, e1, e2⟩ := emplaceBackAll_throw k vs e he w hp h0 h1
  have hv : ∀ j, view d j w' = .ok (xs.map (· j) ++ (vs.take (if j < k then e + 1 else e)).map (· j)) w' := fun j => by
    have : view d j w' = .ok (q j).data w' := by simp [view, bind, M.bind, get, e1, pure, M.pure]
    rw [this, e2, gp.data]
  refine ⟨w', ?_, hv, fun H => ?_, fun hk j j' a b ha hb => ?_⟩
  · have hit : iteratorAt d xs.length w = .ok () w := by
      have := iteratorAt_tri (E := fun _ => False) hn hp gp (Nat.le_refl _)
      unfold Tri at this
      cases he : iteratorAt d xs.length w with
      | ok a w1 => rw [he] at this; rw [← this]
      | exn w1 => rw [he] at this; exact this.elim
      | ub => rw [he] at this; exact this.elim
    have hsz : size d w = .ok xs.length w := (C51_observations hn h hd).1
    have : insertRange env d xs.length vs ra w = .exn w' := by
      unfold insertRange
      rw [bind_apply, hit]; dsimp only
      rw [bind_apply, hsz]; dsimp only
      rw [if_pos rfl, bind_apply, e0]
    show (insertRange env d xs.length vs ra >>= _) w = _
    rw [bind_apply, this]
  · apply Classical.byContradiction
    intro hk
    have hlt : (⟨0, hn⟩ : Fin n) < k := by simp only [Fin.lt_def]; omega
    have := H _ _ _ _ (hv ⟨0, hn⟩) (hv k)
    rw [if_pos hlt, if_neg (show ¬ k < k from Nat.lt_irrefl _)] at this
    simp only [List.length_append, List.length_map, List.length_take] at this
    omega
  · have key : ∀ j : Fin n, ¬ j < k := fun j hj => by simp only [Fin.lt_def] at hj; omega
    rw [hv j, if_neg (key j)] at ha
    rw [hv j', if_neg (key j')] at hb
    injection ha with ha; injection hb with hb
    rw [← ha, ← hb]; simp

/-- Three elements are inserted; the string of the second one throws: one whole element and one `int` remain. -/
example : ∃ w, Reach (exEnv fun t => t == 3) w (upd (fun _ => none) 0 (some [])) ∧
    ∃ w', exec (exEnv fun t => t == 3) (.insertRange 0 0 [exRec 1 "a", exRec 2 "b", exRec 3 "c"] true) w = .exn w' ∧
      view 0 (0 : Fin 2) w' = .ok [(1 : Int), (2 : Int)] w' ∧ view 0 (1 : Fin 2) w' = .ok ["a"] w' := by
  have h : Reach (exEnv fun t => t == 3) _ _ := Reach.step (Reach.init) (op := .defaultCtor 0) rfl (fun h => (by cases h)) rfl
  obtain ⟨w', e, e1, _⟩ := C52_insert_end_exact h (d := 0) (xs := []) rfl [exRec 1 "a", exRec 2 "b", exRec 3 "c"] true 1 (by decide) 1 (fun i hi => by
    have : i = 0 ∨ i = 1 ∨ i = 2 := by simp at hi; omega
    rcases this with rfl | rfl | rfl <;> rfl) rfl
  exact ⟨_, h, w', e, e1 0, e1 1⟩

/-! ### insertion of a range before an element -/

/-- The columns of the list `ys`. -/
def Cols (p : Parts V) (ys : List (Rec V)) : Prop := ∀ j, (p j).data = ys.map (· j)

theorem iteratorAt_cols {d i : Nat} {p : Parts V} {ys : List (Rec V)} (hn : 0 < n) (w : World V) (hp : w.vecs d = some p) (hc : Cols p ys)
    (hi : i ≤ ys.length) : iteratorAt d i w = .ok () w := by
  have hs : sizeP p = ys.length := by simp [sizeP, hn, hc _]
  have : size d w = .ok ys.length w := by simp [size, bind, M.bind, get, hp, pure, M.pure, hs]
  unfold iteratorAt
  rw [bind_apply, this]; dsimp only
  rw [if_pos hi]; rfl

theorem positions_cols {d i : Nat} {p : Parts V} {ys : List (Rec V)} (w : World V) (hp : w.vecs d = some p) (hc : Cols p ys) (hi : i ≤ ys.length) :
    positions d i w = .ok () w := by
  have : ∀ j, i ≤ (p j).data.length := fun j => by rw [hc j]; simpa using hi
  simp [positions, bind, M.bind, get, hp, this, pure, M.pure]

/-- The list with `vs` inserted before position `i`. -/
def inserted (ys : List (Rec V)) (i : Nat) (vs : List (Rec V)) : List (Rec V) := ys.take i ++ vs ++ ys.drop i

theorem emplace_done {d i : Nat} {p : Parts V} {ys : List (Rec V)} (hn : 0 < n) (v : Rec V) (w : World V) (hp : w.vecs d = some p) (hc : Cols p ys)
    (hi : i ≤ ys.length) (h0 : ∀ m, m < n → env.throws (w.tick + m) = none) :
    ∃ q, emplace env d i v w = .ok i ⟨upd w.vecs d (some q), w.tick + n⟩ ∧ Cols q (inserted ys i [v]) := by
  obtain ⟨q, e0, e1, _⟩ := forCols_done (env := env) (fun j t c => Col.insert env.grow i [v j] t c) leftBasic (List.finRange n)
    (List.nodup_finRange n) p w.tick (fun m hm => h0 m (by simpa using hm))
  have hq : Cols q (inserted ys i [v]) := fun j => by
    obtain ⟨u, hu⟩ := e1 j (List.mem_finRange j)
    rw [hu]; simp [Col.insert, hc j, inserted, List.map_take, List.map_drop]
  have hap : insertCols env d i (fun j => [v j]) w = .ok () ⟨upd w.vecs d (some q), w.tick + n⟩ := by
    unfold insertCols
    rw [bind_apply, positions_cols w hp hc hi]
    simp only [apply, hp, e0, List.length_finRange]; rfl
  refine ⟨q, ?_, hq⟩
  unfold emplace
  rw [bind_apply, iteratorAt_cols hn w hp hc hi]; dsimp only
  rw [bind_apply, hap]; dsimp only
  rw [bind_apply, iteratorAt_cols hn _ (upd_same _ _ _) hq (by simp [inserted]; omega)]
  rfl

/-- What the fields of a container are after an exception in the field `k` of the element `e`. -/
def LeftAt (q : Parts V) (ys : List (Rec V)) (i : Nat) (vs : List (Rec V)) (e : Nat) (k : Fin n)
    (g : ((j : Fin n) → List (V j) → List (V j)) × ((j : Fin n) → V j → V j)) : Prop :=
  (∀ j, j < k → (q j).data = (inserted ys i (vs.take (e + 1))).map (· j)) ∧ (∀ j, k < j → (q j).data = (inserted ys i (vs.take e)).map (· j)) ∧
    (q k).data = g.1 k ((inserted ys i (vs.take e)).map (· k))

theorem emplaceAll_eq (d i : Nat) (vs : List (Rec V)) : emplaceAll env d i vs = insertMiddle env d (i + 1) vs := by cases vs <;> rfl

theorem insertMiddle_throw {d : Nat} {g} (k : Fin n) (vs : List (Rec V)) (e : Nat) (he : e < vs.length) {p : Parts V} {ys : List (Rec V)} (i : Nat)
    (hi : i ≤ ys.length) (w : World V) (hp : w.vecs d = some p) (hc : Cols p ys) (h0 : ∀ m, m < e * n + k.val → env.throws (w.tick + m) = none)
    (h1 : env.throws (w.tick + (e * n + k.val)) = some g) :
    ∃ w' q, insertMiddle env d i vs w = .exn w' ∧ w'.vecs d = some q ∧ LeftAt q ys i vs e k g := by
  have hn : 0 < n := Nat.lt_of_le_of_lt (Nat.zero_le _) k.isLt
  induction vs generalizing e i p ys w with
  | nil => simp at he
  | cons v vs ih =>
    cases e with
    | zero =>
      obtain ⟨w', q, e0, e1, e2, e3, e4⟩ := apply_throw hp (fun j t c => Col.insert env.grow i [v j] t c) leftBasic k
        (fun m hm => h0 m (by omega)) (by simpa using h1)
      refine ⟨w', q, ?_, e1, fun j hj => ?_, fun j hj => ?_, ?_⟩
      · have : insertCols env d i (fun j => [v j]) w = .exn w' := by
          unfold insertCols
          rw [bind_apply, positions_cols w hp hc hi]; exact e0
        show (emplace env d i v >>= fun i' => emplaceAll env d i' vs) w = _
        unfold emplace
        rw [bind_apply, bind_apply, iteratorAt_cols hn w hp hc hi]; dsimp only
        rw [bind_apply, this]
      · obtain ⟨u, hu⟩ := e2 j hj
        rw [hu]; simp [Col.insert, hc j, inserted, List.map_take, List.map_drop]
      · rw [e4 j hj, hc j]; simp [inserted]
      · rw [e3]; simp [leftBasic, hc k, inserted]
    | succ e =>
      have hmul : (e + 1) * n = n + e * n := by rw [Nat.add_mul, Nat.one_mul, Nat.add_comm]
      obtain ⟨q, e0, e1⟩ := emplace_done (env := env) hn v w hp hc hi (fun m hm => h0 m (by omega))
      obtain ⟨w', q', f0, f1, f2⟩ := ih e (by simpa using he) (i + 1) (by simp [inserted]; omega) ⟨upd w.vecs d (some q), w.tick + n⟩ (upd_same _ _ _) e1
        (fun m hm => by
          show env.throws (w.tick + n + m) = none
          rw [Nat.add_assoc]; exact h0 (n + m) (by omega))
        (by
          show env.throws (w.tick + n + (e * n + k.val)) = some g
          rw [Nat.add_assoc, ← Nat.add_assoc n, ← hmul]; exact h1)
      have hins : ∀ us, inserted (inserted ys i [v]) (i + 1) us = inserted ys i (v :: us) := fun us => by
        have hl : (ys.take i ++ [v]).length = i + 1 := by simp; omega
        simp only [inserted]
        rw [List.take_append_of_le_length (by rw [hl]; exact Nat.le_refl _), List.take_of_length_le (by rw [hl]; exact Nat.le_refl _),
          List.drop_append_of_le_length (by rw [hl]; exact Nat.le_refl _), List.drop_of_length_le (by rw [hl]; exact Nat.le_refl _)]
        simp
      refine ⟨w', q', ?_, f1, ?_⟩
      · show (emplace env d i v >>= fun i' => emplaceAll env d i' vs) w = _
        rw [bind_apply, e0]; dsimp only
        rw [emplaceAll_eq]; exact f0
      · obtain ⟨a, b, c⟩ := f2
        simp only [hins] at a b c
        exact ⟨a, b, c⟩

/-- `insert(pos, first, last)` before an element that throws for the field `k` of the element number `e` (after the memory has been reserved, for random
access iterators): the elements before `e` stay in the container, and so do the fields before `k` of the element `e`; the field `k` has what
`std::vector::insert` leaves. -/
theorem C52_insert_middle_exact (h : Reach env w S) {d : Nat} {xs : List (Rec V)} (hd : S d = some xs) (i : Nat) (hi : i < xs.length) (vs : List (Rec V))
    (ra : Bool) (e : Nat) (he : e < vs.length) (k : Fin n) {g}
    (h0 : ∀ m, m < (if ra then n else 0) + (e * n + k.val) → env.throws (w.tick + m) = none)
    (h1 : env.throws (w.tick + ((if ra then n else 0) + (e * n + k.val))) = some g) :
    ∃ w', exec env (.insertRange d i vs ra) w = .exn w' ∧
      (∀ j, j < k → view d j w' = .ok ((xs.take i ++ vs.take (e + 1) ++ xs.drop i).map (· j)) w') ∧
      (∀ j, k < j → view d j w' = .ok ((xs.take i ++ vs.take e ++ xs.drop i).map (· j)) w') ∧
      view d k w' = .ok (g.1 k ((xs.take i ++ vs.take e ++ xs.drop i).map (· k))) w' := by
  have hn : 0 < n := Nat.lt_of_le_of_lt (Nat.zero_le _) k.isLt
  obtain ⟨p, hp, gp⟩ := (h.rep hn).some d xs hd
  have hc : Cols p xs := gp.data
  have hres : ∃ w1 p1, reserveFor env d (xs.length + vs.length) ra w = .ok () w1 ∧ w1.vecs d = some p1 ∧ Cols p1 xs ∧
      w1.tick = w.tick + if ra then n else 0 := by
    cases ra with
    | false => exact ⟨w, p, rfl, hp, hc, rfl⟩
    | true =>
      obtain ⟨q, e0, e1, _⟩ := forCols_done (env := env) (fun _ t c => Col.reserve env.grow (xs.length + vs.length) t c) leftStrong (List.finRange n)
        (List.nodup_finRange n) p w.tick (fun m hm => h0 m (by simp at hm ⊢; omega))
      refine ⟨⟨upd w.vecs d (some q), w.tick + n⟩, q, ?_, upd_same _ _ _, fun j => ?_, rfl⟩
      · simp only [reserveFor, reserve, apply, hp, e0, List.length_finRange, if_true]; rfl
      · obtain ⟨u, hu⟩ := e1 j (List.mem_finRange j)
        rw [hu, ← hc j]; simp [Col.reserve, Col.room]; split <;> rfl
  obtain ⟨w1, p1, r0, r1, r2, r3⟩ := hres
  obtain ⟨w', q, e0, e1, a, b, c⟩ := insertMiddle_throw (env := env) k vs e he i (Nat.le_of_lt hi) w1 r1 r2
    (fun m hm => by rw [r3, Nat.add_assoc]; exact h0 _ (by omega)) (by rw [r3, Nat.add_assoc]; exact h1)
  have hv : ∀ j, view d j w' = .ok (q j).data w' := fun j => by simp [view, bind, M.bind, get, e1, pure, M.pure]
  refine ⟨w', ?_, fun j hj => by rw [hv, a j hj]; rfl, fun j hj => by rw [hv, b j hj]; rfl, by rw [hv, c]; rfl⟩
  have hsz : size d w = .ok xs.length w := (C51_observations hn h hd).1
  have : insertRange env d i vs ra w = .exn w' := by
    unfold insertRange
    rw [bind_apply, iteratorAt_cols hn w hp hc (Nat.le_of_lt hi)]; dsimp only
    rw [bind_apply, hsz]; dsimp only
    rw [if_neg (Nat.ne_of_lt hi), bind_apply, r0]; dsimp only
    rw [bind_apply, e0]
  show (insertRange env d i vs ra >>= _) w = _
  rw [bind_apply, this]

/-- Two elements are inserted before the only one; the string of the second one throws. -/
example : ∃ w, Reach (exEnv fun t => t == 7) w (upd (upd (fun _ => none) 0 (some [])) 0 (some [exRec 9 "z"])) ∧
    ∃ w', exec (exEnv fun t => t == 7) (.insertRange 0 0 [exRec 1 "a", exRec 2 "b"] true) w = .exn w' ∧
      view 0 (0 : Fin 2) w' = .ok [(1 : Int), (2 : Int), (9 : Int)] w' ∧ view 0 (1 : Fin 2) w' = .ok ["a", "z"] w' := by
  have h : Reach (exEnv fun t => t == 7) _ _ := Reach.step (Reach.init) (op := .defaultCtor 0) rfl (fun h => (by cases h)) rfl
  have h2 : Reach (exEnv fun t => t == 7) _ _ := Reach.step h (op := .pushBack 0 (exRec 9 "z")) rfl (fun h => (by cases h)) rfl
  obtain ⟨w', e, e1, _, e3⟩ := C52_insert_middle_exact h2 (d := 0) (xs := [exRec 9 "z"]) rfl 0 (by decide) [exRec 1 "a", exRec 2 "b"] true 1 (by decide) 1 (fun i hi => by
    have : i = 0 ∨ i = 1 ∨ i = 2 ∨ i = 3 ∨ i = 4 := by simp at hi; omega
    rcases this with rfl | rfl | rfl | rfl | rfl <;> rfl) rfl
  exact ⟨_, h2, w', e, e1 0 (by decide), e3⟩

/-! ### assignment to elements -/

theorem proxyAt_cols {d i : Nat} {p : Parts V} {ys : List (Rec V)} (hn : 0 < n) (w : World V) (hp : w.vecs d = some p) (hc : Cols p ys)
    (hi : i < ys.length) : proxyAt d i w = .ok p w := by
  have hs : sizeP p = ys.length := by simp [sizeP, hn, hc _]
  have hl : ∀ j, i < (p j).data.length := fun j => by rw [hc j]; simpa using hi
  simp [proxyAt, bind, M.bind, get, hp, hs, hi, hl, pure, M.pure]

/-- An assignment `v[i] = value` or `v[i] = u[m]` that throws for the field `k`: the fields before `k` of the element have the new values, those after
it the old ones; the field `k` has what its assignment leaves, and no other element is changed. -/
theorem C52_assign_elem_exact (h : Reach env w S) {op : Op V} (L : Legal S op) {d i : Nat} (hop : elemOf op = some (d, i)) {xs ys : List (Rec V)}
    (hd : S d = some xs) (hd' : specStep env S op d = some ys) (k : Fin n) {g} (h0 : ∀ m, m < k.val → env.throws (w.tick + m) = none)
    (h1 : env.throws (w.tick + k.val) = some g) :
    ∃ w', exec env op w = .exn w' ∧ (∀ j, j < k → view d j w' = .ok (ys.map (· j)) w') ∧ (∀ j, k < j → view d j w' = .ok (xs.map (· j)) w') ∧
      view d k w' = .ok ((xs.map (· k)).modify i (g.2 k)) w' ∧ ∀ m, m ≠ i → ys[m]? = xs[m]? := by
  have hn : 0 < n := Nat.lt_of_le_of_lt (Nat.zero_le _) k.isLt
  have R := h.rep hn
  obtain ⟨p, hp, gp⟩ := R.some d xs hd
  have hc : Cols p xs := gp.data
  have col : ∀ (f : (j : Fin n) → Nat → Col (V j) → Col (V j)), (∀ j t, (f j t (p j)).data = ys.map (· j)) →
      ∃ w', apply env d f (leftElem i) w = .exn w' ∧ (∀ j, j < k → view d j w' = .ok (ys.map (· j)) w') ∧
        (∀ j, k < j → view d j w' = .ok (xs.map (· j)) w') ∧ view d k w' = .ok ((xs.map (· k)).modify i (g.2 k)) w' := by
    intro f hf
    obtain ⟨w', q, e, e1, e2, e3, e4⟩ := apply_throw hp f (leftElem i) k h0 h1
    have hv : ∀ j, view d j w' = .ok (q j).data w' := fun j => by simp [view, bind, M.bind, get, e1, pure, M.pure]
    exact ⟨w', e, fun j hj => by obtain ⟨u, hu⟩ := e2 j hj; rw [hv, hu, hf], fun j hj => by rw [hv, e4 j hj, hc], by rw [hv, e3]; simp [leftElem, hc k]⟩
  have mapset : ∀ (v : Rec V) (j : Fin n), (xs.set i v).map (· j) = (xs.map (· j)).set i (v j) := fun v j => by rw [List.map_set]
  cases op with
  | assignElem d' i' v =>
    cases hop
    simp only [specStep, upd_same, hd, Option.map_some, Option.some.injEq] at hd'
    subst hd'
    obtain ⟨xs', hx, hi⟩ := L
    rw [hd] at hx; cases hx
    obtain ⟨w', e0, e1, e2, e3⟩ := col (fun j _ c => Col.set i (v j) c) (fun j t => by rw [mapset]; simp [Col.set, hc j])
    refine ⟨w', ?_, e1, e2, e3, fun m hm => by rw [List.getElem?_set_ne (Ne.symm hm)]⟩
    have : assignElem env d i v w = .exn w' := by
      unfold assignElem
      rw [bind_apply, proxyAt_cols hn w hp hc hi]; exact e0
    show (assignElem env d i v >>= _) w = _
    rw [bind_apply, this]
  | assignRef d' i' s m =>
    cases hop
    obtain ⟨⟨xs', hx, hi⟩, zs, hz, hm⟩ := L
    rw [hd] at hx; cases hx
    obtain ⟨q, hq, gq⟩ := R.some s zs hz
    have hcq : Cols q zs := gq.data
    simp only [specStep, upd_same, hd, Option.map_some, Option.some.injEq, hz, Option.bind_some, List.getElem?_eq_getElem hm] at hd'
    subst hd'
    obtain ⟨w', e0, e1, e2, e3⟩ := col (fun j _ c => match (q j).data[m]? with | some x => Col.set i x c | none => c) (fun j t => by
      have : (q j).data[m]? = some (zs[m] j) := by rw [hcq j]; simp [List.getElem?_eq_getElem hm]
      rw [mapset, this]; simp [Col.set, hc j])
    refine ⟨w', ?_, e1, e2, e3, fun m' hm' => by rw [List.getElem?_set_ne (Ne.symm hm')]⟩
    have : assignRef env d i s m w = .exn w' := by
      unfold assignRef
      rw [bind_apply, proxyAt_cols hn w hp hc hi]; dsimp only
      rw [bind_apply, proxyAt_cols hn w hq hcq hm]; exact e0
    show (assignRef env d i s m >>= _) w = _
    rw [bind_apply, this]
  | _ => cases hop

/-- The string of the new value throws: the element has the new `int` and the old string. -/
example : ∃ w, Reach (exEnv fun t => t == 3) w (upd (upd (fun _ => none) 0 (some [])) 0 (some [exRec 9 "z"])) ∧
    ∃ w', exec (exEnv fun t => t == 3) (.assignElem 0 0 (exRec 1 "a")) w = .exn w' ∧
      view 0 (0 : Fin 2) w' = .ok [(1 : Int)] w' ∧ view 0 (1 : Fin 2) w' = .ok ["z"] w' := by
  have h : Reach (exEnv fun t => t == 3) _ _ := Reach.step (Reach.init) (op := .defaultCtor 0) rfl (fun h => (by cases h)) rfl
  have h2 : Reach (exEnv fun t => t == 3) _ _ := Reach.step h (op := .pushBack 0 (exRec 9 "z")) rfl (fun h => (by cases h)) rfl
  obtain ⟨w', e, e1, _, e3, _⟩ := C52_assign_elem_exact h2 (op := .assignElem 0 0 (exRec 1 "a")) (d := 0) (i := 0) (xs := [exRec 9 "z"])
    ⟨_, rfl, by decide⟩ rfl rfl rfl 1 (fun i hi => by
      have : i = 0 := by simp at hi; omega
      subst this; rfl) rfl
  exact ⟨_, h2, w', e, e1 0 (by decide), e3⟩

end AnyAny.Dpv
