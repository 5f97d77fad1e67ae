import Verif.Props.DpvFine
/-
C117: the code of an operation, run by one thread, is the operation of Model/Dpv.lean.
-/
namespace AnyAny.DpvFine

open AnyAny.Dpv

variable {n : Nat} {V : Fin n → Type} {α : Type}

abbrev Thr (V : Fin n → Type) := Nat → Option (((j : Fin n) → List (V j) → List (V j)) × ((j : Fin n) → V j → V j))

theorem run_sizeC {thr : Thr V} (hn : 0 < n) {d t : Nat} {v : Vecs V} {k : Nat → Code V α} :
    run thr (sizeC d k) t v = match v d with | some p => run thr (k (sizeP p)) t v | none => none := by
  simp only [sizeC, dif_pos hn, run]
  cases v d with
  | none => rfl
  | some p => simp [sizeP, hn]

theorem run_refAt {thr : Thr V} (hn : 0 < n) {d i t : Nat} {v : Vecs V} {k : Code V α} :
    run thr (refAt d i k) t v = match v d with | some p => if i < sizeP p then run thr k t v else none | none => none := by
  simp only [refAt, run_sizeC hn]
  cases v d with
  | none => rfl
  | some p =>
    simp only
    split <;> simp [run]

theorem sizeP_lt (hn : 0 < n) {v : Vecs V} (W : Wf v) {d i : Nat} {p : Parts V} (hv : v d = some p) : i < sizeP p ↔ ∀ j, i < (p j).data.length :=
  ⟨fun h j => by rw [W d p hv j]; exact h, fun h => by rw [← W d p hv ⟨0, hn⟩]; exact h _⟩

theorem upd_self {v : Vecs V} {d : Nat} {p : Parts V} (hv : v d = some p) : upd v d (some p) = v := by
  funext e
  unfold upd
  split
  · rename_i h; rw [h, hv]
  · rfl

theorem upd_upd (v : Vecs V) (d : Nat) (x y : Option (Parts V)) : upd (upd v d x) d y = upd v d y := by
  funext e
  unfold upd
  split <;> rfl

theorem set_length {p : Parts V} {i : Nat} (hi : ∀ j, i < (p j).data.length) {k : Nat} (j : Fin n) (y : V j) :
    ∀ l, i < (setP p j (Col.set k y (p j)) l).data.length := by
  intro l
  by_cases hl : l = j
  · subst hl; rw [setP_same]; simpa [Col.set] using hi l
  · rw [setP_other hl]; exact hi l

theorem left_eq {p : Parts V} {i : Nat} {j : Fin n} (hi : i < (p j).data.length)
    (g : ((j : Fin n) → List (V j) → List (V j)) × ((j : Fin n) → V j → V j)) : Col.set i (g.2 j (p j).data[i]) (p j) = leftElem i g j (p j) := by
  have hm : (p j).data.modify i (g.2 j) = (p j).data.set i (g.2 j (p j).data[i]) := by
    apply List.ext_getElem?
    intro k
    rw [List.getElem?_modify, List.getElem?_set]
    by_cases h : i = k
    · subst h; simp [hi]
    · simp [h]
  simp only [Col.set, leftElem, hm]

/-- One assignment. -/
theorem run_assignField {thr : Thr V} {d i t : Nat} {j : Fin n} {y : V j} {k : Code V (Option (EOut V))} {v : Vecs V} {p : Parts V} (hv : v d = some p)
    (hi : i < (p j).data.length) :
    run thr (assignField d i j y k) t v = match thr t with
      | none => run thr k (t + 1) (upd v d (some (setP p j (Col.set i y (p j)))))
      | some g => some (none, upd v d (some (setP p j (leftElem i g j (p j)))), t + 1) := by
  simp only [assignField, run]
  rcases Option.eq_none_or_eq_some (thr t) with e | ⟨g, e⟩
  · simp only [e, Option.map_none, run, hv, if_pos hi]
  · simp only [e, Option.map_some, run, hv, Option.bind_some, List.getElem?_eq_getElem hi, if_pos hi, left_eq hi]

/-- `forCols` by fields. -/
theorem run_assignFields {env : Env V} {d i : Nat} {x : Rec V} (js : List (Fin n)) : ∀ {v : Vecs V} {p : Parts V} {t : Nat}, v d = some p →
    (∀ j, i < (p j).data.length) →
    run env.throws (assignFields d i x js) t v =
      let r := forCols env (fun j _ c => Col.set i (x j) c) (leftElem i) js p t
      some (if r.2.2 then none else some .unit, upd v d (some r.1), r.2.1) := by
  induction js with
  | nil =>
    intro v p t hv hi
    simp [assignFields, run, forCols, upd_self hv]
  | cons j js ih =>
    intro v p t hv hi
    simp only [assignFields, forCols]
    rw [run_assignField hv (hi j)]
    rcases Option.eq_none_or_eq_some (env.throws t) with e | ⟨g, e⟩
    · simp only [e]
      rw [ih (p := setP p j (Col.set i (x j) (p j))) (by simp [upd]) (set_length hi j _)]
      simp only [upd_upd]
    · simp [e]

/-- The same if the values are those of another element: the fields that are still to be read are as in the beginning. -/
theorem run_assignFieldsFrom {env : Env V} {d i e k : Nat} {q0 : Parts V} (hk : ∀ j, k < (q0 j).data.length) (js : List (Fin n)) :
    ∀ {v : Vecs V} {p q : Parts V} {t : Nat}, v d = some p → (∀ j, i < (p j).data.length) → v e = some q → (∀ j ∈ js, q j = q0 j) → js.Nodup →
    run env.throws (assignFieldsFrom d i e k js) t v =
      let r := forCols env (fun j _ c => match (q0 j).data[k]? with | some x => Col.set i x c | none => c) (leftElem i) js p t
      some (if r.2.2 then none else some .unit, upd v d (some r.1), r.2.1) := by
  induction js with
  | nil =>
    intro v p q t hv hi _ _ _
    simp [assignFieldsFrom, run, forCols, upd_self hv]
  | cons j js ih =>
    intro v p q t hv hi hq hqq hnd
    simp only [assignFieldsFrom, forCols, run]
    have hj := hqq j (List.mem_cons_self ..)
    simp only [hq, Option.bind_some, hj, List.getElem?_eq_getElem (hk j)]
    rw [run_assignField hv (hi j)]
    rcases Option.eq_none_or_eq_some (env.throws t) with h | ⟨g, h⟩
    · simp only [h]
      have hnd' := List.nodup_cons.1 hnd
      obtain ⟨q', hq', hqq'⟩ : ∃ q', (upd v d (some (setP p j (Col.set i ((q0 j).data[k]'(hk j)) (p j))))) e = some q' ∧ ∀ l ∈ js, q' l = q0 l := by
        by_cases he : e = d
        · subst he
          obtain rfl : p = q := by rw [hv] at hq; cases hq; rfl
          refine ⟨_, by simp only [upd, if_true]; rfl, fun l hl => ?_⟩
          have : l ≠ j := fun h => hnd'.1 (h ▸ hl)
          rw [setP_other this]
          exact hqq l (List.mem_cons_of_mem _ hl)
        · exact ⟨q, by simp [upd, he, hq], fun l hl => hqq l (List.mem_cons_of_mem _ hl)⟩
      rw [ih (p := setP p j (Col.set i ((q0 j).data[k]'(hk j)) (p j))) (by simp [upd]) (set_length hi j _) hq' hqq' hnd'.2]
      simp only [upd_upd]
    · simp [h]

theorem seq_assignElem {F : Fields V} {env : Env V} (hn : 0 < n) {v : Vecs V} (W : Wf v) {d i t : Nat} {x : Rec V} :
    toRes (run env.throws ((TOp.assignElem d i x).code F) t v) = (TOp.assignElem d i x).seq F env ⟨v, t⟩ := by
  simp only [TOp.code, TOp.seq, run_refAt hn]
  show _ = M.bind (Dpv.assignElem env d i x) _ _
  unfold Dpv.assignElem
  show _ = M.bind (M.bind (Dpv.proxyAt d i) _) _ _
  unfold Dpv.proxyAt
  cases hv : v d with
  | none => simp [toRes, M.bind, bind, Dpv.get, hv]
  | some p =>
    by_cases hi : i < sizeP p
    · have hi' := (sizeP_lt hn W hv).1 hi
      simp only [if_pos hi]
      rw [run_assignFields _ hv hi']
      simp only [M.bind, bind, Dpv.get, hv, hi, hi', implies_true, and_self, if_true, pure, M.pure, Dpv.apply]
      cases (forCols env (fun j x_1 c => Col.set i (x j) c) (leftElem i) (List.finRange n) p t).2.2 <;> simp [toRes, M.pure, pure]
    · simp [hi, toRes, M.bind, bind, Dpv.get, hv, Dpv.ub]

theorem seq_assignRef {F : Fields V} {env : Env V} (hn : 0 < n) {v : Vecs V} (W : Wf v) {d i e k t : Nat} :
    toRes (run env.throws ((TOp.assignRef d i e k).code F) t v) = (TOp.assignRef d i e k).seq F env ⟨v, t⟩ := by
  simp only [TOp.code, TOp.seq, run_refAt hn]
  show _ = M.bind (Dpv.assignRef env d i e k) _ _
  unfold Dpv.assignRef
  show _ = M.bind (M.bind (Dpv.proxyAt d i) fun _ => M.bind (Dpv.proxyAt e k) _) _ _
  unfold Dpv.proxyAt
  cases hv : v d with
  | none => simp [toRes, M.bind, bind, Dpv.get, hv]
  | some p =>
    by_cases hi : i < sizeP p
    · have hi' := (sizeP_lt hn W hv).1 hi
      simp only [if_pos hi]
      cases hq : v e with
      | none => simp [toRes, M.bind, bind, Dpv.get, hv, hq, hi, hi', pure, M.pure]
      | some q =>
        by_cases hk : k < sizeP q
        · have hk' := (sizeP_lt hn W hq).1 hk
          simp only [if_pos hk]
          rw [run_assignFieldsFrom hk' _ hv hi' hq (fun _ _ => rfl) (List.nodup_finRange n)]
          simp only [M.bind, bind, Dpv.get, hv, hq, hi, hi', hk, hk', implies_true, and_self, if_true, pure, M.pure, Dpv.apply]
          generalize forCols env _ (leftElem i) (List.finRange n) p t = r
          obtain ⟨a, b, c⟩ := r
          cases c <;> simp [toRes]
        · simp [hi, hi', hk, toRes, M.bind, bind, Dpv.get, hv, hq, Dpv.ub, pure, M.pure]
    · simp [hi, toRes, M.bind, bind, Dpv.get, hv, Dpv.ub]

theorem run_swapFields {thr : Thr V} {d i e k : Nat} (js : List (Fin n)) : ∀ {v : Vecs V} {t : Nat},
    toRes (run thr (swapFieldsC d i e k js) t v) = M.bind (Dpv.swapFields d i e k js) (fun _ => M.pure .unit) ⟨v, t⟩ := by
  induction js with
  | nil => intro v t; rfl
  | cons j js ih =>
    intro v t
    simp only [swapFieldsC, run, Dpv.swapFields, Dpv.swapField]
    simp only [M.bind, bind, Dpv.get]
    cases hv : v d with
    | none => simp [toRes]
    | some p =>
      cases hx : (p j).data[i]? with
      | none =>
        simp only [Option.bind_some, hx, toRes]
        cases hq : v e <;> simp [Dpv.ub, hx]
      | some x =>
        simp only [Option.bind_some, hx]
        cases hq : v e with
        | none => simp [toRes]
        | some q =>
          cases hy : (q j).data[k]? with
          | none => simp [toRes, hx, hy, Dpv.ub]
          | some y =>
            have hi : i < (p j).data.length := (List.getElem?_eq_some_iff.1 hx).1
            have hk : k < (q j).data.length := (List.getElem?_eq_some_iff.1 hy).1
            simp only [Option.bind_some, hx, hy, if_pos hi, Dpv.put, M.bind, bind, Dpv.get]
            obtain ⟨q', hq', hl⟩ : ∃ q', (upd v d (some (setP p j (Col.set i y (p j))))) e = some q' ∧ k < (q' j).data.length := by
              by_cases he : e = d
              · subst he
                obtain rfl : p = q := by rw [hv] at hq; cases hq; rfl
                exact ⟨_, by simp only [upd, if_true]; rfl, by rw [setP_same]; simpa [Col.set] using hk⟩
              · exact ⟨q, by simp [upd, he, hq], hk⟩
            simp only [hq', if_pos hl]
            exact ih

theorem seq_swapRef {F : Fields V} {env : Env V} (hn : 0 < n) {v : Vecs V} (W : Wf v) {d i e k t : Nat} :
    toRes (run env.throws ((TOp.swapRef d i e k).code F) t v) = (TOp.swapRef d i e k).seq F env ⟨v, t⟩ := by
  simp only [TOp.code, TOp.seq, run_refAt hn]
  show _ = M.bind (Dpv.swapRef d i e k) _ _
  unfold Dpv.swapRef
  show _ = M.bind (M.bind (Dpv.proxyAt d i) fun _ => M.bind (Dpv.proxyAt e k) _) _ _
  unfold Dpv.proxyAt
  cases hv : v d with
  | none => simp [toRes, M.bind, bind, Dpv.get, hv]
  | some p =>
    by_cases hi : i < sizeP p
    · have hi' := (sizeP_lt hn W hv).1 hi
      simp only [if_pos hi]
      cases hq : v e with
      | none => simp [toRes, M.bind, bind, Dpv.get, hv, hq, hi, hi', pure, M.pure]
      | some q =>
        by_cases hk : k < sizeP q
        · have hk' := (sizeP_lt hn W hq).1 hk
          simp only [if_pos hk]
          rw [run_swapFields]
          simp only [M.bind, bind, Dpv.get, hv, hq, hi, hi', hk, hk', implies_true, and_self, if_true, pure, M.pure]
        · simp [hi, hi', hk, toRes, M.bind, bind, Dpv.get, hv, hq, Dpv.ub, pure, M.pure]
    · simp [hi, toRes, M.bind, bind, Dpv.get, hv, Dpv.ub]

/-! ### reading -/

theorem collect_some (r : Rec V) : collect (fun j => some (r j)) = some r := by simp [collect]

theorem run_readFields {thr : Thr V} {d i : Nat} {v : Vecs V} {p : Parts V} (hv : v d = some p) (hi : ∀ j, i < (p j).data.length) {t : Nat}
    (js : List (Fin n)) : ∀ f : (j : Fin n) → Option (V j), (∀ j, j ∈ js ∨ f j = some ((p j).data[i]'(hi j))) →
    run thr (readFields d i js f) t v = some (some (.val fun j => (p j).data[i]'(hi j)), v, t) := by
  induction js with
  | nil =>
    intro f hf
    have : f = fun j => some ((p j).data[i]'(hi j)) := funext fun j => (hf j).resolve_left (by simp)
    subst this
    simp only [readFields, collect_some, run]
  | cons j js ih =>
    intro f hf
    simp only [readFields, run, hv, Option.bind_some, List.getElem?_eq_getElem (hi j)]
    apply ih
    intro l
    by_cases hl : l = j
    · subst hl; exact .inr (by simp [putField])
    · rcases hf l with h | h
      · exact .inl ((List.mem_cons.1 h).resolve_left hl)
      · exact .inr (by simp [putField, hl, h])

theorem readRec_some {p : Parts V} {i : Nat} (hi : ∀ j, i < (p j).data.length) : readRec p i = some fun j => (p j).data[i]'(hi j) := by
  simp [readRec, hi]

theorem seq_getElem {F : Fields V} {env : Env V} (hn : 0 < n) {v : Vecs V} (W : Wf v) {d i t : Nat} :
    toRes (run env.throws ((TOp.getElem d i).code F) t v) = (TOp.getElem d i).seq F env ⟨v, t⟩ := by
  simp only [TOp.code, TOp.seq, run_refAt hn]
  show _ = M.bind (Dpv.elem d i) _ _
  unfold Dpv.elem
  cases hv : v d with
  | none => simp [toRes, M.bind, bind, Dpv.get, hv]
  | some p =>
    by_cases hi : i < sizeP p
    · have hi' := (sizeP_lt hn W hv).1 hi
      simp only [if_pos hi]
      rw [run_readFields hv hi' _ _ fun j => .inl (List.mem_finRange j)]
      simp [M.bind, bind, Dpv.get, hv, hi, readRec_some hi', toRes, pure, M.pure]
    · simp [hi, toRes, M.bind, bind, Dpv.get, hv, Dpv.ub]

/-- Moving the fields out one after the other. -/
theorem run_moveFields {thr : Thr V} {moved : (j : Fin n) → V j → V j} {d i : Nat} {p0 : Parts V} (hi : ∀ j, i < (p0 j).data.length) {t : Nat}
    (js : List (Fin n)) : ∀ {v : Vecs V} {p : Parts V} (f : (j : Fin n) → Option (V j)), v d = some p → js.Nodup →
    (∀ j, (j ∈ js ∧ p j = p0 j) ∨ (j ∉ js ∧ f j = some ((p0 j).data[i]'(hi j)) ∧ p j = { p0 j with data := (p0 j).data.modify i (moved j) })) →
    run thr (moveFields moved d i js f) t v =
      some (some (.val fun j => (p0 j).data[i]'(hi j)), upd v d (some fun j => { p0 j with data := (p0 j).data.modify i (moved j) }), t) := by
  induction js with
  | nil =>
    intro v p f hv _ hf
    have h1 : f = fun j => some ((p0 j).data[i]'(hi j)) := funext fun j => by
      rcases hf j with h | h
      · cases h.1
      · exact h.2.1
    have h2 : p = fun j => { p0 j with data := (p0 j).data.modify i (moved j) } := funext fun j => by
      rcases hf j with h | h
      · cases h.1
      · exact h.2.2
    subst h1 h2
    simp only [moveFields, collect_some, run, upd_self hv]
  | cons j js ih =>
    intro v p f hv hnd hf
    have hnd' := List.nodup_cons.1 hnd
    have hj : p j = p0 j := by
      rcases hf j with h | h
      · exact h.2
      · exact absurd (List.mem_cons_self ..) h.1
    simp only [moveFields, run, hv, Option.bind_some, hj, List.getElem?_eq_getElem (hi j), if_pos (hi j)]
    rw [ih (p := setP p j (Col.set i (moved j ((p0 j).data[i]'(hi j))) (p0 j))) _ (by simp [upd]) hnd'.2 fun l => ?_]
    · simp only [upd_upd]
    · by_cases hl : l = j
      · subst hl
        refine .inr ⟨hnd'.1, by simp [putField], ?_⟩
        rw [setP_same]
        have : (p0 l).data.modify i (moved l) = (p0 l).data.set i (moved l ((p0 l).data[i]'(hi l))) := by
          apply List.ext_getElem?
          intro k
          rw [List.getElem?_modify, List.getElem?_set]
          by_cases h : i = k
          · subst h; simp [hi l]
          · simp [h]
        rw [this]
        rfl
      · rw [setP_other hl]
        rcases hf l with h | h
        · exact .inl ⟨(List.mem_cons.1 h.1).resolve_left hl, h.2⟩
        · exact .inr ⟨fun h' => h.1 (List.mem_cons_of_mem _ h'), by simp [putField, hl, h.2.1], h.2.2⟩

theorem seq_iterMove {F : Fields V} {env : Env V} (hm : env.movedFrom = F.moved) (hn : 0 < n) {v : Vecs V} (W : Wf v) {d i t : Nat} :
    toRes (run env.throws ((TOp.iterMove d i).code F) t v) = (TOp.iterMove d i).seq F env ⟨v, t⟩ := by
  simp only [TOp.code, TOp.seq, run_refAt hn]
  show _ = M.bind (Dpv.iterMove env d i) _ _
  unfold Dpv.iterMove
  show _ = M.bind (M.bind (Dpv.proxyAt d i) _) _ _
  unfold Dpv.proxyAt
  cases hv : v d with
  | none => simp [toRes, M.bind, bind, Dpv.get, hv]
  | some p =>
    by_cases hi : i < sizeP p
    · have hi' := (sizeP_lt hn W hv).1 hi
      simp only [if_pos hi]
      rw [run_moveFields hi' _ _ hv (List.nodup_finRange n) fun j => .inl ⟨List.mem_finRange j, rfl⟩]
      simp only [M.bind, bind, Dpv.get, hv, hi, hi', implies_true, and_self, if_true, pure, M.pure, readRec_some hi', Dpv.applyNoexcept, Dpv.put, toRes, hm]
    · simp [hi, toRes, M.bind, bind, Dpv.get, hv, Dpv.ub]

theorem seq_size {F : Fields V} {env : Env V} (hn : 0 < n) {v : Vecs V} {d t : Nat} :
    toRes (run env.throws ((TOp.size d).code F) t v) = (TOp.size d).seq F env ⟨v, t⟩ := by
  simp only [TOp.code, TOp.seq, run_sizeC hn]
  show _ = M.bind (Dpv.size d) _ _
  unfold Dpv.size
  cases hv : v d <;> simp [toRes, M.bind, bind, Dpv.get, hv, run, pure, M.pure]

theorem seq_getField {F : Fields V} {env : Env V} (hn : 0 < n) {v : Vecs V} (W : Wf v) {d i t : Nat} {j : Fin n} :
    toRes (run env.throws ((TOp.getField d i j).code F) t v) = (TOp.getField d i j).seq F env ⟨v, t⟩ ∧
    toRes (run env.throws ((TOp.spanGet d i j).code F) t v) = (TOp.spanGet d i j).seq F env ⟨v, t⟩ := by
  simp only [TOp.code, TOp.seq, run_refAt hn, run]
  show _ = M.bind (Dpv.view d j) _ _ ∧ _ = M.bind (Dpv.view d j) _ _
  unfold Dpv.view
  cases hv : v d with
  | none => simp [toRes, M.bind, bind, Dpv.get, hv]
  | some p =>
    by_cases hi : i < sizeP p
    · have hj := (sizeP_lt hn W hv).1 hi j
      simp [hi, hj, M.bind, bind, Dpv.get, hv, run, pure, M.pure, toRes]
    · have hj : ¬ i < (p j).data.length := by rw [W d p hv j]; exact hi
      have : (p j).data[i]? = none := List.getElem?_eq_none (Nat.le_of_not_lt hj)
      simp [hi, hj, this, M.bind, bind, Dpv.get, hv, run, pure, M.pure, toRes, Dpv.ub]

theorem seq_setField {F : Fields V} {env : Env V} (hn : 0 < n) {v : Vecs V} (W : Wf v) {d i t : Nat} {j : Fin n} {x : V j} :
    toRes (run env.throws ((TOp.setField d i j x).code F) t v) = (TOp.setField d i j x).seq F env ⟨v, t⟩ ∧
    toRes (run env.throws ((TOp.spanSet d i j x).code F) t v) = (TOp.spanSet d i j x).seq F env ⟨v, t⟩ := by
  simp only [TOp.code, TOp.seq, run_refAt hn, run]
  show _ = M.bind (Dpv.setField d i j x) _ _ ∧ _ = M.bind (Dpv.setField d i j x) _ _
  unfold Dpv.setField
  cases hv : v d with
  | none => simp [toRes, M.bind, bind, Dpv.get, hv]
  | some p =>
    by_cases hi : i < sizeP p
    · have hj := (sizeP_lt hn W hv).1 hi j
      simp [hi, hj, M.bind, bind, Dpv.get, Dpv.put, hv, run, pure, M.pure, toRes]
    · have hj : ¬ i < (p j).data.length := by rw [W d p hv j]; exact hi
      simp [hi, hj, M.bind, bind, Dpv.get, hv, run, toRes, Dpv.ub]

/-! ### comparison -/

theorem foldl_stop (cmp : (j : Fin n) → V j → V j → Cmp) (a b : Rec V) (c : Cmp) (js : List (Fin n)) :
    js.foldl (cmpStep cmp a b) (true, c) = (true, c) := by
  induction js with
  | nil => rfl
  | cons j js ih => simpa [cmpStep] using ih

theorem run_compareFields {thr : Thr V} {cmp : (j : Fin n) → V j → V j → Cmp} {d i e k : Nat} {next : Cmp → Code V (Option (EOut V))} {v : Vecs V}
    {p q : Parts V} (hv : v d = some p) (hq : v e = some q) (hi : ∀ j, i < (p j).data.length) (hk : ∀ j, k < (q j).data.length) {t : Nat}
    (js : List (Fin n)) : ∀ c, c = .equal →
    run thr (compareFields cmp d i e k next js c) t v =
      run thr (next (js.foldl (cmpStep cmp (fun j => (p j).data[i]'(hi j)) (fun j => (q j).data[k]'(hk j))) (false, c)).2) t v := by
  induction js with
  | nil => intro c _; rfl
  | cons j js ih =>
    intro c hc
    simp only [compareFields, run, hv, hq, Option.bind_some, List.getElem?_eq_getElem (hi j), List.getElem?_eq_getElem (hk j), List.foldl_cons]
    by_cases h : cmp j ((p j).data[i]'(hi j)) ((q j).data[k]'(hk j)) = .equal
    · rw [if_pos h, ih _ rfl]
      simp [cmpStep, h]
    · rw [if_neg h]
      have : cmpStep cmp (fun j => (p j).data[i]'(hi j)) (fun j => (q j).data[k]'(hk j)) (false, c) j = (true, cmp j ((p j).data[i]'(hi j)) ((q j).data[k]'(hk j))) := by
        simp [cmpStep, h]
      rw [this, foldl_stop]

theorem elem_ok {v : Vecs V} {d i t : Nat} {p : Parts V} (hv : v d = some p) (hi : i < sizeP p) (hi' : ∀ j, i < (p j).data.length) :
    Dpv.elem d i ⟨v, t⟩ = .ok (fun j => (p j).data[i]'(hi' j)) ⟨v, t⟩ := by
  simp [Dpv.elem, M.bind, bind, Dpv.get, hv, hi, readRec_some hi', pure, M.pure]

theorem elem_ub {v : Vecs V} {d i t : Nat} (h : ∀ p, v d = some p → ¬ i < sizeP p) : Dpv.elem d i ⟨v, t⟩ = .ub := by
  cases hv : v d with
  | none => simp [Dpv.elem, M.bind, bind, Dpv.get, hv]
  | some p => simp [Dpv.elem, M.bind, bind, Dpv.get, hv, h p hv, Dpv.ub]

theorem seq_compare {F : Fields V} {env : Env V} (hn : 0 < n) {v : Vecs V} (W : Wf v) {d i e k t : Nat} :
    toRes (run env.throws ((TOp.compare d i e k).code F) t v) = (TOp.compare d i e k).seq F env ⟨v, t⟩ := by
  simp only [TOp.code, TOp.seq, run_refAt hn]
  show _ = M.bind (Dpv.elem d i) (fun a => M.bind (Dpv.elem e k) _) _
  cases hv : v d with
  | none => rw [M.bind, elem_ub (by simp [hv])]; rfl
  | some p =>
    by_cases hi : i < sizeP p
    · have hi' := (sizeP_lt hn W hv).1 hi
      simp only [if_pos hi]
      rw [M.bind, elem_ok hv hi hi']
      simp only [M.bind]
      cases hq : v e with
      | none => rw [elem_ub (by simp [hq])]; rfl
      | some q =>
        by_cases hk : k < sizeP q
        · have hk' := (sizeP_lt hn W hq).1 hk
          simp only [if_pos hk]
          rw [elem_ok hq hk hk', run_compareFields hv hq hi' hk' _ _ rfl]
          rfl
        · simp only [if_neg hk]
          rw [elem_ub (by intro q' h; rw [hq] at h; cases h; exact hk)]; rfl
    · simp only [if_neg hi]
      rw [M.bind, elem_ub (by intro p' h; rw [hv] at h; cases h; exact hi)]; rfl

theorem run_equalFrom {thr : Thr V} {cmp : (j : Fin n) → V j → V j → Cmp} (hn : 0 < n) {v : Vecs V} (W : Wf v) {d e t : Nat} (m : Nat) : ∀ i,
    toRes (run thr (equalFromC cmp d e i m) t v) = M.bind (Dpv.equalFrom cmp d e i m) (fun b => M.pure (.bool b)) ⟨v, t⟩ := by
  induction m with
  | zero => intro i; rfl
  | succ m ih =>
    intro i
    simp only [equalFromC, run_refAt hn, Dpv.equalFrom]
    show _ = M.bind (M.bind (Dpv.elem d i) (fun a => M.bind (Dpv.elem e i) _)) _ _
    cases hv : v d with
    | none => simp only [M.bind, elem_ub (V := V) (v := v) (d := d) (i := i) (t := t) (by simp [hv])]; rfl
    | some p =>
      by_cases hi : i < sizeP p
      · have hi' := (sizeP_lt hn W hv).1 hi
        simp only [if_pos hi, M.bind, elem_ok hv hi hi']
        cases hq : v e with
        | none => simp only [elem_ub (V := V) (v := v) (d := e) (i := i) (t := t) (by simp [hq])]; rfl
        | some q =>
          by_cases hk : i < sizeP q
          · have hk' := (sizeP_lt hn W hq).1 hk
            simp only [if_pos hk]
            rw [elem_ok hq hk hk', run_compareFields hv hq hi' hk' _ _ rfl]
            by_cases h : compareByFields cmp (fun j => (p j).data[i]'(hi' j)) (fun j => (q j).data[i]'(hk' j)) = .equal
            · rw [if_pos (by exact h)]
              have hb : eqByFields cmp (fun j => (p j).data[i]'(hi' j)) (fun j => (q j).data[i]'(hk' j)) = true := by simp [eqByFields, h]
              simp only [hb, if_true]
              exact ih _
            · rw [if_neg (by exact h)]
              have hb : eqByFields cmp (fun j => (p j).data[i]'(hi' j)) (fun j => (q j).data[i]'(hk' j)) = false := by simpa [eqByFields] using h
              simp only [hb]
              rfl
          · simp only [if_neg hk, elem_ub (V := V) (v := v) (d := e) (i := i) (t := t) (by intro q' h; rw [hq] at h; cases h; exact hk)]; rfl
      · simp only [if_neg hi, M.bind, elem_ub (V := V) (v := v) (d := d) (i := i) (t := t) (by intro p' h; rw [hv] at h; cases h; exact hi)]; rfl

theorem seq_equal {F : Fields V} {env : Env V} (hn : 0 < n) {v : Vecs V} (W : Wf v) {d e t : Nat} :
    toRes (run env.throws ((TOp.equal d e).code F) t v) = (TOp.equal d e).seq F env ⟨v, t⟩ := by
  simp only [TOp.code, TOp.seq, run_sizeC hn]
  show _ = M.bind (Dpv.equal F.cmp d e) _ _
  unfold Dpv.equal
  show _ = M.bind (M.bind (Dpv.size d) (fun a => M.bind (Dpv.size e) _)) _ _
  have hs : ∀ d, Dpv.size d ⟨v, t⟩ = match v d with | some p => .ok (sizeP p) ⟨v, t⟩ | none => .ub := by
    intro d
    cases hv : v d <;> simp [Dpv.size, M.bind, bind, Dpv.get, hv, pure, M.pure]
  cases hv : v d with
  | none => simp only [M.bind, hs, hv]; rfl
  | some p =>
    simp only [M.bind, hs, hv]
    cases hq : v e with
    | none => rfl
    | some q =>
      simp only
      split
      · rw [run_equalFrom hn W]; rfl
      · rfl

/-- C117: the accesses of an operation on elements are what the operation of Model/Dpv.lean does, for which C51 to C55 are proved: in every state in which the
columns have equal lengths, its code run by one thread gives the same result, also exceptions and undefined behaviour, and leaves the same containers. -/
theorem C117_sequential (F : Fields V) (env : Env V) (hm : env.movedFrom = F.moved) (hn : 0 < n) {v : Vecs V} (W : Wf v) (o : TOp V)
    (ho : o.onElements = true) (t : Nat) : toRes (run env.throws (o.code F) t v) = o.seq F env ⟨v, t⟩ := by
  cases o with
  | size d => exact seq_size hn
  | getField d i j => exact (seq_getField hn W).1
  | setField d i j x => exact (seq_setField hn W).1
  | spanGet d i j => exact (seq_getField hn W).2
  | spanSet d i j x => exact (seq_setField hn W).2
  | getElem d i => exact seq_getElem hn W
  | assignElem d i x => exact seq_assignElem hn W
  | assignRef d i e k => exact seq_assignRef hn W
  | swapRef d i e k => exact seq_swapRef hn W
  | iterMove d i => exact seq_iterMove hm hn W
  | compare d i e k => exact seq_compare hn W
  | equal d e => exact seq_equal hn W
  | whole op => cases ho

end AnyAny.DpvFine
