import Verif.Model.SwarmRange
/-
C115: ranges inserted in a `variant_swarm`.
-/
namespace AnyAny.SwarmRange

/-- What a user expects: the elements are added, in order, at the end of the container of their type, and nothing else changes. -/
def Expected (ts : List Ty) (v : Ty) (xs : List Nat) (s s' : List (List Nat)) : Prop :=
  s'.length = s.length ∧
  ∀ (j : Nat) (t : Ty) (l : List Nat), ts[j]? = some t → s[j]? = some l → s'[j]? = some (if t = v then l ++ xs else l)

theorem ne_container (t : Ty) : t ≠ .container t := by
  intro h
  have := congrArg sizeOf h
  simp at this

theorem map_value (ts : List Ty) : (containers ts).map valueType = ts := by
  simp [containers, Function.comp_def, valueType]

theorem getByType_some {t : Ty} {ts : List Ty} {i : Nat} :
    getByType t ts = some i ↔ ts.count t = 1 ∧ i = ts.idxOf t := by
  unfold getByType
  split
  · rename_i h
    simp [h, eq_comm]
  · rename_i h
    simp [h]

theorem count_container (t : Ty) (ts : List Ty) : (containers ts).count (.container t) = ts.count t := by
  induction ts with
  | nil => rfl
  | cons a ts ih =>
    have : containers (a :: ts) = .container a :: containers ts := rfl
    rw [this, List.count_cons, List.count_cons, ih]
    congr 1
    by_cases h : a = t
    · subst h; simp
    · simp [h]

theorem idx_container (t : Ty) (ts : List Ty) : (containers ts).idxOf (.container t) = ts.idxOf t := by
  induction ts with
  | nil => rfl
  | cons a ts ih =>
    have : containers (a :: ts) = .container a :: containers ts := rfl
    rw [this, List.idxOf_cons, List.idxOf_cons, ih]
    by_cases h : a = t
    · subst h; simp
    · have h1 : (a == t) = false := by simp [h]
      have h2 : (Ty.container a == Ty.container t) = false := by simp [h]
      rw [h1, h2]

theorem container_of_count {v : Ty} {ts : List Ty} (h : (containers ts).count v = 1) : ∃ t ∈ ts, v = .container t := by
  have : v ∈ containers ts := List.count_pos_iff.1 (by omega)
  obtain ⟨t, ht, rfl⟩ := List.mem_map.1 this
  exact ⟨t, ht, rfl⟩

theorem getElem_idxOf {t : Ty} {ts : List Ty} (h : t ∈ ts) : ts[ts.idxOf t]? = some t := by
  rw [List.getElem?_eq_getElem (List.idxOf_lt_length_of_mem h)]
  simp

/-! ### C115 -/

/-- C115, exactly: `insert(first, last)` compiles only if the swarm has a type `T` (once), and a type `std::vector<T>`, which is that of the
elements of the range, and if a `T` can be made from a `std::vector<T>`. The elements are then converted and added to the container for `T`. -/
theorem C115_exact (W : World) (ts : List Ty) (v : Ty) (xs : List Nat) (s s' : List (List Nat)) :
    insertRange W ts v xs s = some s' ↔
      v ∈ ts ∧ ∃ t f, v = .container t ∧ ts.count t = 1 ∧ W.conv t v = some f ∧ s' = s.modify (ts.idxOf t) (· ++ xs.map f) := by
  unfold insertRange
  rw [map_value]
  constructor
  · intro h
    split at h
    · rename_i hv
      refine ⟨hv, ?_⟩
      split at h
      · cases h
      · rename_i i hi
        obtain ⟨hc, rfl⟩ := getByType_some.1 hi
        obtain ⟨t, ht, rfl⟩ := container_of_count hc
        rw [idx_container, getElem_idxOf ht] at h
        simp only at h
        split at h
        · cases h
        · rename_i f hf
          rw [count_container] at hc
          exact ⟨t, f, rfl, hc, hf, (Option.some.inj h).symm⟩
    · cases h
  · rintro ⟨hv, t, f, rfl, hc, hf, rfl⟩
    have ht : t ∈ ts := List.count_pos_iff.1 (by omega)
    rw [if_pos hv, getByType_some.2 ⟨by rw [count_container]; exact hc, rfl⟩]
    simp only [idx_container, getElem_idxOf ht, hf]

/-- C115, what is left of it: where the call compiles nothing is lost, each container has what it had before, in order, and as many objects
are added in all as the range has elements, all in one container. -/
theorem C115_partial (W : World) (ts : List Ty) (v : Ty) (xs : List Nat) (s s' : List (List Nat))
    (h : insertRange W ts v xs s = some s') :
    s'.length = s.length ∧
    ∃ i, ∀ (j : Nat) (l : List Nat), s[j]? = some l →
      ∃ ys, s'[j]? = some (l ++ ys) ∧ ys.length = if j = i then xs.length else 0 := by
  obtain ⟨_, t, f, rfl, _, _, rfl⟩ := (C115_exact W ts v xs s s').1 h
  refine ⟨List.length_modify .., ts.idxOf t, fun j l hj => ?_⟩
  rw [List.getElem?_modify, hj]
  by_cases e : j = ts.idxOf t
  · exact ⟨xs.map f, by simp [e], by simp [e]⟩
  · exact ⟨[], by simp [Ne.symm e], by simp [e]⟩

/-- C115 fails, for every swarm and every range that has elements: either the call does not compile, or the elements are not added to the
container of their type. -/
theorem C115_fails (W : World) (ts : List Ty) (v : Ty) (xs : List Nat) (s s' : List (List Nat)) (hl : s.length = ts.length) (hx : xs ≠ [])
    (h : insertRange W ts v xs s = some s') : ¬ Expected ts v xs s s' := by
  obtain ⟨_, t, f, rfl, hc, _, rfl⟩ := (C115_exact W ts v xs s s').1 h
  rintro ⟨_, he⟩
  have ht : t ∈ ts := List.count_pos_iff.1 (by omega)
  have hi : ts.idxOf t < s.length := by rw [hl]; exact List.idxOf_lt_length_of_mem ht
  have := he (ts.idxOf t) t (s[ts.idxOf t]'hi) (getElem_idxOf ht) (List.getElem?_eq_getElem hi)
  rw [if_neg (ne_container t), List.getElem?_modify, List.getElem?_eq_getElem hi] at this
  simp at this
  exact hx this

/-- C115 fails: for types that are no containers, as `int`, the call does not compile. -/
theorem C115_user_fails (W : World) (ts : List Ty) (n : Nat) (xs : List Nat) (s : List (List Nat)) :
    insertRange W ts (.user n) xs s = none := by
  cases h : insertRange W ts (.user n) xs s with
  | none => rfl
  | some s' =>
    obtain ⟨_, t, _, h, _⟩ := (C115_exact W ts _ xs s s').1 h
    cases h

/-- Conversions to type 0, which can be made from everything, like `std::any`. -/
def exWorld : World where
  conv t u := if t = u then some id else if t = .user 0 then some (fun x => x + 100) else none
  same t := by simp

/-- A swarm of `std::any`, `std::vector<std::any>` and another type: vectors inserted are put into the container of the `std::any`s. -/
example : insertRange exWorld [.user 0, .container (.user 0), .user 1] (.container (.user 0)) [5, 6] [[1], [2], [3]] =
    some [[1, 105, 106], [2], [3]] ∧
    insertRange exWorld [.user 0, .container (.user 0), .user 1] (.user 1) [5, 6] [[1], [2], [3]] = none := by decide

end AnyAny.SwarmRange
