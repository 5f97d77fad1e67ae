import Verif.Spec.DpvRefs
import Verif.Props.Dpv
/-
C90: what iterators and references refer to after an operation. An iterator, like a reference, of `data_parallel_vector` is a container and a
position (data_parallel_vector.hpp:77-78, 239-240), so that `*it` for an iterator that was made for the element `k` of `d` is `elem d k` at any time.
-/
namespace AnyAny.Dpv

variable {n : Nat} {V : Fin n → Type} {env : Env V} {w : World V} {S : SVecs V}

theorem upd_self' {α} (f : Nat → Option α) (k : Nat) (v) : upd f k v k = v := by simp [upd]
theorem upd_ne' {α} (f : Nat → Option α) {k x : Nat} (v) (h : x ≠ k) : upd f k v x = f x := by simp [upd, h]

/-- The specification is what it should be: the element an iterator of `std::vector` refers to afterwards has the value it had before,
unless the operation writes to it. -/
theorem vecRef_value {op : Op V} (L : Legal S op) {d k : Nat} {xs : List (Rec V)} (hd : S d = some xs) (hk : k < xs.length) {p : Nat × Nat}
    (hp : vecRef S op d k = some p) (hw : ¬ writes op d k) : ((specStep env S op) p.1).bind (·[p.2]?) = some xs[k] := by
  have base : (S d).bind (·[k]?) = some xs[k] := by simp [hd, hk]
  have new : ∀ {a} {v : Option (List (Rec V))}, S a = none → (upd S a v d).bind (·[k]?) = some xs[k] := by
    intro a v ha
    have : d ≠ a := fun h => by rw [h, ha] at hd; cases hd
    rw [upd_ne' _ _ this]; exact base
  have onD : ∀ {a} {f : List (Rec V) → List (Rec V)}, (d = a → (f xs)[k]? = some xs[k]) →
      (upd S a ((S a).map f) d).bind (·[k]?) = some xs[k] := by
    intro a f h
    by_cases ha : d = a
    · subst ha; rw [upd_self', hd]; exact h rfl
    · rw [upd_ne' _ _ ha]; exact base
  have other : ∀ {a} {v : Option (List (Rec V))}, d ≠ a → (upd S a v d).bind (·[k]?) = some xs[k] := by
    intro a v h; rw [upd_ne' _ _ h]; exact base
  have ins : ∀ {i : Nat} {ys : List (Rec V)}, k < i → (xs.take i ++ ys ++ xs.drop i)[k]? = some xs[k] := by
    intro i ys hi
    rw [List.append_assoc, List.getElem?_append_left (by simp; omega), List.getElem?_take_of_lt hi]
    simp [hk]
  cases op with
  | defaultCtor a | countValueCtor a _ _ | countCtor a _ | rangeCtor a _ _ => cases hp; exact new L
  | copyCtor a s => cases hp; exact new L.1
  | moveCtor a s =>
    simp only [vecRef] at hp
    split at hp
    · rename_i h; subst h; cases hp
      simp only [specStep, upd_self']; exact base
    · rename_i h; cases hp
      have ha : d ≠ a := fun h => by rw [h, L.1] at hd; cases hd
      simp only [specStep, upd_ne' _ _ ha, upd_ne' _ _ h]; exact base
  | dtor a | clear a | copyAssign a _ | assignCount a _ _ _ | assignRange a _ _ _ =>
    simp only [vecRef] at hp
    split at hp <;> cases hp
    rename_i h
    exact other h
  | moveAssign a s =>
    simp only [vecRef] at hp
    split at hp
    · rename_i h; cases hp; simp only [specStep, h, if_true]; exact base
    · rename_i has
      split at hp
      · cases hp
      · rename_i hda
        split at hp
        · rename_i h; subst h; cases hp
          simp only [specStep, has, if_false, upd_self']; exact base
        · rename_i h; cases hp
          simp only [specStep, has, if_false, upd_ne' _ _ hda, upd_ne' _ _ h]; exact base
  | emplace a i _ | insertVal a i _ | insertCount a i _ _ | insertRange a i _ _ =>
    simp only [vecRef] at hp
    split at hp <;> cases hp
    rename_i h
    exact onD fun ha => ins (by omega)
  | erase a i =>
    simp only [vecRef] at hp
    split at hp <;> cases hp
    rename_i h
    exact onD fun ha => by
      have : k < i := by omega
      rw [List.getElem?_eraseIdx_of_lt this]; simp [hk]
  | emplaceBack a v | pushBack a v =>
    cases hp
    exact onD fun ha => by rw [List.getElem?_append_left hk]; simp [hk]
  | popBack a =>
    simp only [vecRef] at hp
    split at hp <;> cases hp
    rename_i h
    exact onD fun ha => by
      subst ha
      have : xs.length ≠ k + 1 := fun e => h ⟨rfl, by simp [hd, e]⟩
      rw [List.dropLast_eq_take, List.getElem?_take_of_lt (by omega)]; simp [hk]
  | reserve | shrinkToFit => cases hp; exact base
  | resize a c | resizeVal a c _ =>
    simp only [vecRef] at hp
    split at hp <;> cases hp
    rename_i h
    exact onD fun ha => by
      have : k < c := by omega
      rw [List.getElem?_append_left (by simp; omega), List.getElem?_take_of_lt this]; simp [hk]
  | swap a b =>
    simp only [vecRef] at hp
    split at hp
    · rename_i h; subst h; cases hp
      simp only [specStep, upd_self']; exact base
    · rename_i hda
      split at hp
      · rename_i h; subst h; cases hp
        have : a ≠ d := fun h => hda h.symm
        simp only [specStep, upd_ne' _ _ this, upd_self']; exact base
      · rename_i hdb; cases hp
        simp only [specStep, upd_ne' _ _ hdb, upd_ne' _ _ hda]; exact base
  | assignElem a i v =>
    cases hp
    exact onD fun ha => by
      have : i ≠ k := fun h => hw ⟨ha.symm, h⟩
      rw [List.getElem?_set_ne this]; simp [hk]
  | assignRef a i b j =>
    cases hp
    refine onD fun ha => ?_
    have : i ≠ k := fun h => hw ⟨ha.symm, h⟩
    split
    · rw [List.getElem?_set_ne this]; simp [hk]
    · simp [hk]
  | swapRef a i b j =>
    cases hp
    simp only [specStep, specSwapRef]
    rcases (S a).bind (·[i]?) with _ | x <;> rcases (S b).bind (·[j]?) with _ | y
    case some.some =>
      dsimp only
      have h1 : (upd S a ((S a).map (·.set i y)) d).bind (·[k]?) = some xs[k] := onD fun ha => by
        have : i ≠ k := fun h => hw (.inl ⟨ha.symm, h⟩)
        rw [List.getElem?_set_ne this]; simp [hk]
      by_cases hb : d = b
      · subst hb
        have : j ≠ k := fun h => hw (.inr ⟨rfl, h⟩)
        rw [upd_self']
        cases hu : upd S a ((S a).map (·.set i y)) d with
        | none => rw [hu] at h1; cases h1
        | some ys => rw [hu] at h1; simpa [List.getElem?_set_ne this] using h1
      · rw [upd_ne' _ _ hb]; exact h1
    all_goals exact base
  | iterMove a i | setField a i _ _ =>
    cases hp
    exact onD fun ha => by
      have : i ≠ k := fun h => hw ⟨ha.symm, h⟩
      rw [List.getElem?_modify_ne _ _ this]; simp [hk]

/-- **C90**. In every history, after every operation other than `swap`, move construction and move assignment: an iterator or reference to an element
gives what an iterator of `std::vector` to the same element gives, whenever that would be valid if the vector did not reallocate. So
reallocation does not invalidate iterators. -/
theorem C90_iterators_partial (hn : 0 < n) (h : Reach env w S) {op : Op V} (L : Legal S op)
    (hdef : usesDefault op = true → env.recDefault = env.fieldDefault) (ht : takesOver op = false) {out : Out V} {w' : World V}
    (he : exec env op w = .ok out w') {d k : Nat} {xs : List (Rec V)} (hd : S d = some xs) (hk : k < xs.length) {p : Nat × Nat}
    (hp : vecRef S op d k = some p) :
    ∃ r, ((specStep env S op) p.1).bind (·[p.2]?) = some r ∧ elem d k w' = .ok r w' := by
  have hpk : p = (d, k) := by
    cases op <;> simp only [vecRef, takesOver, Bool.true_eq_false] at hp ht <;> (first | cases hp; rfl | (split at hp <;> cases hp; rfl))
  subst hpk
  have hst := h.step L hdef he
  have hsome : ∃ ys, (specStep env S op) d = some ys ∧ k < ys.length := by
    by_cases hw : writes op d k
    · have len : ∀ {a} {f : List (Rec V) → List (Rec V)}, (∀ l, (f l).length = l.length) →
          ∃ ys, upd S a ((S a).map f) d = some ys ∧ k < ys.length := by
        intro a f hf
        by_cases ha : d = a
        · subst ha; exact ⟨f xs, by rw [upd_self', hd]; rfl, by rw [hf]; exact hk⟩
        · exact ⟨xs, by rw [upd_ne' _ _ ha]; exact hd, hk⟩
      cases op <;> simp only [writes] at hw
      case assignElem a i v => exact len fun _ => List.length_set
      case assignRef a i b j => exact len fun l => by split <;> simp
      case swapRef a i b j =>
        simp only [specStep, specSwapRef]
        rcases (S a).bind (·[i]?) with _ | x <;> rcases (S b).bind (·[j]?) with _ | y
        case some.some =>
          dsimp only
          obtain ⟨ys, hy, hl⟩ := len (a := a) (f := (·.set i y)) fun _ => List.length_set
          by_cases hb : d = b
          · subst hb; exact ⟨ys.set j x, by rw [upd_self', hy]; rfl, by simpa using hl⟩
          · exact ⟨ys, by rw [upd_ne' _ _ hb]; exact hy, hl⟩
        all_goals exact ⟨xs, hd, hk⟩
      case iterMove a i => exact len fun _ => List.length_modify ..
      case setField a i j x => exact len fun _ => List.length_modify ..
    · have := vecRef_value (env := env) L hd hk hp hw
      cases hs : (specStep env S op) d with
      | none => rw [hs] at this; cases this
      | some ys =>
        rw [hs] at this
        exact ⟨ys, rfl, (List.getElem?_eq_some_iff.1 this).1⟩
  obtain ⟨ys, hy, hl⟩ := hsome
  exact ⟨ys[k], by simp [hy, hl], (C51_observations hn hst hy).2.2.1 k hl⟩

/-- **C90**, without the specification: after such an operation, an element that was not written to, removed or shifted is what iterators
and references to it still give. -/
theorem C90_value (hn : 0 < n) (h : Reach env w S) {op : Op V} (L : Legal S op)
    (hdef : usesDefault op = true → env.recDefault = env.fieldDefault) (ht : takesOver op = false) {out : Out V} {w' : World V}
    (he : exec env op w = .ok out w') {d k : Nat} {r : Rec V} (hr : elem d k w = .ok r w) (hv : (vecRef S op d k).isSome = true)
    (hw : ¬ writes op d k) : elem d k w' = .ok r w' := by
  cases hd : S d with
  | none => rw [elem, bind, Monad.toBind, instMonadM] at hr; simp [M.bind, get, (h.rep hn).none d hd] at hr
  | some xs =>
    have hk : k < xs.length := by
      rcases Nat.lt_or_ge k xs.length with hk | hk
      · exact hk
      · rw [(C51_observations hn h hd).2.2.2.1 k hk] at hr; cases hr
    obtain ⟨p, hp⟩ := Option.isSome_iff_exists.1 hv
    obtain ⟨r', h1, h2⟩ := C90_iterators_partial hn h L hdef ht he hd hk hp
    rw [vecRef_value (env := env) L hd hk hp hw] at h1
    cases h1
    rw [(C51_observations hn h hd).2.2.1 k hk] at hr
    cases hr
    exact h2

/-- **C90**, `swap(a, b)`, exactly: an iterator into `a` gives the element of `b` at the same position, if there is one; it is invalid otherwise.
(An iterator of `std::vector` would refer to the element it referred to before, which is now in `b`.) -/
theorem C90_swap_exact (hn : 0 < n) (h : Reach env w S) {a b : Nat} {xs ys : List (Rec V)} (ha : S a = some xs) (hb : S b = some ys) (hne : a ≠ b)
    {out : Out V} {w' : World V} (he : exec env (.swap a b) w = .ok out w') (k : Nat) :
    elem a k w' = (match ys[k]? with | some r => .ok r w' | none => .ub) ∧ elem b k w' = (match xs[k]? with | some r => .ok r w' | none => .ub) := by
  have hst := h.step (op := .swap a b) ⟨by simp [ha], by simp [hb]⟩ (fun h => by cases h) he
  have h1 : (specStep env S (.swap a b)) a = some ys := by simp only [specStep, upd_ne' _ _ hne, upd_self', hb]
  have h2 : (specStep env S (.swap a b)) b = some xs := by simp only [specStep, upd_self', ha]
  have key : ∀ {d zs}, (specStep env S (.swap a b)) d = some zs → elem d k w' = (match zs[k]? with | some r => .ok r w' | none => .ub) := by
    intro d zs hz
    rcases Nat.lt_or_ge k zs.length with hk | hk
    · rw [(C51_observations hn hst hz).2.2.1 k hk]; simp [hk]
    · rw [(C51_observations hn hst hz).2.2.2.1 k hk]; simp [List.getElem?_eq_none hk]
  exact ⟨key h1, key h2⟩

/-- The full C90 fails for `swap`: whenever two containers of the same length differ at a position, the iterator to it reads something else than
the iterator of `std::vector`. -/
theorem C90_swap_fails (hn : 0 < n) (h : Reach env w S) {a b : Nat} {xs ys : List (Rec V)} (ha : S a = some xs) (hb : S b = some ys) (hne : a ≠ b)
    {out : Out V} {w' : World V} (he : exec env (.swap a b) w = .ok out w') {k : Nat} (hk : k < xs.length) (hk' : k < ys.length) (hx : xs[k] ≠ ys[k]) :
    ∃ p r r', vecRef S (.swap a b) a k = some p ∧ ((specStep env S (.swap a b)) p.1).bind (·[p.2]?) = some r ∧ elem a k w' = .ok r' w' ∧ r ≠ r' := by
  refine ⟨(b, k), xs[k], ys[k], by simp [vecRef], ?_, ?_, hx⟩
  · simp [specStep, upd_self', ha, hk]
  · rw [(C90_swap_exact hn h ha hb hne he k).1]; simp [hk']

/-- **C90**, moves, exactly: all iterators into the source are invalid. (Iterators of `std::vector` would refer to the elements, which are now in
the new container.) -/
theorem C90_move_exact (hn : 0 < n) (h : Reach env w S) {a s : Nat} {op : Op V} (hop : op = .moveCtor a s ∨ op = .moveAssign a s) (L : Legal S op)
    (hne : a ≠ s) {out : Out V} {w' : World V} (he : exec env op w = .ok out w') (k : Nat) : elem s k w' = .ub := by
  have hst := h.step L (fun h => by rcases hop with rfl | rfl <;> cases h) he
  have hs : (specStep env S op) s = some [] := by
    rcases hop with rfl | rfl
    · simp only [specStep, upd_ne' _ _ (Ne.symm hne), upd_self']
    · simp only [specStep, hne, if_false, upd_ne' _ _ (Ne.symm hne), upd_self']
  exact (C51_observations hn hst hs).2.2.2.1 k (Nat.zero_le k)

/-! Examples: an iterator to the first element, before an insertion that reallocates; a swap of two containers. -/

example : ∃ w w' out, Reach (exEnv fun _ => false) w (upd (fun _ => none) 0 (some [exRec 1 "a"])) ∧
    exec (exEnv fun _ => false) (.insertCount 0 1 5 (exRec 2 "b")) w = .ok out w' ∧ capacity 0 w = .ok 1 w ∧ capacity 0 w' = .ok 6 w' ∧
    elem 0 0 w' = .ok (exRec 1 "a") w' := by
  have h : Reach (exEnv fun _ => false) _ _ :=
    Reach.step Reach.init (op := .countValueCtor 0 1 (exRec 1 "a")) rfl (fun h => (by cases h)) rfl
  refine ⟨_, _, _, h, rfl, rfl, rfl, ?_⟩
  exact C90_value (by decide) h (op := .insertCount 0 1 5 (exRec 2 "b")) ⟨[exRec 1 "a"], rfl, by decide⟩ (fun h => (by cases h)) rfl rfl
    ((C51_observations (xs := [exRec 1 "a"]) (by decide) h rfl).2.2.1 0 (by decide)) rfl id

example : ∃ w w' out S, Reach (exEnv fun _ => false) w S ∧ exec (exEnv fun _ => false) (.swap 0 1) w = .ok out w' ∧
    ∃ p r r', vecRef S (.swap 0 1) 0 0 = some p ∧ ((specStep (exEnv fun _ => false) S (.swap 0 1)) p.1).bind (·[p.2]?) = some r ∧
      elem 0 0 w' = .ok r' w' ∧ r ≠ r' := by
  have h : Reach (exEnv fun _ => false) _ _ := Reach.step (Reach.step Reach.init (op := .countValueCtor 0 1 (exRec 1 "a")) rfl (fun h => (by cases h)) rfl)
    (op := .countValueCtor 1 1 (exRec 2 "b")) rfl (fun h => (by cases h)) rfl
  refine ⟨_, _, _, _, h, rfl, C90_swap_fails (by decide) h (xs := [exRec 1 "a"]) (ys := [exRec 2 "b"]) rfl rfl (by decide) rfl (by decide) (by decide) ?_⟩
  intro e
  have := congrFun e 0
  simp [exRec] at this

example : ∃ w w' out, Reach (exEnv fun _ => false) w (upd (fun _ => none) 0 (some [exRec 1 "a"])) ∧
    exec (exEnv fun _ => false) (.moveCtor 1 0) w = .ok out w' ∧ elem 0 0 w' = .ub := by
  have h : Reach (exEnv fun _ => false) _ _ :=
    Reach.step Reach.init (op := .countValueCtor 0 1 (exRec 1 "a")) rfl (fun h => (by cases h)) rfl
  exact ⟨_, _, _, h, rfl, C90_move_exact (by decide) h (.inl rfl) ⟨rfl, rfl⟩ (by decide) rfl 0⟩

end AnyAny.Dpv
