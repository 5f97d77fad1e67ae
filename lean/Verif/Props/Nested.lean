import Verif.Spec.Nested
/-
C95: assignment of anys that are parts of each other's values.
-/
namespace AnyAny.Nested

private theorem lookup_append (c : Option Val) (p q : Path) : lookup c (p ++ q) = (lookup c p).bind fun c => lookup c q := by
  induction p generalizing c with
  | nil => rfl
  | cons i p ih =>
    match c with
    | none => rfl
    | some (.mk t d subs) =>
      simp only [List.cons_append, lookup]
      cases subs[i]? with
      | none => rfl
      | some c => exact ih c

private theorem lookup_put (c : Option Val) (p q : Path) (v : Option Val) (h : (lookup c p).isSome = true) :
    lookup (put c p v) (p ++ q) = lookup v q := by
  induction p generalizing c with
  | nil => rfl
  | cons i p ih =>
    match c with
    | none => simp [lookup] at h
    | some (.mk t d subs) =>
      simp only [lookup] at h
      cases hs : subs[i]? with
      | none => rw [hs] at h; simp at h
      | some c =>
        rw [hs] at h
        have hi : i < subs.length := (List.getElem?_eq_some_iff.1 hs).1
        simp only [put, hs, List.cons_append, lookup, List.getElem?_set_self hi]
        exact ih c h

/-- Paths that part. -/
private theorem lookup_put_apart (c : Option Val) (p q : Path) (v : Option Val) (h1 : ¬ p <+: q) (h2 : ¬ q <+: p) :
    lookup (put c p v) q = lookup c q := by
  induction p generalizing c q with
  | nil => exact absurd (List.nil_prefix) h1
  | cons i p ih =>
    match c, q with
    | _, [] => exact absurd (List.nil_prefix) h2
    | none, _ :: _ => rfl
    | some (.mk t d subs), j :: q =>
      cases hs : subs[i]? with
      | none => simp only [put, hs]
      | some c =>
        simp only [put, hs, lookup]
        by_cases hij : i = j
        · subst hij
          have hi : i < subs.length := (List.getElem?_eq_some_iff.1 hs).1
          rw [List.getElem?_set_self hi, hs]
          exact ih c q (fun h => h1 (List.cons_prefix_cons.2 ⟨rfl, h⟩)) (fun h => h2 (List.cons_prefix_cons.2 ⟨rfl, h⟩))
        · rw [List.getElem?_set_ne hij]

private theorem put_put (c : Option Val) (p : Path) (u v : Option Val) : put (put c p u) p v = put c p v := by
  induction p generalizing c with
  | nil => rfl
  | cons i p ih =>
    match c with
    | none => rfl
    | some (.mk t d subs) =>
      cases hs : subs[i]? with
      | none => simp only [put, hs]
      | some c =>
        have hi : i < subs.length := (List.getElem?_eq_some_iff.1 hs).1
        simp only [put, hs, List.getElem?_set_self hi, List.set_set, ih]

private theorem put_self (c : Option Val) (p : Path) (v : Option Val) (h : lookup c p = some v) : put c p v = c := by
  induction p generalizing c with
  | nil => simpa [lookup, put] using h.symm
  | cons i p ih =>
    match c with
    | none => rfl
    | some (.mk t d subs) =>
      simp only [lookup] at h
      cases hs : subs[i]? with
      | none => simp only [put, hs]
      | some c =>
        rw [hs] at h
        have hi : i < subs.length := (List.getElem?_eq_some_iff.1 hs).1
        have hc : subs[i] = c := (List.getElem?_eq_some_iff.1 hs).2
        have e := ih c h
        subst hc
        simp only [put, hs, e, List.set_getElem_self]

private theorem put_comm (c : Option Val) (p q : Path) (u v : Option Val) (h1 : ¬ p <+: q) (h2 : ¬ q <+: p) :
    put (put c p u) q v = put (put c q v) p u := by
  induction p generalizing c q with
  | nil => exact absurd (List.nil_prefix) h1
  | cons i p ih =>
    match c, q with
    | _, [] => exact absurd (List.nil_prefix) h2
    | none, _ :: _ => rfl
    | some (.mk t d subs), j :: q =>
      by_cases hij : i = j
      · subst hij
        cases hs : subs[i]? with
        | none => simp only [put, hs]
        | some c =>
          have hi : i < subs.length := (List.getElem?_eq_some_iff.1 hs).1
          simp only [put, hs, List.getElem?_set_self hi, List.set_set]
          rw [ih c q (fun h => h1 (List.cons_prefix_cons.2 ⟨rfl, h⟩)) (fun h => h2 (List.cons_prefix_cons.2 ⟨rfl, h⟩))]
      · have hji : j ≠ i := fun h => hij h.symm
        cases hs : subs[i]? <;> cases ht : subs[j]? <;>
          simp only [put, hs, ht, List.getElem?_set_ne hij, List.getElem?_set_ne hji]
        rw [List.set_comm _ _ hij]

/-! ### the same for variables -/

private theorem prefix_iff {l s : Loc} (hv : l.var = s.var) : l.path <+: s.path ↔ l = s ∨ Inside s l := by
  constructor
  · rintro ⟨r, hr⟩
    cases r with
    | nil => left; cases l; cases s; simp_all
    | cons i p => right; exact ⟨hv.symm, i, p, hr.symm⟩
  · rintro (rfl | ⟨_, i, p, h⟩)
    · exact List.prefix_refl _
    · exact ⟨i :: p, h.symm⟩

theorem get_set_self {w : World} {l : Loc} {v : Option Val} (h : (w.get l).isSome = true) : (w.set l v).get l = some v := by
  unfold World.get at h
  have := lookup_put (w l.var) l.path [] v h
  simpa [World.get, World.set, lookup] using this

private theorem get_set_inside {w : World} {l s : Loc} {v : Option Val} (h : Inside s l) : (w.set l v).get s = (w.set l v).get l >>= fun c => lookup c (s.path.drop l.path.length) := by
  obtain ⟨hv, i, p, hp⟩ := h
  simp only [World.get, hv]
  rw [hp, lookup_append]
  simp [bind]

private theorem get_inside_gone {w : World} {l s : Loc} (h : Inside s l) (hl : (w.get l).isSome = true) : (w.set l none).get s = none := by
  rw [get_set_inside h, get_set_self hl]
  obtain ⟨_, i, p, hp⟩ := h
  simp [hp, lookup]

private theorem get_set_apart {w : World} {l s : Loc} {v : Option Val} (h : Apart l s) : (w.set l v).get s = w.get s := by
  obtain ⟨hne, h1, h2⟩ := h
  unfold World.get World.set
  by_cases hv : s.var = l.var
  · rw [if_pos hv]
    refine lookup_put_apart _ _ _ _ (fun h => ?_) (fun h => ?_)
    · rcases (prefix_iff hv.symm).1 h with h | h
      · exact hne h
      · exact h1 h
    · rcases (prefix_iff hv).1 h with h | h
      · exact hne h.symm
      · exact h2 h
  · rw [if_neg hv]

theorem set_set_self {w : World} {l : Loc} {u v : Option Val} : (w.set l u).set l v = w.set l v := by
  funext x
  unfold World.set
  split <;> simp_all [put_put]

private theorem set_get_self {w : World} {l : Loc} {v : Option Val} (h : w.get l = some v) : w.set l v = w := by
  funext x
  unfold World.set
  split
  · rename_i hx; subst hx; exact put_self _ _ _ h
  · rfl

private theorem set_comm {w : World} {l s : Loc} {u v : Option Val} (h : Apart l s) : (w.set l u).set s v = (w.set s v).set l u := by
  obtain ⟨hne, h1, h2⟩ := h
  funext x
  unfold World.set
  by_cases hx : x = l.var <;> by_cases hy : x = s.var
  · have hv : l.var = s.var := hx.symm.trans hy
    simp only [if_pos hx, if_pos hy]
    refine put_comm _ _ _ _ _ (fun h => ?_) (fun h => ?_)
    · rcases (prefix_iff hv).1 h with h | h
      · exact hne h
      · exact h1 h
    · rcases (prefix_iff hv.symm).1 h with h | h
      · exact hne h.symm
      · exact h2 h
  · simp only [if_pos hx, if_neg hy]
  · simp only [if_neg hx, if_pos hy]
  · simp only [if_neg hx, if_neg hy]

private theorem inside_outer_exists {w : World} {l s : Loc} (h : Inside s l) (hs : (w.get s).isSome = true) : (w.get l).isSome = true := by
  obtain ⟨hv, i, p, hp⟩ := h
  unfold World.get at *
  rw [hv, hp, lookup_append] at hs
  cases hl : lookup (w l.var) l.path with
  | none => rw [hl] at hs; simp at hs
  | some c => rfl

/-- Changing a part of the value of `l` keeps `l`. -/
private theorem get_set_outer {w : World} {l s : Loc} {v : Option Val} (h : Inside s l) (hs : (w.get s).isSome = true) :
    ((w.set s v).get l).isSome = true := by
  obtain ⟨hv, i, p, hp⟩ := h
  have h1 : ((w.set s v).get s).isSome = true := by rw [get_set_self hs]; rfl
  exact inside_outer_exists ⟨hv, i, p, hp⟩ h1

/-! ### C95 -/

/-- The specification is what it should be: the target holds what the source held, the source is empty (unless it is the target or was in its old value), all
other anys outside the two are as they were. -/
theorem stdMoveAssign_spec {w w' : World} {l s : Loc} {v : Option Val} (hv : w.get s = some v) (hm : stdMoveAssign w l s = some w') :
    w'.get l = some v ∧ (Apart l s → w'.get s = some none) ∧ ∀ k, Apart l k → Apart s k → w'.get k = w.get k := by
  simp only [stdMoveAssign, hv, Option.bind_eq_bind, Option.bind_some] at hm
  cases hl : (w.set s none).get l with
  | none => rw [hl] at hm; cases hm
  | some x =>
    rw [hl] at hm
    cases hm
    have hl' : ((w.set s none).get l).isSome = true := by rw [hl]; rfl
    refine ⟨get_set_self hl', fun h => ?_, fun k h1 h2 => ?_⟩
    · rw [get_set_apart h]; exact get_set_self (by rw [hv]; rfl)
    · rw [get_set_apart h1, get_set_apart h2]

/-- **C95**, move assignment, for anys of which none is a part of the other (or which are the same): as for `std::any`, with all allocators. -/
theorem C95_move_partial (cfg : Cfg) (unequal : Bool) (w : World) {l s : Loc} (hl : (w.get l).isSome = true) (hs : (w.get s).isSome = true)
    (h : l = s ∨ Apart l s) : moveAssign cfg unequal w l s = stdMoveAssign w l s ∧ (stdMoveAssign w l s).isSome = true := by
  obtain ⟨v, hv⟩ := Option.isSome_iff_exists.1 hs
  obtain ⟨u, hu⟩ := Option.isSome_iff_exists.1 hl
  by_cases e : l = s
  · subst e
    have h1 : (w.set l none).get l = some none := get_set_self hl
    simp [moveAssign, stdMoveAssign, hv, h1, set_set_self, set_get_self hv]
  · have ha : Apart l s := h.resolve_left e
    have ha' : Apart s l := ⟨Ne.symm ha.1, ha.2.2, ha.2.1⟩
    have h1 : (w.set l none).get s = some v := by rw [get_set_apart ha, hv]
    have h2 : ∀ x, (w.set s x).get l = some u := fun x => by rw [get_set_apart ha', hu]
    have h3 : ∀ x, ((w.set l none).set s x).get l = some none := fun x => by rw [get_set_apart ha', get_set_self hl]
    have h4 : ∀ x y, ((w.set l x).set s y) = (w.set s y).set l x := fun x y => set_comm ha
    have hstd : stdMoveAssign w l s = some ((w.set s none).set l v) := by simp [stdMoveAssign, hv, h2]
    have key : ∀ x, v = some x → some (((w.set l none).set s none).set l (some x)) = some ((w.set s none).set l v) := by
      intro x hx; rw [h4, set_set_self, hx]
    have keyNone : v = none → w.set l none = (w.set s none).set l v := by
      intro hx; subst hx; rw [set_get_self hv]
    refine ⟨?_, by rw [hstd]; rfl⟩
    rw [hstd]
    have hmv : moveValueFrom (w.set l none) l s = some ((w.set s none).set l v) := by
      unfold moveValueFrom
      rw [h1]
      cases v with
      | none => simp only [Option.bind_eq_bind, Option.bind_some, pure]; rw [keyNone rfl]
      | some x => simp only [Option.bind_eq_bind, Option.bind_some, pure, h3]; exact key x rfl
    unfold moveAssign destroyValue
    rw [if_neg e]
    simp only [hu, Option.bind_eq_bind, Option.bind_some, pure, h1, hmv]
    split
    · rfl
    · split
      · rfl
      · cases unequal <;> cases v <;> dsimp only
        · rw [h3]; exact key _ rfl

/-- **C95** fails for move assignment: if the source is a part of the value of the target (`list = std::move(list.next)`), the behaviour is undefined, with all
allocators, whatever is in the anys; for `std::any` the target would get the value. -/
theorem C95_move_fails (cfg : Cfg) (unequal : Bool) (w : World) {l s : Loc} {v : Option Val} (hs : w.get s = some v) (h : Inside s l) :
    moveAssign cfg unequal w l s = none ∧ ∃ w', stdMoveAssign w l s = some w' ∧ w'.get l = some v := by
  have hs' : (w.get s).isSome = true := by rw [hs]; rfl
  have hl := inside_outer_exists h hs'
  obtain ⟨u, hu⟩ := Option.isSome_iff_exists.1 hl
  have hne : l ≠ s := by
    rintro rfl
    obtain ⟨_, i, p, hp⟩ := h
    have := congrArg List.length hp
    simp at this
  have hg := get_inside_gone h hl
  constructor
  · simp only [moveAssign, if_neg hne, destroyValue, hu, Option.bind_eq_bind, Option.bind_some, pure, moveValueFrom, hg, Option.bind_none]
    split
    · rfl
    · split <;> rfl
  · obtain ⟨x, hx⟩ := Option.isSome_iff_exists.1 (get_set_outer (v := none) h hs')
    refine ⟨(w.set s none).set l v, by simp [stdMoveAssign, hs, hx], get_set_self (by rw [hx]; rfl)⟩

/-- Moving an any into a part of its own value (`list.next = std::move(list)`) is undefined, with all allocators; for `std::any` too the target would not be there
any more. -/
theorem C95_into_itself (cfg : Cfg) (unequal : Bool) (w : World) {l s : Loc} (hl : (w.get l).isSome = true) (h : Inside l s) :
    moveAssign cfg unequal w l s = none ∧ stdMoveAssign w l s = none := by
  have hs := inside_outer_exists h hl
  obtain ⟨v, hv⟩ := Option.isSome_iff_exists.1 hs
  obtain ⟨u, hu⟩ := Option.isSome_iff_exists.1 hl
  have hne : l ≠ s := by
    rintro rfl
    obtain ⟨_, i, p, hp⟩ := h
    have := congrArg List.length hp
    simp at this
  have hs1 : ((w.set l none).get s).isSome = true := get_set_outer h hl
  obtain ⟨x, hx⟩ := Option.isSome_iff_exists.1 hs1
  have hl1 : ((w.set l none).get l).isSome = true := by rw [get_set_self hl]; rfl
  have hx' : ∃ y, x = some y := by
    cases x with
    | some y => exact ⟨y, rfl⟩
    | none =>
      have h1 : (w.set l none).get l = none := by
        obtain ⟨hv, i, p, hp⟩ := h
        unfold World.get at hx ⊢
        rw [hv, hp, lookup_append, hx]
        rfl
      rw [h1] at hl1
      cases hl1
  obtain ⟨y, rfl⟩ := hx'
  have hg : ((w.set l none).set s none).get l = none := get_inside_gone h hs1
  constructor
  · simp only [moveAssign, if_neg hne, destroyValue, hu, Option.bind_eq_bind, Option.bind_some, pure, moveValueFrom, hx, hg, Option.bind_none]
    split
    · rfl
    · split
      · rfl
      · cases unequal <;> rfl
  · simp [stdMoveAssign, hv, get_inside_gone h hs]

/-- **C95**, move assignment is the one of `std::any` exactly if the source is not a part of the value of the target. -/
theorem C95_move_exact (cfg : Cfg) (unequal : Bool) (w : World) {l s : Loc} (hl : (w.get l).isSome = true) (hs : (w.get s).isSome = true) :
    moveAssign cfg unequal w l s = stdMoveAssign w l s ↔ ¬ Inside s l := by
  obtain ⟨v, hv⟩ := Option.isSome_iff_exists.1 hs
  constructor
  · intro h hi
    obtain ⟨h1, w', h2, _⟩ := C95_move_fails cfg unequal w hv hi
    rw [h1, h2] at h
    cases h
  · intro hi
    by_cases h : Inside l s
    · obtain ⟨h1, h2⟩ := C95_into_itself cfg unequal w hl h
      rw [h1, h2]
    · by_cases e : l = s
      · exact (C95_move_partial cfg unequal w hl hs (.inl e)).1
      · exact (C95_move_partial cfg unequal w hl hs (.inr ⟨e, hi, h⟩)).1

/-- **C95**, copy assignment, wherever the anys are, unless the allocator is propagated on copy assignment and differs: as for `std::any`. -/
theorem C95_copy_partial (cfg : Cfg) (unequal : Bool) (w : World) {l s : Loc} (hl : (w.get l).isSome = true) (hs : (w.get s).isSome = true)
    (h : cfg.alwaysEqual = true ∨ cfg.pocca = false ∨ unequal = false ∨ ¬ Inside s l) :
    copyAssign cfg unequal w l s = stdCopyAssign w l s ∧ ∃ w', stdCopyAssign w l s = some w' ∧ w'.get l = w.get s := by
  obtain ⟨v, hv⟩ := Option.isSome_iff_exists.1 hs
  obtain ⟨u, hu⟩ := Option.isSome_iff_exists.1 hl
  have h1 : (w.set l none).get l = some none := get_set_self hl
  refine ⟨?_, w.set l v, by simp [stdCopyAssign, hv, hu], by rw [hv]; exact get_set_self hl⟩
  simp only [copyAssign, stdCopyAssign, hv, hu, Option.bind_eq_bind, Option.bind_some, pure, moveAssignLocal, destroyValue, h1, set_set_self]
  split
  · rename_i hc
    have hin : ¬ Inside s l := by
      rcases h with h | h | h | h
      · rw [hc.1] at h; cases h
      · rw [hc.2.1] at h; cases h
      · rw [hc.2.2] at h; cases h
      · exact h
    have hg : ∃ x, (w.set l none).get s = some x := by
      by_cases e : l = s
      · subst e; exact ⟨_, h1⟩
      · by_cases hi : Inside l s
        · exact Option.isSome_iff_exists.1 (get_set_outer hi hl)
        · exact ⟨v, by rw [get_set_apart ⟨e, hin, hi⟩, hv]⟩
    obtain ⟨x, hx⟩ := hg
    simp only [hx, Option.bind_some]
  · rfl

/-- In that case the behaviour is undefined: `other.alloc` is read after `other` has been destroyed. -/
theorem C95_copy_fails (cfg : Cfg) (w : World) {l s : Loc} (hs : (w.get s).isSome = true) (h : Inside s l)
    (h1 : cfg.alwaysEqual = false) (h2 : cfg.pocca = true) : copyAssign cfg true w l s = none := by
  have hl := inside_outer_exists h hs
  obtain ⟨v, hv⟩ := Option.isSome_iff_exists.1 hs
  obtain ⟨u, hu⟩ := Option.isSome_iff_exists.1 hl
  simp [copyAssign, hv, h1, h2, destroyValue, hu, get_inside_gone h hl]

/-- **C95**, copy assignment is the one of `std::any` exactly if not the source is a part of the value of the target, and the allocator is propagated and differs. -/
theorem C95_copy_exact (cfg : Cfg) (unequal : Bool) (w : World) {l s : Loc} (hl : (w.get l).isSome = true) (hs : (w.get s).isSome = true) :
    copyAssign cfg unequal w l s = stdCopyAssign w l s ↔ ¬(cfg.alwaysEqual = false ∧ cfg.pocca = true ∧ unequal = true ∧ Inside s l) := by
  constructor
  · rintro h ⟨h1, h2, rfl, h3⟩
    obtain ⟨v, hv⟩ := Option.isSome_iff_exists.1 hs
    obtain ⟨u, hu⟩ := Option.isSome_iff_exists.1 hl
    rw [C95_copy_fails cfg w hs h3 h1 h2] at h
    simp [stdCopyAssign, hv, hu] at h
  · intro h
    refine (C95_copy_partial cfg unequal w hl hs ?_).1
    by_cases h1 : cfg.alwaysEqual = false
    · by_cases h2 : cfg.pocca = true
      · by_cases h3 : unequal = true
        · exact .inr (.inr (.inr fun hi => h ⟨h1, h2, h3, hi⟩))
        · exact .inr (.inr (.inl (by simpa using h3)))
      · exact .inr (.inl (by simpa using h2))
    · exact .inl (by simpa using h1)

/-- **C95**, the way out: `l = Any(std::move(s))` is always the assignment of `std::any`. -/
theorem C95_temporary (w : World) (l s : Loc) : moveAssignTemporary w l s = stdMoveAssign w l s := by
  unfold moveAssignTemporary stdMoveAssign moveAssignLocal destroyValue
  cases w.get s with
  | none => rfl
  | some v =>
    cases hl : (w.set s none).get l with
    | none => simp [hl]
    | some u => simp [hl, set_set_self]

/-! A list with three nodes; each has an any `next`. -/

def exList : Option Val := some (.mk 1 10 [some (.mk 1 20 [some (.mk 1 30 [none])])])
def exWorld : World := fun x => if x = 0 then exList else none

example : Inside ⟨0, [0]⟩ ⟨0, []⟩ ∧ exWorld.get ⟨0, [0]⟩ = some (some (.mk 1 20 [some (.mk 1 30 [none])])) ∧
    moveAssign ⟨true, false, false⟩ false exWorld ⟨0, []⟩ ⟨0, [0]⟩ = none ∧
    ∃ w', moveAssignTemporary exWorld ⟨0, []⟩ ⟨0, [0]⟩ = some w' ∧ w' 0 = some (.mk 1 20 [some (.mk 1 30 [none])]) :=
  ⟨⟨rfl, 0, [], rfl⟩, rfl, rfl, _, rfl, rfl⟩

example : Inside ⟨0, [0, 0]⟩ ⟨0, [0]⟩ ∧ moveAssign ⟨true, false, false⟩ false exWorld ⟨0, [0, 0]⟩ ⟨0, [0]⟩ = none := ⟨⟨rfl, 0, [], rfl⟩, rfl⟩

example : Apart ⟨1, []⟩ ⟨0, [0]⟩ ∧ ∃ w', moveAssign ⟨false, false, false⟩ true exWorld ⟨1, []⟩ ⟨0, [0]⟩ = some w' ∧
    w' 1 = some (.mk 1 20 [some (.mk 1 30 [none])]) ∧ w' 0 = some (.mk 1 10 [none]) := by
  refine ⟨⟨by simp, ?_, ?_⟩, _, rfl, rfl, rfl⟩ <;> rintro ⟨h, _⟩ <;> cases h

example : ∃ w', copyAssign ⟨true, false, false⟩ false exWorld ⟨0, []⟩ ⟨0, [0, 0]⟩ = some w' ∧ w' 0 = some (.mk 1 30 [none]) := ⟨_, rfl, rfl⟩

example : copyAssign ⟨false, true, false⟩ true exWorld ⟨0, []⟩ ⟨0, [0, 0]⟩ = none := rfl

end AnyAny.Nested
