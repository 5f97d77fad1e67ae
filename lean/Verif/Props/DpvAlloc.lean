import Verif.Lemmas.DpvAlloc
/-
C87: the allocators of `data_parallel_vector`.
-/
namespace AnyAny.DpvAlloc

variable {T : Traits} {n : Nat}

/-- In every history of containers, with exceptions, every column has the allocator that a `std::vector<T, Alloc>` has after the same
operations. Not covered, because it is not so (`C87_assign_fails`, `C87_copyAssign_exception_fails`): histories in which `assign` or
`= {...}` is used with allocators propagated on move assignment, or a copy assignment with allocators propagated on copy assignment throws. -/
theorem C87_allocators_partial {w : World n} {S} (h : Reach T w S) (d : Nat) :
    (w d).isSome = (S d).isSome ∧ ∀ p a, w d = some p → S d = some a → ∀ j, (p j).alloc = a := by
  have := h.both.2 d
  cases hw : w d <;> cases hS : S d <;> rw [hw, hS] at this
  · simp
  · exact this.elim
  · exact this.elim
  · refine ⟨rfl, ?_⟩
    rintro p a ⟨⟩ ⟨⟩
    exact this

/-- In every history memory is given back only to an allocator equal to the one it was obtained from: no operation of containers that exist
is undefined behaviour, whatever was thrown before. `swap` requires that allocators are swapped or those of the same columns are equal, as
it does for `std::vector`. -/
theorem C87_defined {w : World n} (h : Any T w) {op} (L : Fits w op) (o1 o : Oracle n)
    (hs : ∀ d e p q, op = .swap d e → w d = some p → w e = some q → ∀ j, T.pocs = true ∨ T.eq (p j).alloc (q j).alloc = true) :
    (exec T o1 o w op).isSome = true := by
  obtain ⟨r, hr, _⟩ := exec_safe h.safe L o1 o hs
  rw [hr]; rfl

/-- In every history every buffer was obtained from an allocator equal to the one that its column has, so that it can be given back. -/
theorem C87_buffers {w : World n} (h : Any T w) {d p j b} (hp : w d = some p) (hb : (p j).buf = some b) : (p j).alloc = b ∨ T.alwaysEqual = true := by
  have := h.safe d p hp j b hb
  simp only [Traits.eq, Bool.or_eq_true, beq_iff_eq] at this
  exact this.symm

/-- The same in the histories of `C87_allocators_partial`, for the preconditions of `std::vector`. -/
theorem C87_legal_defined {w : World n} {S} (h : Reach T w S) {op} (L : Legal T S op) (o1 o : Oracle n) :
    (exec T o1 o w op).isSome = true := by
  obtain ⟨hs, hr⟩ := h.both
  obtain ⟨r, he, _⟩ := exec_safe hs (Legal.fits hr L) o1 o (by
    rintro d e p q rfl hp hq j
    obtain ⟨_, a, b, ha, hb, hq'⟩ := L
    obtain ⟨p2, hp2, h1⟩ := hr.getS ha
    obtain ⟨q2, hq2, h2⟩ := hr.getS hb
    rw [hp] at hp2; cases hp2; rw [hq] at hq2; cases hq2
    rw [h1 j, h2 j]; exact hq')
  rw [he]; rfl

/-- What `assign(...)` and `= {...}` do to the allocators, in any history: if allocators are propagated on move assignment, every column
gets `Alloc()`, and otherwise keeps its own. -/
theorem C87_assign_exact {w : World n} (h : Any T w) {d p} (hd : w d = some p) (o1 o : Oracle n) {w'}
    (he : exec T o1 o w (.assign d) = some (w', false)) :
    ∃ p', w' d = some p' ∧ ∀ j, (p' j).alloc = if T.pocma then T.dflt else (p j).alloc := by
  obtain ⟨t, h1, h2, h3⟩ := cols_good (o := o1) (p := fun _ => Col.make T.dflt false) (f := fun j c => c.modify T (o1.grows j))
    (P := fun _ c => Good T c ∧ c.alloc = T.dflt)
    (fun j => modify_good (good_make (T := T) T.dflt false) (o1.grows j))
  simp only [exec, assign, hd, h1, Option.bind_eq_bind, Option.bind_some] at he
  cases ho : o1.throws with
  | some _ => rw [ho] at he; dsimp only at he; split at he <;> cases he
  | none =>
    rw [ho] at he
    obtain ⟨r, hr, _, k2, _, k4⟩ := moveParts_good (h.safe d p hd) (fun j => (h3 ho j).1) o
    simp only [hr, Option.bind_some, destroyed_good k2, if_true, Option.some.injEq, Prod.mk.injEq] at he
    obtain ⟨rfl, _⟩ := he
    exact ⟨r.1, by simp [upd], fun j => by rw [k4 j, (h3 ho j).2]⟩

/-- `assign` on a container whose allocators are propagated on move assignment: a container made with allocator 7 has allocator 0 (`Alloc()`) afterwards, a `std::vector` keeps 7. -/
theorem C87_assign_fails (n : Nat) :
    ∃ (T : Traits) (w : World (n + 1)) (S : Nat → Option Nat) (o : Oracle (n + 1)) (w' : World (n + 1)), Reach T w S ∧ Legal T S (.assign 0) ∧
      exec T o o w (.assign 0) = some (w', false) ∧ vectorStep T S (.assign 0) 0 = some 7 ∧
      ∃ p, w' 0 = some p ∧ ∀ j, (p j).alloc = 0 := by
  let T : Traits := ⟨false, true, false, false, id, 0⟩
  let o : Oracle (n + 1) := ⟨fun _ => true, none⟩
  have h0 : Reach T (fun _ : Nat => (none : Option (Parts (n + 1)))) fun _ => none := .init
  have h1 := h0.step (op := .makeAlloc 0 7) (o1 := o) (o := o) (L := (rfl : _ = none)) (hp := fun d h => by cases h) (he := rfl)
  have hs : (exec T o o (upd (fun _ => none) 0 (some fun _ => Col.make 7 false)) (.assign 0)).isSome = true :=
    C87_legal_defined h1 (op := .assign 0) rfl o o
  obtain ⟨⟨w', x⟩, he⟩ := Option.isSome_iff_exists.1 hs
  have hx : x = false := by
    simp only [exec, assign] at he
    obtain ⟨_, he1, he⟩ := Option.bind_eq_some_iff.1 he
    obtain ⟨_, he2, he⟩ := Option.bind_eq_some_iff.1 he
    obtain ⟨_, he3, he⟩ := Option.bind_eq_some_iff.1 he
    split at he <;> cases he
    rfl
  subst hx
  have hA : Any T (upd (fun _ => none) 0 (some fun _ : Fin (n + 1) => Col.make 7 false)) :=
    Any.init.step (op := .makeAlloc 0 7) (o1 := o) (o := o) (x := false) (L := (rfl : _ = none)) (he := rfl)
  obtain ⟨p, hp, ha⟩ := C87_assign_exact hA (d := 0) (p := fun _ => Col.make 7 false) rfl o o he
  exact ⟨T, _, _, o, w', h1, rfl, he, rfl, p, hp, fun j => ha j⟩

/-- Copy assignment with allocators propagated on copy assignment, when the second column throws: the first has the new allocator, the
second the old one. -/
theorem C87_copyAssign_exception_fails :
    ∃ (T : Traits) (w : World 2) (S : Nat → Option Nat) (o : Oracle 2) (w' : World 2), Reach T w S ∧ Legal T S (.copyAssign 0 1) ∧
      exec T o o w (.copyAssign 0 1) = some (w', true) ∧ ∃ p, w' 0 = some p ∧ (p 0).alloc ≠ (p 1).alloc := by
  let T : Traits := ⟨true, false, false, false, id, 0⟩
  let o : Oracle 2 := ⟨fun _ => true, none⟩
  let o' : Oracle 2 := ⟨fun _ => true, some (1, false)⟩
  have h0 : Reach T (fun _ : Nat => (none : Option (Parts 2))) fun _ => none := .init
  have h1 := h0.step (op := .makeAlloc 0 7) (o1 := o) (o := o) (L := (rfl : _ = none)) (hp := fun d h => by cases h) (he := rfl)
  have h2 := h1.step (op := .makeAlloc 1 8) (o1 := o) (o := o) (L := (rfl : _ = none)) (hp := fun d h => by cases h) (he := rfl)
  exact ⟨T, _, _, o', _, h2, ⟨by decide, rfl, rfl⟩, rfl, _, rfl, by decide⟩

/-- After that exception `swap` with a container that has allocator 7 throughout, so that it was allowed before, is undefined behaviour
(allocators are not swapped here). -/
example : ∃ (T : Traits) (w : World 2), Any T w ∧ Fits w (.swap 0 2) ∧
    exec T ⟨fun _ => false, none⟩ ⟨fun _ => false, none⟩ w (.swap 0 2) = none := by
  let T : Traits := ⟨true, false, false, false, id, 0⟩
  let o : Oracle 2 := ⟨fun _ => true, none⟩
  let o' : Oracle 2 := ⟨fun _ => true, some (1, false)⟩
  have h1 := (Any.init (T := T) (n := 2)).step (op := .makeAlloc 0 7) (o1 := o) (o := o) (L := (rfl : _ = none)) (x := false) (he := rfl)
  have h2 := h1.step (op := .makeAlloc 1 8) (o1 := o) (o := o) (L := (rfl : _ = none)) (x := false) (he := rfl)
  have h3 := h2.step (op := .makeAlloc 2 7) (o1 := o) (o := o) (L := (rfl : _ = none)) (x := false) (he := rfl)
  have h4 := h3.step (op := .copyAssign 0 1) (o1 := o') (o := o') (L := ⟨by decide, rfl, rfl⟩) (x := true) (he := rfl)
  exact ⟨T, _, h4, ⟨by decide, rfl, rfl⟩, rfl⟩

/-- A history of `C87_allocators_partial`: allocator 7 is not used for copies of the container, moves take it along. -/
example : ∃ (T : Traits) (w : World 2) (S : Nat → Option Nat), Reach T w S ∧ S 0 = some 0 ∧ S 1 = some 0 ∧ S 2 = some 7 ∧ S 3 = some 8 := by
  let T : Traits := ⟨false, true, true, false, fun _ => 0, 0⟩
  let o : Oracle 2 := ⟨fun _ => true, none⟩
  have h1 := (Reach.init (T := T) (n := 2)).step (op := .count 0 7) (o1 := o) (o := o) (L := (rfl : _ = none)) (hp := fun d h => by cases h) (he := rfl)
  have h2 := h1.step (op := .copy 1 0) (o1 := o) (o := o) (L := ⟨rfl, rfl⟩) (hp := fun d h => by cases h) (he := rfl)
  have h3 := h2.step (op := .move 2 0) (o1 := o) (o := o) (L := ⟨rfl, rfl⟩) (hp := fun d h => by cases h) (he := rfl)
  have h4 := h3.step (op := .copyAlloc 3 1 8) (o1 := o) (o := o) (L := ⟨rfl, rfl⟩) (hp := fun d h => by cases h) (he := rfl)
  have h5 := h4.step (op := .moveAssign 0 1) (o1 := o) (o := o) (L := ⟨by decide, rfl, rfl⟩) (hp := fun d h => by cases h) (he := rfl)
  exact ⟨T, _, _, h5, rfl, rfl, rfl, rfl⟩

end AnyAny.DpvAlloc
