import Verif.Spec.DpvAlloc
/-
Lemmas about allocators of data_parallel_vector.
-/
namespace AnyAny.DpvAlloc

variable {n : Nat} {T : Traits}

@[simp] theorem upd_same {α} (f : Nat → Option α) k v : upd f k v k = v := by simp [upd]
theorem upd_ne {α} (f : Nat → Option α) {k x} v (h : x ≠ k) : upd f k v x = f x := by simp [upd, h]

theorem Traits.eq_refl (a : Nat) : T.eq a a = true := by simp [Traits.eq]
theorem Traits.eq_symm {a b : Nat} (h : T.eq a b = true) : T.eq b a = true := by
  simp only [Traits.eq, Bool.or_eq_true, beq_iff_eq] at h ⊢; exact h.imp id Eq.symm
theorem Traits.eq_trans {a b c : Nat} (h : T.eq a b = true) (h' : T.eq b c = true) : T.eq a c = true := by
  simp only [Traits.eq, Bool.or_eq_true, beq_iff_eq] at h h' ⊢
  rcases h with h | h
  · exact .inl h
  · exact h'.imp id (fun e => h.trans e)

/-- The buffer can be given back to the allocator. -/
def Good (T : Traits) (c : Col) : Prop := ∀ b, c.buf = some b → T.eq c.alloc b = true

theorem good_none (a : Nat) : Good T ⟨a, none⟩ := by intro b h; cases h
theorem good_make (a : Nat) (g : Bool) : Good T (.make a g) := by
  intro b h; cases g <;> simp [Col.make] at h ⊢; subst h; exact T.eq_refl a

theorem release_good {c : Col} (h : Good T c) : c.release T = some ⟨c.alloc, none⟩ := by
  obtain ⟨a, b⟩ := c
  cases b with
  | none => rfl
  | some b => simp [Col.release, h b rfl]

theorem modify_good {c : Col} (h : Good T c) (g : Bool) : ∃ c', c.modify T g = some c' ∧ Good T c' ∧ c'.alloc = c.alloc := by
  cases g with
  | false => exact ⟨c, rfl, h, rfl⟩
  | true =>
    refine ⟨⟨c.alloc, some c.alloc⟩, by simp [Col.modify, release_good h], ?_, rfl⟩
    intro b hb; cases hb; exact T.eq_refl _

theorem copyAssign_good {d : Col} (h : Good T d) (s : Col) (g : Bool) :
    ∃ c', d.copyAssign T s g = some c' ∧ Good T c' ∧ c'.alloc = if T.pocca then s.alloc else d.alloc := by
  cases hp : T.pocca with
  | false => simpa [Col.copyAssign, hp] using modify_good h g
  | true =>
    by_cases he : T.eq d.alloc s.alloc = true
    · have hg : Good T { d with alloc := s.alloc } := fun b hb => T.eq_trans (T.eq_symm he) (h b hb)
      obtain ⟨c', h1, h2, h3⟩ := modify_good hg g
      exact ⟨c', by simp [Col.copyAssign, hp, he, h1], h2, by simpa using h3⟩
    · obtain ⟨c', h1, h2, h3⟩ := modify_good (good_none (T := T) s.alloc) g
      exact ⟨c', by simp [Col.copyAssign, hp, he, release_good h, h1], h2, by simpa using h3⟩

theorem moveAssign_good {d s : Col} (h : Good T d) (hs : Good T s) (g : Bool) :
    ∃ r, d.moveAssign T s g = some r ∧ (Good T r.1 ∧ r.1.alloc = if T.pocma then s.alloc else d.alloc) ∧ Good T r.2 ∧ r.2.alloc = s.alloc := by
  cases hp : T.pocma with
  | true => exact ⟨(s, _), by simp [Col.moveAssign, hp, release_good h], ⟨hs, by simp⟩, good_none _, rfl⟩
  | false =>
    by_cases he : T.eq d.alloc s.alloc = true
    · exact ⟨(⟨d.alloc, s.buf⟩, ⟨s.alloc, none⟩), by simp [Col.moveAssign, hp, he, release_good h],
        ⟨fun b hb => T.eq_trans he (hs b hb), by simp⟩, good_none _, rfl⟩
    · obtain ⟨c', h1, h2, h3⟩ := modify_good h g
      exact ⟨(c', s), by simp [Col.moveAssign, hp, he, h1], ⟨h2, by simpa using h3⟩, hs, rfl⟩

theorem moveAlloc_good {s : Col} (hs : Good T s) (a : Nat) (g : Bool) :
    (Good T (s.moveAlloc T a g).1 ∧ (s.moveAlloc T a g).1.alloc = a) ∧ Good T (s.moveAlloc T a g).2 ∧ (s.moveAlloc T a g).2.alloc = s.alloc := by
  simp only [Col.moveAlloc]
  split
  · rename_i he; exact ⟨⟨fun b hb => T.eq_trans he (hs b hb), rfl⟩, good_none _, rfl⟩
  · exact ⟨⟨good_make a g, rfl⟩, hs, rfl⟩

theorem swap_good {a b : Col} (ha : Good T a) (hb : Good T b) (h : T.pocs = true ∨ T.eq a.alloc b.alloc = true) :
    ∃ r, Col.swap T a b = some r ∧ (Good T r.1 ∧ r.1.alloc = if T.pocs then b.alloc else a.alloc) ∧
      Good T r.2 ∧ r.2.alloc = if T.pocs then a.alloc else b.alloc := by
  cases hp : T.pocs with
  | true => exact ⟨(b, a), by simp [Col.swap, hp], ⟨hb, by simp⟩, ha, by simp⟩
  | false =>
    have he : T.eq a.alloc b.alloc = true := by simpa [hp] using h
    exact ⟨(⟨a.alloc, b.buf⟩, ⟨b.alloc, a.buf⟩), by simp [Col.swap, hp, he],
      ⟨fun x hx => T.eq_trans he (hb x hx), by simp⟩, fun x hx => T.eq_trans (T.eq_symm he) (ha x hx), by simp⟩

theorem cols_good {o : Oracle n} {f : Fin n → Col → Option Col} {p : Parts n} {P : Fin n → Col → Prop}
    (h : ∀ j, ∃ c', f j (p j) = some c' ∧ P j c') :
    ∃ p', cols o f p = some p' ∧ (∀ j, P j (p' j) ∨ p' j = p j) ∧ (o.throws = none → ∀ j, P j (p' j)) := by
  have hs : ∀ j, (f j (p j)).isSome = true := fun j => by obtain ⟨c', h1, _⟩ := h j; simp [h1]
  have hP : ∀ j, P j ((f j (p j)).getD (p j)) := fun j => by obtain ⟨c', h1, h2⟩ := h j; simpa [h1] using h2
  simp only [cols, hs, implies_true, if_true]
  refine ⟨_, rfl, fun j => ?_, fun ho j => ?_⟩
  · split
    · split
      · exact .inl (hP j)
      · exact .inr rfl
    · split
      · exact .inl (hP j)
      · exact .inr rfl
  · simp only [ho, if_true]; exact hP j

theorem destroyed_good {p : Parts n} (h : ∀ j, Good T (p j)) : destroyed T p = true := by
  simp only [destroyed, decide_eq_true_eq]; intro j; rw [release_good (h j)]; rfl

/-- All buffers can be given back. -/
def Safe (T : Traits) (w : World n) : Prop := ∀ d p, w d = some p → ∀ j, Good T (p j)

theorem Safe.upd {w : World n} (h : Safe T w) (d : Nat) {p : Parts n} (hp : ∀ j, Good T (p j)) : Safe T (upd w d (some p)) := by
  intro e q hq
  by_cases he : e = d
  · subst he; rw [upd_same] at hq; cases hq; exact hp
  · rw [upd_ne _ _ he] at hq; exact h e q hq

theorem Safe.remove {w : World n} (h : Safe T w) (d : Nat) : Safe T (DpvAlloc.upd w d none) := by
  intro e q hq
  by_cases he : e = d
  · subst he; rw [upd_same] at hq; cases hq
  · rw [upd_ne _ _ he] at hq; exact h e q hq

theorem moveParts_good {p q : Parts n} (hp : ∀ j, Good T (p j)) (hq : ∀ j, Good T (q j)) (o : Oracle n) :
    ∃ r, moveParts T o p q = some r ∧ (∀ j, Good T (r.1 j)) ∧ (∀ j, Good T (r.2 j)) ∧ (∀ j, (r.2 j).alloc = (q j).alloc) ∧
      (∀ j, (r.1 j).alloc = if T.pocma then (q j).alloc else (p j).alloc) := by
  obtain ⟨p', h1, h2, h3⟩ := cols_good (o := moveThrows T o) (p := p) (f := fun j c => (c.moveAssign T (q j) (o.grows j)).map (·.1))
    (P := fun j c => Good T c ∧ c.alloc = if T.pocma then (q j).alloc else (p j).alloc)
    (fun j => by obtain ⟨r, hr, h, _⟩ := moveAssign_good (hp j) (hq j) (o.grows j); exact ⟨r.1, by simp [hr], h⟩)
  obtain ⟨q', k1, k2, _⟩ := cols_good (o := moveThrows T o) (p := q) (f := fun j c => (Col.moveAssign T (p j) c (o.grows j)).map (·.2))
    (P := fun j c => Good T c ∧ c.alloc = (q j).alloc)
    (fun j => by obtain ⟨r, hr, _, h⟩ := moveAssign_good (hp j) (hq j) (o.grows j); exact ⟨r.2, by simp [hr], h⟩)
  refine ⟨(p', q'), by simp [moveParts, h1, k1], fun j => ?_, fun j => ?_, fun j => ?_, fun j => ?_⟩
  · rcases h2 j with h | h
    · exact h.1
    · dsimp only; rw [h]; exact hp j
  · rcases k2 j with h | h
    · exact h.1
    · dsimp only; rw [h]; exact hq j
  · rcases k2 j with h | h
    · exact h.2
    · dsimp only; rw [h]
  · rcases h2 j with h | h
    · exact h.2
    · cases hm : T.pocma with
      | false => dsimp only; rw [h]; rfl
      | true => have := (h3 (by simp [moveThrows, hm]) j).2; rw [hm] at this; exact this

/-- What the allocators of all columns are after an operation. -/
def Rep (w : World n) (S : Nat → Option Nat) : Prop :=
  ∀ d, match w d, S d with
    | some p, some a => ∀ j, (p j).alloc = a
    | none, none => True
    | _, _ => False

theorem Rep.getS {w : World n} {S} (h : Rep w S) {d a} (hd : S d = some a) : ∃ p, w d = some p ∧ ∀ j, (p j).alloc = a := by
  have := h d
  rw [hd] at this
  cases hw : w d with
  | none => rw [hw] at this; exact this.elim
  | some p => rw [hw] at this; exact ⟨p, rfl, this⟩

theorem Rep.getW {w : World n} {S} (h : Rep w S) {d p} (hd : w d = some p) : ∃ a, S d = some a ∧ ∀ j, (p j).alloc = a := by
  have := h d
  rw [hd] at this
  cases hw : S d with
  | none => rw [hw] at this; exact this.elim
  | some a => rw [hw] at this; exact ⟨a, rfl, this⟩

theorem Rep.upd {w : World n} {S} (h : Rep w S) (d : Nat) {p : Parts n} {a : Nat} (hp : ∀ j, (p j).alloc = a) :
    Rep (upd w d (some p)) (upd S d (some a)) := by
  intro e
  by_cases he : e = d
  · subst he; simp only [upd_same]; exact hp
  · rw [upd_ne _ _ he, upd_ne _ _ he]; exact h e

theorem Rep.same {w : World n} {S} (h : Rep w S) {d : Nat} {p : Parts n} {a : Nat} (hS : S d = some a) (hp : ∀ j, (p j).alloc = a) :
    Rep (DpvAlloc.upd w d (some p)) S := by
  have := h.upd d hp
  have hs : DpvAlloc.upd S d (some a) = S := by
    funext e; by_cases he : e = d
    · subst he; rw [upd_same, hS]
    · rw [upd_ne _ _ he]
  rwa [hs] at this

theorem Rep.remove {w : World n} {S} (h : Rep w S) (d : Nat) : Rep (DpvAlloc.upd w d none) (DpvAlloc.upd S d none) := by
  intro e
  by_cases he : e = d
  · subst he; simp only [upd_same]
  · rw [upd_ne _ _ he, upd_ne _ _ he]; exact h e

/-- Operations on containers whose buffers can be given back are defined and leave such. -/
theorem exec_safe {w : World n} (hw : Safe T w) {op} (L : Fits w op) (o1 o : Oracle n)
    (hswap : ∀ d e p q, op = .swap d e → w d = some p → w e = some q → ∀ j, T.pocs = true ∨ T.eq (p j).alloc (q j).alloc = true) :
    ∃ r, exec T o1 o w op = some r ∧ Safe T r.1 := by
  have get : ∀ {d}, (w d).isSome → ∃ p, w d = some p ∧ ∀ j, Good T (p j) := fun h => by
    obtain ⟨p, hp⟩ := Option.isSome_iff_exists.1 h
    exact ⟨p, hp, hw _ p hp⟩
  have cons : ∀ (o : Oracle n) (d : Nat) (p : Parts n), (∀ j, Good T (p j)) → Safe T (construct o w d p).1 := by
    intro o d p hp
    simp only [construct]; split
    · exact hw.upd d hp
    · exact hw
  cases op with
  | make d => exact ⟨_, rfl, cons _ d _ fun _ => good_make _ _⟩
  | makeAlloc d a => exact ⟨_, rfl, cons _ d _ fun _ => good_make _ _⟩
  | count d a => exact ⟨_, rfl, cons _ d _ fun _ => good_make _ _⟩
  | range d a =>
    obtain ⟨p', h1, h2, h3⟩ := cols_good (o := o) (p := fun _ => Col.make a false) (f := fun j c => c.modify T (o.grows j)) (P := fun _ c => Good T c)
      (fun j => by obtain ⟨c', h, hg, _⟩ := modify_good (good_make (T := T) a false) (o.grows j); exact ⟨c', h, hg⟩)
    have hg : ∀ j, Good T (p' j) := fun j => by
      rcases h2 j with h | h
      · exact h
      · rw [h]; exact good_make _ _
    simp only [exec, rangeCtor, h1, Option.bind_eq_bind, Option.bind_some]
    cases o.throws with
    | none => exact ⟨_, rfl, hw.upd d hg⟩
    | some _ => simp only [destroyed_good hg, if_true]; exact ⟨_, rfl, hw⟩
  | copy d s =>
    obtain ⟨q, hq, _⟩ := get L.2
    exact ⟨_, by simp only [exec, copyCtor, hq, Option.bind_eq_bind, Option.bind_some]; rfl, cons _ d _ fun _ => good_make _ _⟩
  | copyAlloc d s a =>
    obtain ⟨q, hq, _⟩ := get L.2
    exact ⟨_, by simp only [exec, copyCtorAlloc, hq, Option.bind_eq_bind, Option.bind_some]; rfl, cons _ d _ fun _ => good_make _ _⟩
  | move d s =>
    obtain ⟨q, hq, hg⟩ := get L.2
    exact ⟨_, by simp only [exec, moveCtor, hq, Option.bind_eq_bind, Option.bind_some]; rfl,
      (hw.upd s fun j => good_none _).upd d hg⟩
  | moveAlloc d s a =>
    obtain ⟨q, hq, hg⟩ := get L.2
    simp only [exec, moveCtorAlloc, hq, Option.bind_eq_bind, Option.bind_some]
    cases o.throws with
    | none => exact ⟨_, rfl, (hw.upd s fun j => (moveAlloc_good (hg j) a _).2.1).upd d fun j => (moveAlloc_good (hg j) a _).1.1⟩
    | some k =>
      have : ∀ j, j < k.1 → (((q j).moveAlloc T a (o.grows j)).1.release T).isSome = true := fun j _ => by
        rw [release_good (moveAlloc_good (hg j) a _).1.1]; rfl
      refine ⟨_, if_pos this, hw.upd s fun j => ?_⟩
      split
      · exact (moveAlloc_good (hg j) a _).2.1
      · exact hg j
  | destroy d =>
    obtain ⟨p, hp, hg⟩ := get L
    exact ⟨_, by simp only [exec, dtor, hp, Option.bind_eq_bind, Option.bind_some, destroyed_good hg, if_true]; rfl, hw.remove d⟩
  | copyAssign d s =>
    obtain ⟨p, hp, hg⟩ := get L.2.1
    obtain ⟨q, hq, _⟩ := get L.2.2
    obtain ⟨p', h1, h2, _⟩ := cols_good (o := o) (p := p) (f := fun j c => c.copyAssign T (q j) (o.grows j)) (P := fun _ c => Good T c)
      (fun j => by obtain ⟨c', h, hc, _⟩ := copyAssign_good (hg j) (q j) (o.grows j); exact ⟨c', h, hc⟩)
    refine ⟨_, by simp only [exec, copyAssign, hp, hq, h1, Option.bind_eq_bind, Option.bind_some]; rfl, hw.upd d fun j => ?_⟩
    rcases h2 j with h | h
    · exact h
    · rw [h]; exact hg j
  | moveAssign d s =>
    obtain ⟨p, hp, hg⟩ := get L.2.1
    obtain ⟨q, hq, hk⟩ := get L.2.2
    obtain ⟨r, hr, h1, h2, _⟩ := moveParts_good hg hk o
    exact ⟨_, by simp only [exec, moveAssign, hp, hq, hr, Option.bind_eq_bind, Option.bind_some]; rfl, (hw.upd s h2).upd d h1⟩
  | assign d =>
    obtain ⟨p, hp, hg⟩ := get L
    obtain ⟨p', h1, h2, h3⟩ := cols_good (o := o1) (p := fun _ => Col.make T.dflt false) (f := fun j c => c.modify T (o1.grows j)) (P := fun _ c => Good T c)
      (fun j => by obtain ⟨c', h, hg, _⟩ := modify_good (good_make (T := T) T.dflt false) (o1.grows j); exact ⟨c', h, hg⟩)
    have hg' : ∀ j, Good T (p' j) := fun j => by
      rcases h2 j with h | h
      · exact h
      · rw [h]; exact good_make _ _
    simp only [exec, assign, hp, h1, Option.bind_eq_bind, Option.bind_some]
    cases o1.throws with
    | some _ => simp only [destroyed_good hg', if_true]; exact ⟨_, rfl, hw⟩
    | none =>
      obtain ⟨r, hr, k1, k2, _⟩ := moveParts_good hg hg' o
      simp only [hr, Option.bind_some, destroyed_good k2, if_true]
      exact ⟨_, rfl, hw.upd d k1⟩
  | modify d =>
    obtain ⟨p, hp, hg⟩ := get L
    obtain ⟨p', h1, h2, _⟩ := cols_good (o := o) (p := p) (f := fun j c => c.modify T (o.grows j)) (P := fun _ c => Good T c)
      (fun j => by obtain ⟨c', h, hc, _⟩ := modify_good (hg j) (o.grows j); exact ⟨c', h, hc⟩)
    refine ⟨_, by simp only [exec, modify, hp, h1, Option.bind_eq_bind, Option.bind_some]; rfl, hw.upd d fun j => ?_⟩
    rcases h2 j with h | h
    · exact h
    · rw [h]; exact hg j
  | swap d e =>
    obtain ⟨p, hp, hg⟩ := get L.2.1
    obtain ⟨q, hq, hk⟩ := get L.2.2
    have hs := hswap d e p q rfl hp hq
    have : ∀ j, (Col.swap T (p j) (q j)).isSome = true := fun j => by
      obtain ⟨r, hr, _⟩ := swap_good (hg j) (hk j) (hs j); simp [hr]
    refine ⟨_, by simp only [exec, swap, hp, hq, Option.bind_eq_bind, Option.bind_some]; exact if_pos this, ?_⟩
    refine (hw.upd d fun j => ?_).upd e fun j => ?_
    · obtain ⟨r, hr, h1, _⟩ := swap_good (hg j) (hk j) (hs j); simpa [hr] using h1.1
    · obtain ⟨r, hr, _, h2, _⟩ := swap_good (hg j) (hk j) (hs j); simpa [hr] using h2

theorem exec_rep {w : World n} {S} (hw : Safe T w) (h : Rep w S) {op} (L : Legal T S op) {o1 o : Oracle n} {w' x}
    (hp : ∀ d, op = .assign d → T.pocma = false) (hc : ∀ d s, op = .copyAssign d s → x = true → T.pocca = false)
    (he : exec T o1 o w op = some (w', x)) : Rep w' (if x then S else vectorStep T S op) := by
  have get : ∀ {d}, (S d).isSome → ∃ a p, S d = some a ∧ w d = some p ∧ (∀ j, (p j).alloc = a) ∧ ∀ j, Good T (p j) := fun hd => by
    obtain ⟨a, ha⟩ := Option.isSome_iff_exists.1 hd
    obtain ⟨p, hp, hr⟩ := h.getS ha
    exact ⟨a, p, ha, hp, hr, hw _ p hp⟩
  have cons : ∀ {o : Oracle n} {d : Nat} {p : Parts n} {a}, (∀ j, (p j).alloc = a) → construct o w d p = (w', x) →
      Rep w' (if x then S else upd S d (some a)) := by
    intro o d p a hp he
    simp only [construct] at he
    split at he
    · cases he; exact h.upd d hp
    · cases he; exact h
  cases op with
  | make d => exact cons (fun _ => rfl) (Option.some.inj he)
  | makeAlloc d a => exact cons (fun _ => rfl) (Option.some.inj he)
  | count d a => exact cons (fun _ => rfl) (Option.some.inj he)
  | range d a =>
    obtain ⟨p', h1, h2, h3⟩ := cols_good (o := o) (p := fun _ => Col.make a false) (f := fun j c => c.modify T (o.grows j)) (P := fun _ c => c.alloc = a)
      (fun j => by obtain ⟨c', h, _, ha⟩ := modify_good (good_make (T := T) a false) (o.grows j); exact ⟨c', h, ha⟩)
    simp only [exec, rangeCtor, h1, Option.bind_eq_bind, Option.bind_some] at he
    cases ho : o.throws with
    | none => rw [ho] at he; cases he; exact h.upd d (h3 ho)
    | some _ =>
      rw [ho] at he
      dsimp only at he
      split at he <;> cases he
      exact h
  | copy d s =>
    obtain ⟨a, q, ha, hq, hr, _⟩ := get L.2
    simp only [exec, copyCtor, hq, Option.bind_eq_bind, Option.bind_some, Option.some.injEq] at he
    simp only [vectorStep, ha]
    exact cons (fun j => congrArg T.select (hr j)) he
  | copyAlloc d s a =>
    obtain ⟨_, q, _, hq, _⟩ := get L.2
    simp only [exec, copyCtorAlloc, hq, Option.bind_eq_bind, Option.bind_some, Option.some.injEq] at he
    exact cons (fun _ => rfl) he
  | move d s =>
    obtain ⟨a, q, ha, hq, hr, _⟩ := get L.2
    simp only [exec, moveCtor, hq, Option.bind_eq_bind, Option.bind_some, Option.some.injEq, Prod.mk.injEq] at he
    obtain ⟨rfl, rfl⟩ := he
    simp only [vectorStep, ha, Bool.false_eq_true, if_false]
    exact (h.same (p := fun j => (q j).move.2) ha fun j => hr j).upd (p := fun j => (q j).move.1) d hr
  | moveAlloc d s a =>
    obtain ⟨b, q, hb, hq, hr, hg⟩ := get L.2
    simp only [exec, moveCtorAlloc, hq, Option.bind_eq_bind, Option.bind_some] at he
    cases ho : o.throws with
    | none =>
      rw [ho] at he; cases he
      exact (h.same hb fun j => (moveAlloc_good (hg j) a _).2.2.trans (hr j)).upd d fun j => (moveAlloc_good (hg j) a _).1.2
    | some k =>
      rw [ho] at he
      dsimp only at he
      split at he <;> cases he
      refine h.same hb fun j => ?_
      split
      · exact (moveAlloc_good (hg j) a _).2.2.trans (hr j)
      · exact hr j
  | destroy d =>
    obtain ⟨a, p, ha, hp, hr, _⟩ := get L
    simp only [exec, dtor, hp, Option.bind_eq_bind, Option.bind_some] at he
    split at he <;> cases he
    exact h.remove d
  | copyAssign d s =>
    obtain ⟨a, p, ha, hp, hr, hg⟩ := get L.2.1
    obtain ⟨b, q, hb, hq, hr', _⟩ := get L.2.2
    obtain ⟨p', h1, h2, h3⟩ := cols_good (o := o) (p := p) (f := fun j c => c.copyAssign T (q j) (o.grows j))
      (P := fun j c => c.alloc = if T.pocca then (q j).alloc else (p j).alloc)
      (fun j => by obtain ⟨c', h, _, hc⟩ := copyAssign_good (hg j) (q j) (o.grows j); exact ⟨c', h, hc⟩)
    simp only [exec, copyAssign, hp, hq, h1, Option.bind_eq_bind, Option.bind_some, Option.some.injEq, Prod.mk.injEq] at he
    obtain ⟨rfl, hx⟩ := he
    cases hpc : T.pocca with
    | false =>
      have : Rep (upd w d (some p')) S := h.same ha fun j => by
        rcases h2 j with h | h
        · rw [h, hpc]; exact hr j
        · rw [h]; exact hr j
      simp only [vectorStep, hpc, Bool.false_eq_true, if_false, ite_self]; exact this
    | true =>
      cases x with
      | true => have := hc d s rfl rfl; rw [hpc] at this; cases this
      | false =>
        have ho : o.throws = none := by simpa using hx
        simp only [vectorStep, hpc, Bool.false_eq_true, if_false, if_true, hb]
        exact h.upd d fun j => by rw [h3 ho j, hpc]; exact hr' j
  | moveAssign d s =>
    obtain ⟨a, p, ha, hp, hr, hg⟩ := get L.2.1
    obtain ⟨b, q, hb, hq, hr', hk⟩ := get L.2.2
    obtain ⟨r, hr2, _, _, k3, k4⟩ := moveParts_good hg hk o
    simp only [exec, moveAssign, hp, hq, hr2, Option.bind_eq_bind, Option.bind_some, Option.some.injEq, Prod.mk.injEq] at he
    obtain ⟨rfl, hx⟩ := he
    have hs : Rep (upd w s (some r.2)) S := h.same hb fun j => (k3 j).trans (hr' j)
    cases hpm : T.pocma with
    | false =>
      have : Rep (upd (upd w s (some r.2)) d (some r.1)) S := hs.same ha fun j => by rw [k4 j, hpm]; exact hr j
      simp only [vectorStep, hpm, Bool.false_eq_true, if_false, ite_self]; exact this
    | true =>
      have : x = false := by rw [← hx]; simp [moveThrows, hpm]
      subst this
      simp only [vectorStep, hpm, Bool.false_eq_true, if_false, if_true, hb]
      exact hs.upd d fun j => by rw [k4 j, hpm]; exact hr' j
  | assign d =>
    obtain ⟨a, p, ha, hp', hr, hg⟩ := get L
    have hpm := hp d rfl
    obtain ⟨p', h1, h2, h3⟩ := cols_good (o := o1) (p := fun _ => Col.make T.dflt false) (f := fun j c => c.modify T (o1.grows j)) (P := fun _ c => Good T c)
      (fun j => by obtain ⟨c', h, hg, _⟩ := modify_good (good_make (T := T) T.dflt false) (o1.grows j); exact ⟨c', h, hg⟩)
    have hg' : ∀ j, Good T (p' j) := fun j => by
      rcases h2 j with h | h
      · exact h
      · rw [h]; exact good_make _ _
    simp only [exec, assign, hp', h1, Option.bind_eq_bind, Option.bind_some] at he
    have hS : (if x = true then S else vectorStep T S (.assign d)) = S := by simp [vectorStep]
    rw [hS]
    cases ho : o1.throws with
    | some _ =>
      rw [ho] at he
      dsimp only at he
      split at he <;> cases he
      exact h
    | none =>
      rw [ho] at he
      obtain ⟨r, hr2, _, k2, _, k4⟩ := moveParts_good hg hg' o
      simp only [hr2, Option.bind_some, destroyed_good k2, if_true, Option.some.injEq, Prod.mk.injEq] at he
      obtain ⟨rfl, _⟩ := he
      exact h.same ha fun j => by rw [k4 j, hpm]; exact hr j
  | modify d =>
    obtain ⟨a, p, ha, hp, hr, hg⟩ := get L
    obtain ⟨p', h1, h2, _⟩ := cols_good (o := o) (p := p) (f := fun j c => c.modify T (o.grows j)) (P := fun j c => c.alloc = (p j).alloc)
      (fun j => by obtain ⟨c', h, _, hc⟩ := modify_good (hg j) (o.grows j); exact ⟨c', h, hc⟩)
    simp only [exec, modify, hp, h1, Option.bind_eq_bind, Option.bind_some, Option.some.injEq, Prod.mk.injEq] at he
    obtain ⟨rfl, _⟩ := he
    have hS : (if x = true then S else vectorStep T S (.modify d)) = S := by simp [vectorStep]
    rw [hS]
    exact h.same ha fun j => by
      rcases h2 j with h | h
      · rw [h]; exact hr j
      · rw [h]; exact hr j
  | swap d e =>
    obtain ⟨hne, a, b, ha, hb, hs⟩ := L
    obtain ⟨p, hp, hr⟩ := h.getS ha
    obtain ⟨q, hq, hr'⟩ := h.getS hb
    have hg := hw d p hp
    have hk := hw e q hq
    have hs' : ∀ j, T.pocs = true ∨ T.eq (p j).alloc (q j).alloc = true := fun j => by rw [hr j, hr' j]; exact hs
    simp only [exec, swap, hp, hq, Option.bind_eq_bind, Option.bind_some] at he
    split at he
    · cases he
      have f1 : ∀ j, ((Col.swap T (p j) (q j)).getD (p j, q j)).1.alloc = if T.pocs then b else a := fun j => by
        obtain ⟨r, hr1, ⟨_, h1⟩, _⟩ := swap_good (hg j) (hk j) (hs' j); simpa [hr1, hr j, hr' j] using h1
      have f2 : ∀ j, ((Col.swap T (p j) (q j)).getD (p j, q j)).2.alloc = if T.pocs then a else b := fun j => by
        obtain ⟨r, hr1, _, _, h2⟩ := swap_good (hg j) (hk j) (hs' j); simpa [hr1, hr j, hr' j] using h2
      simp only [vectorStep, ha, hb, Bool.false_eq_true, if_false]
      cases hps : T.pocs with
      | true => simp only [hps, if_true] at f1 f2 ⊢; exact (h.upd d f1).upd e f2
      | false =>
        simp only [hps, Bool.false_eq_true, if_false] at f1 f2 ⊢
        exact (h.same ha f1).same hb f2
    · cases he

theorem Any.safe {w : World n} (h : Any T w) : Safe T w := by
  induction h with
  | init => intro d p hp; cases hp
  | @step w op o1 o w' x _ L he ih =>
    by_cases hs : ∀ d e p q, op = .swap d e → w d = some p → w e = some q → ∀ j, T.pocs = true ∨ T.eq (p j).alloc (q j).alloc = true
    · obtain ⟨r, hr, hS⟩ := exec_safe ih L o1 o hs
      rw [hr] at he; cases he; exact hS
    · exfalso
      apply hs
      intro d e p q ho hp hq j
      subst ho
      simp only [exec, swap, hp, hq, Option.bind_eq_bind, Option.bind_some] at he
      split at he
      · rename_i hall
        have := hall j
        simp only [Col.swap] at this
        cases hps : T.pocs with
        | true => exact .inl rfl
        | false =>
          cases hq : T.eq (p j).alloc (q j).alloc with
          | true => exact .inr rfl
          | false => simp [hps, hq] at this
      · cases he

theorem Legal.fits {w : World n} {S} (h : Rep w S) {op} (L : Legal T S op) : Fits w op := by
  have no : ∀ {d}, S d = none → w d = none := fun {d} hd => by
    have := h d
    cases hw : w d with
    | none => rfl
    | some p => rw [hw, hd] at this; exact this.elim
  have yes : ∀ {d}, (S d).isSome → (w d).isSome := fun {d} hd => by
    obtain ⟨a, ha⟩ := Option.isSome_iff_exists.1 hd
    obtain ⟨p, hp, _⟩ := h.getS ha
    simp [hp]
  cases op with
  | make | makeAlloc | count | range => exact no L
  | copy | copyAlloc | move | moveAlloc => exact ⟨no L.1, yes L.2⟩
  | destroy | assign | modify => exact yes L
  | copyAssign | moveAssign => exact ⟨L.1, yes L.2.1, yes L.2.2⟩
  | swap => obtain ⟨hne, a, b, ha, hb, _⟩ := L; exact ⟨hne, yes (by simp [ha]), yes (by simp [hb])⟩

theorem Reach.both {w : World n} {S} (h : Reach T w S) : Safe T w ∧ Rep w S := by
  have key : ∀ {w : World n} {S op o1 o w' x}, Safe T w ∧ Rep w S → Legal T S op → exec T o1 o w op = some (w', x) → Safe T w' := by
    intro w S op o1 o w' x hh L he
    have hs : ∀ d e p q, op = .swap d e → w d = some p → w e = some q → ∀ j, T.pocs = true ∨ T.eq (p j).alloc (q j).alloc = true := by
      intro d e p q ho hp hq j
      subst ho
      obtain ⟨_, a, b, ha, hb, hs⟩ := L
      obtain ⟨p2, hp2, h1⟩ := hh.2.getS ha
      obtain ⟨q2, hq2, h2⟩ := hh.2.getS hb
      rw [hp] at hp2; cases hp2; rw [hq] at hq2; cases hq2
      rw [h1 j, h2 j]; exact hs
    obtain ⟨r, hr, hS⟩ := exec_safe hh.1 (Legal.fits hh.2 L) o1 o hs
    rw [hr] at he; cases he; exact hS
  induction h with
  | init => exact ⟨fun d p hp => (nomatch hp), fun _ => trivial⟩
  | step _ L hp he ih => exact ⟨key ih L he, exec_rep ih.1 ih.2 L hp (fun _ _ _ h => by cases h) he⟩
  | throws _ L hp hc he ih => exact ⟨key ih L he, exec_rep (x := true) ih.1 ih.2 L hp (fun d s h _ => hc d s h) he⟩

end AnyAny.DpvAlloc
