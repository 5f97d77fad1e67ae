import Verif.Spec.DpvClient
import Verif.Props.Dpv
import Verif.Props.DpvIter
/-
C72: algorithms on data_parallel_vector.
-/
namespace AnyAny.Dpv

variable {n : Nat} {V : Fin n → Type} {env : Env V} {w : World V} {S : SVecs V} {α : Type}

/-- A program that is correct with `std::vector<T>`, whatever it decides on what it observes, returns the same value and leaves the same contents
with `data_parallel_vector<T>`. -/
theorem C72_programs (hn : 0 < n) (hnt : ∀ t, env.throws t = none) {c : Client V α} {a : α} {S' : SVecs V} (h : Reach env w S)
    (hm : Means env c S a S') : ∃ w', c.run env w = .ok a w' ∧ Reach env w' S' := by
  induction hm generalizing w with
  | ret => exact ⟨w, rfl, h⟩
  | op L hd _ ih =>
    obtain ⟨w1, h1, h2⟩ := (C51_step hn h L hd).2.2 hnt
    obtain ⟨w2, h3, h4⟩ := ih h2
    exact ⟨w2, by simp only [Client.run, h1, h3], h4⟩
  | size hx _ ih =>
    obtain ⟨w2, h3, h4⟩ := ih h
    exact ⟨w2, by simp only [Client.run, (C51_observations hn h hx).1, h3], h4⟩
  | read hx hr _ ih =>
    obtain ⟨hi, rfl⟩ := List.getElem?_eq_some_iff.mp hr
    obtain ⟨w2, h3, h4⟩ := ih h
    exact ⟨w2, by simp only [Client.run, (C51_observations hn h hx).2.2.1 _ hi, h3], h4⟩

/-- If operations of columns may throw, the program ends with an exception, or with the same value and contents; it never has
undefined behaviour. -/
theorem C72_programs_exceptions (hn : 0 < n) {c : Client V α} {a : α} {S' : SVecs V} (h : Reach env w S) (hm : Means env c S a S') :
    (∃ w', c.run env w = .exn w') ∨ ∃ w', c.run env w = .ok a w' ∧ Reach env w' S' := by
  induction hm generalizing w with
  | ret => exact .inr ⟨w, rfl, h⟩
  | @op o next S a S' L hd _ ih =>
    obtain ⟨hu, hok, _⟩ := C51_step hn h L hd
    cases he : exec env o w with
    | ok out w1 =>
      obtain ⟨rfl, h2⟩ := hok _ _ he
      simp only [Client.run, he]
      exact ih h2
    | exn w1 => exact .inl ⟨w1, by simp only [Client.run, he]⟩
    | ub => exact absurd he hu
  | size hx _ ih => simp only [Client.run, (C51_observations hn h hx).1]; exact ih h
  | read hx hr _ ih =>
    obtain ⟨hi, rfl⟩ := List.getElem?_eq_some_iff.mp hr
    simp only [Client.run, (C51_observations hn h hx).2.2.1 _ hi]
    exact ih h

/-! ### Programs that only look and swap -/

/-- Positions `i` and `k` of a list exchanged. -/
def exchange {β : Type} (xs : List β) (i k : Nat) : List β :=
  match xs[i]?, xs[k]? with
  | some a, some b => (xs.set i b).set k a
  | _, _ => xs

theorem exchange_perm {β : Type} (xs : List β) (i k : Nat) : (exchange xs i k).Perm xs := by
  unfold exchange
  split
  · rename_i a b ha hb
    obtain ⟨hi, rfl⟩ := List.getElem?_eq_some_iff.mp ha
    obtain ⟨hk, rfl⟩ := List.getElem?_eq_some_iff.mp hb
    exact List.set_set_perm hi hk
  · exact .refl _

/-- The program only looks at container `d` and swaps elements of it. -/
inductive Swaps (d : Nat) : Client V α → Prop
  | ret {a} : Swaps d (.ret a)
  | swap {i k next} (h : ∀ o, Swaps d (next o)) : Swaps d (.op (.swapRef d i d k) next)
  | size {e next} (h : ∀ k, Swaps d (next k)) : Swaps d (.size e next)
  | read {e i next} (h : ∀ r, Swaps d (next r)) : Swaps d (.read e i next)

/-- A program that only looks and swaps (a sort, a partition, a reversal, a shuffle) completes even if operations of columns can throw.
The records after it are a permutation of the records before it: no record is lost, duplicated or mixed with another one. The other
containers keep their contents. -/
theorem C72_permutes (hn : 0 < n) {c : Client V α} {a : α} {S' : SVecs V} {d : Nat} {xs : List (Rec V)} (h : Reach env w S)
    (hd : S d = some xs) (hc : Swaps d c) (hm : Means env c S a S') :
    ∃ w' ys, c.run env w = .ok a w' ∧ toList d w' = .ok ys w' ∧ ys.Perm xs ∧
      ∀ e zs, e ≠ d → S e = some zs → toList e w' = .ok zs w' := by
  induction hm generalizing w xs with
  | ret => exact ⟨w, xs, rfl, (C51_observations hn h hd).2.2.2.2, .refl _, fun e zs _ he => (C51_observations hn h he).2.2.2.2⟩
  | @op o next S a S' L hdef _ ih =>
    cases hc with
    | @swap i k _ hs =>
      obtain ⟨⟨x1, e1, hi⟩, x2, e2, hk⟩ := L
      rw [hd] at e1 e2; cases e1; cases e2
      obtain ⟨w1, h1, _⟩ := C55_swap hn h hd hi hd hk
      have h2 := (C51_step hn h (op := .swapRef d i d k) ⟨⟨xs, hd, hi⟩, xs, hd, hk⟩ hdef).2.1 _ _ h1
      have hS : specStep env S (.swapRef d i d k) d = some (exchange xs i k) := by
        simp only [specStep, specSwapRef, hd, Option.bind_some, List.getElem?_eq_getElem hi, List.getElem?_eq_getElem hk, exchange]
        simp [upd]
      have hO : ∀ e, e ≠ d → specStep env S (.swapRef d i d k) e = S e := by
        intro e he
        simp only [specStep, specSwapRef, hd, Option.bind_some, List.getElem?_eq_getElem hi, List.getElem?_eq_getElem hk]
        simp [upd, he]
      obtain ⟨w2, ys, r1, r2, r3, r4⟩ := ih h2.2 hS (hs _)
      refine ⟨w2, ys, ?_, r2, r3.trans (exchange_perm xs i k), fun e zs he hz => r4 e zs he (by rw [hO e he, hz])⟩
      simp only [Client.run, h1, ← h2.1] at r1 ⊢
      exact r1
  | size hx _ ih =>
    cases hc with
    | size hs =>
      obtain ⟨w2, ys, r1, r2⟩ := ih h hd (hs _)
      exact ⟨w2, ys, by simp only [Client.run, (C51_observations hn h hx).1, r1], r2⟩
  | read hx hr _ ih =>
    cases hc with
    | read hs =>
      obtain ⟨hi, rfl⟩ := List.getElem?_eq_some_iff.mp hr
      obtain ⟨w2, ys, r1, r2⟩ := ih h hd (hs _)
      exact ⟨w2, ys, by simp only [Client.run, (C51_observations hn h hx).2.2.1 _ hi, r1], r2⟩

/-- An example: one pass of a bubble sort by the first field, from position `i`, `k` steps. -/
def exPass (i : Nat) : Nat → Client ExV Unit
  | 0 => .ret ()
  | k + 1 => .read 0 i fun a => .read 0 (i + 1) fun b =>
    if (b 0 : Int) < a 0 then .op (.swapRef 0 i 0 (i + 1)) fun _ => exPass (i + 1) k else exPass (i + 1) k

def exBubble : Client ExV Unit := .size 0 fun k => exPass 0 (k - 1)

theorem exPass_swaps (i k : Nat) : Swaps 0 (exPass i k) := by
  induction k generalizing i with
  | zero => exact .ret
  | succ k ih =>
    refine .read fun a => .read fun b => ?_
    split
    · exact .swap fun _ => ih _
    · exact ih _

/-- On every vector the pass is legal. -/
theorem exPass_means {env : Env ExV} (k : Nat) : ∀ (i : Nat) (S : SVecs ExV) (xs : List (Rec ExV)), S 0 = some xs → i + k < xs.length →
    ∃ S', Means env (exPass i k) S () S' := by
  induction k with
  | zero => exact fun _ S _ _ _ => ⟨S, .ret⟩
  | succ k ih =>
    intro i S xs hx hlt
    have h0 := List.getElem?_eq_getElem (l := xs) (i := i) (by omega)
    have h1 := List.getElem?_eq_getElem (l := xs) (i := i + 1) (by omega)
    by_cases hc : (xs[i + 1] 0 : Int) < xs[i] 0
    · have hS : specStep env S (.swapRef 0 i 0 (i + 1)) 0 = some (exchange xs i (i + 1)) := by
        simp only [specStep, specSwapRef, hx, Option.bind_some, h0, h1, exchange]
        simp [upd]
      obtain ⟨S', h⟩ := ih (i + 1) _ _ hS (by rw [(exchange_perm xs i (i + 1)).length_eq]; omega)
      refine ⟨S', .read hx h0 (.read hx h1 ?_)⟩
      rw [if_pos hc]
      exact .op ⟨⟨xs, hx, by omega⟩, xs, hx, by omega⟩ (fun h => (by cases h)) h
    · obtain ⟨S', h⟩ := ih (i + 1) S xs hx (by omega)
      refine ⟨S', .read hx h0 (.read hx h1 ?_)⟩
      rw [if_neg hc]
      exact h

/-- The bubble pass on any container that is not empty permutes its records. -/
example {env : Env ExV} {w : World ExV} {S : SVecs ExV} {xs : List (Rec ExV)} (h : Reach env w S) (hx : S 0 = some xs) (hne : xs ≠ []) :
    ∃ w' ys, exBubble.run env w = .ok () w' ∧ toList 0 w' = .ok ys w' ∧ ys.Perm xs := by
  obtain ⟨S', hm⟩ := exPass_means (env := env) (xs.length - 1) 0 S xs hx
    (by have := List.length_pos_iff.mpr hne; omega)
  obtain ⟨w', ys, h1, h2, h3, _⟩ := C72_permutes (c := exBubble) (by decide) h hx (.size fun _ => exPass_swaps _ _) (.size hx hm)
  exact ⟨w', ys, h1, h2, h3⟩

end AnyAny.Dpv

namespace AnyAny.DpvIter

variable {b : Nat} {sz : Nat → BitVec b}

/-! ### Loops over iterators -/

/-- `for (; it != last; ++it) body(*it)`: the elements the body sees; `none`: an assertion fails or more than `fuel` steps. -/
def loop (sz : Nat → BitVec b) (last : It b) : Nat → It b → Option (List (Nat × Nat))
  | 0, _ => none
  | fuel + 1, it => do
    if ← eq it last then pure []
    else
      let r ← deref sz it
      let it' ← inc sz it
      let rs ← loop sz last fuel it'
      pure (r :: rs)

/-- `for (; it != std::default_sentinel; ++it) body(*it)`. -/
def loopSentinel (sz : Nat → BitVec b) : Nat → It b → Option (List (Nat × Nat))
  | 0, _ => none
  | fuel + 1, it =>
    if atEnd sz it then some []
    else do
      let r ← deref sz it
      let it' ← inc sz it
      let rs ← loopSentinel sz fuel it'
      pure (r :: rs)

/-- `while (it != first) body(*--it)`. -/
def loopBack (sz : Nat → BitVec b) (first : It b) : Nat → It b → Option (List (Nat × Nat))
  | 0, _ => none
  | fuel + 1, it => do
    if ← eq it first then pure []
    else
      let it' ← dec it
      let r ← deref sz it'
      let rs ← loopBack sz first fuel it'
      pure (r :: rs)

/-- A loop from `begin()` to `end()` meets every position of the container once, in order, without a failed assertion; so does a loop up to
`std::default_sentinel` (`it == {}`); a loop backwards from `end()` meets them in the opposite order. For every size and word width. -/
theorem C72_loops (hs : Sized sz) (d : Nat) : ∃ first last,
    begin_ sz d = some first ∧ end_ sz d = some last ∧
    (∀ fuel, (sz d).toNat < fuel → loop sz last fuel first = some ((List.range (sz d).toNat).map fun i => (d, i))) ∧
    (∀ fuel, (sz d).toNat < fuel → loopSentinel sz fuel first = some ((List.range (sz d).toNat).map fun i => (d, i))) ∧
    ∀ fuel, (sz d).toNat < fuel → loopBack sz first fuel last = some ((List.range (sz d).toNat).reverse.map fun i => (d, i)) := by
  obtain ⟨⟨first, e1, a1⟩, last, e2, a2⟩ := C56_begin_end (sz := sz) d
  refine ⟨first, last, e1, e2, fun fuel hf => ?_, fun fuel hf => ?_, fun fuel hf => ?_⟩
  · suffices ∀ fuel it i k, At sz it d i → i + k = (sz d).toNat → k < fuel →
        loop sz last fuel it = some ((List.range' i k).map fun i => (d, i)) by
      rw [this fuel first 0 _ a1 (Nat.zero_add _) hf, List.range_eq_range']
    intro fuel
    induction fuel with
    | zero => intro _ _ k _ _ h; omega
    | succ fuel ih =>
      intro it i k ha hk hf
      cases k with
      | zero =>
        simp only [loop, (C56_order ha a2).2, ← hk]
        simp
      | succ k =>
        obtain ⟨⟨it', i1, i2⟩, i3⟩ := (C56_step hs ha (n := 0)).1 (by omega)
        have hne : (i == (sz d).toNat) = false := by simp; omega
        simp only [loop, (C56_order ha a2).2, hne, i3, i1]
        simp [ih it' (i + 1) k i2 (by omega) (by omega), List.range'_succ]
  · suffices ∀ fuel it i k, At sz it d i → i + k = (sz d).toNat → k < fuel →
        loopSentinel sz fuel it = some ((List.range' i k).map fun i => (d, i)) by
      rw [this fuel first 0 _ a1 (Nat.zero_add _) hf, List.range_eq_range']
    intro fuel
    induction fuel with
    | zero => intro _ _ k _ _ h; omega
    | succ fuel ih =>
      intro it i k ha hk hf
      have hend := (C56_step hs ha (n := 0)).2.2.2
      cases k with
      | zero =>
        rw [loopSentinel, if_pos (hend.mpr (by omega))]
        simp
      | succ k =>
        obtain ⟨⟨it', i1, i2⟩, i3⟩ := (C56_step hs ha (n := 0)).1 (by omega)
        rw [loopSentinel, if_neg (fun hc => by have := hend.mp hc; omega)]
        simp [i3, i1, ih it' (i + 1) k i2 (by omega) (by omega), List.range'_succ]
  · suffices ∀ fuel it i, At sz it d i → i < fuel →
        loopBack sz first fuel it = some ((List.range i).reverse.map fun i => (d, i)) from this fuel last _ a2 hf
    intro fuel
    induction fuel with
    | zero => intro _ _ _ h; omega
    | succ fuel ih =>
      intro it i ha hf
      cases i with
      | zero =>
        simp only [loopBack, (C56_order ha a1).2]
        simp
      | succ i =>
        obtain ⟨it', i1, i2⟩ := (C56_step hs ha (n := 0)).2.1 (by omega)
        have hle := ha.2.2
        have i3 := ((C56_step hs i2 (n := 0)).1 (by omega)).2
        simp only [Nat.add_sub_cancel] at i2 i3
        simp only [loopBack, (C56_order ha a1).2]
        simp [i1, i3, ih it' i i2 (by omega), List.range_succ]

/-- 64 bits, a container of 3 elements. -/
example : (begin_ (fun _ : Nat => (3 : BitVec 64)) 7).bind (loopSentinel (fun _ => 3) 4) = some [(7, 0), (7, 1), (7, 2)] := by decide

end AnyAny.DpvIter
