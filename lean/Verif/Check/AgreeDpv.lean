import Verif.Props.Dpv
import Verif.Props.DpvRange
/-
Validation of the model of how arguments are read (Model/DpvRange.lean), which leaves out exceptions and capacities: where nothing throws, it puts the same
elements in the same columns as Model/Dpv.lean, for all worlds a program can reach.
-/
namespace AnyAny.Check
open AnyAny.Dpv

variable {n : Nat} {V : Fin n → Type} {env : Env V}

private theorem of_bind {α β : Type} {m : M V α} {f : α → M V β} {w w' : World V} {b : β} (h : M.bind m f w = .ok b w') :
    ∃ a w1, m w = .ok a w1 ∧ f a w1 = .ok b w' := by
  unfold M.bind at h
  cases e : m w with
  | ok a w1 => rw [e] at h; exact ⟨a, w1, rfl, h⟩
  | exn w1 => rw [e] at h; cases h
  | ub => rw [e] at h; cases h

/-- `insert(pos, first, last)` of both models. -/
theorem dpvRange_agrees (hn : 0 < n) (hnt : ∀ t, env.throws t = none) {w : World V} {S : SVecs V} (h : Reach env w S) {d : Nat} {xs : List (Rec V)}
    (hd : S d = some xs) {s : DpvRange.St V} (hs : ∀ p, w.vecs d = some p → ∀ j, s.cols j = (p j).data) {moved : (j : Fin n) → V j → V j}
    {m : DpvRange.Mode} {ord : Nat → List (Fin n)} (ho : DpvRange.Orders ord) {i : Nat} (hi : i ≤ xs.length) (hm : m ≠ .xvalue ∨ i = xs.length ∨ n = 1)
    (c : Nat) (ra : Bool) :
    ∃ w' p', insertRange env d i ((List.range c).map s.src) ra w = .ok i w' ∧ w'.vecs d = some p' ∧
      ∀ j, (DpvRange.insertRange moved m ord i c s).cols j = (p' j).data := by
  obtain ⟨p, hp, g⟩ := (h.rep hn).some d xs hd
  have hr : DpvRange.Rows s xs := fun j => (hs p hp j).trans (g.data j)
  obtain ⟨w', h1, h2⟩ := (C51_step hn h (op := .insertRange d i ((List.range c).map s.src) ra) ⟨xs, hd, hi⟩ (by simp [usesDefault])).2.2 hnt
  obtain ⟨p', hp', g'⟩ := (h2.rep hn).some d (xs.take i ++ (List.range c).map s.src ++ xs.drop i) (by simp [specStep, upd, hd])
  refine ⟨w', p', ?_, hp', fun j => ?_⟩
  · obtain ⟨r, w1, e, e'⟩ := of_bind (m := insertRange env d i ((List.range c).map s.src) ra) (f := fun r => M.pure (Out.pos r)) h1
    cases e'
    exact e
  · rw [(DpvRange.C88_insert_partial (moved := moved) hn ho hr hi hm).1 j, g'.data j]
    rfl

/-- The constructor from a range of both models. -/
theorem dpvRangeCtor_agrees (hn : 0 < n) (hnt : ∀ t, env.throws t = none) {w : World V} {S : SVecs V} (h : Reach env w S) {d : Nat} (hd : S d = none)
    (s : DpvRange.St V) {moved : (j : Fin n) → V j → V j} {m : DpvRange.Mode} {ord : Nat → List (Fin n)} (ho : DpvRange.Orders ord) (c : Nat) (ra : Bool) :
    ∃ w' p', rangeCtor env d ((List.range c).map s.src) ra w = .ok () w' ∧ w'.vecs d = some p' ∧
      ∀ j, (DpvRange.rangeCtor moved m ord c s).cols j = (p' j).data := by
  obtain ⟨w', h1, h2⟩ := (C51_step hn h (op := .rangeCtor d ((List.range c).map s.src) ra) hd (by simp [usesDefault])).2.2 hnt
  obtain ⟨p', hp', g'⟩ := (h2.rep hn).some d ((List.range c).map s.src) (by simp [specStep, upd])
  refine ⟨w', p', ?_, hp', fun j => ?_⟩
  · obtain ⟨r, w1, e, e'⟩ := of_bind (m := rangeCtor env d ((List.range c).map s.src) ra) (f := fun r => M.pure (Out.unit)) h1
    cases e'
    exact e
  · rw [(DpvRange.C88_rangeCtor (moved := moved) (m := m) hn ho s c).1 j, g'.data j]

/-- `insert(pos, v)` of both models. -/
theorem dpvInsertOne_agrees (hn : 0 < n) (hnt : ∀ t, env.throws t = none) {w : World V} {S : SVecs V} (h : Reach env w S) {d : Nat} {xs : List (Rec V)}
    (hd : S d = some xs) {s : DpvRange.St V} (hs : ∀ p, w.vecs d = some p → ∀ j, s.cols j = (p j).data) {moved : (j : Fin n) → V j → V j}
    {m : DpvRange.Mode} {js : List (Fin n)} (hj : js.Perm (List.finRange n)) {i : Nat} (hi : i ≤ xs.length) :
    ∃ w' p', insertVal env d i (s.src 0) w = .ok i w' ∧ w'.vecs d = some p' ∧ ∀ j, (DpvRange.insertOne moved m js i s).cols j = (p' j).data := by
  obtain ⟨p, hp, g⟩ := (h.rep hn).some d xs hd
  have hr : DpvRange.Rows s xs := fun j => (hs p hp j).trans (g.data j)
  obtain ⟨w', h1, h2⟩ := (C51_step hn h (op := .insertVal d i (s.src 0)) ⟨xs, hd, hi⟩ (by simp [usesDefault])).2.2 hnt
  obtain ⟨p', hp', g'⟩ := (h2.rep hn).some d (xs.take i ++ [s.src 0] ++ xs.drop i) (by simp [specStep, upd, hd])
  refine ⟨w', p', ?_, hp', fun j => ?_⟩
  · obtain ⟨r, w1, e, e'⟩ := of_bind (m := insertVal env d i (s.src 0)) (f := fun r => M.pure (Out.pos r)) h1
    cases e'
    exact e
  · rw [(DpvRange.C88_insertOne (moved := moved) (m := m) hj hr i).1 j, g'.data j]
    rfl

end AnyAny.Check
