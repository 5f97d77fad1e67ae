import Verif.Model.DpvRange
/-
What inserting a range into `std::vector<T>` means: contents are a list of records.
-/
namespace AnyAny.DpvRange

variable {n : Nat} {V : Fin n → Type}

/-- The container has these elements. -/
def Rows (s : St V) (l : List ((j : Fin n) → V j)) : Prop := ∀ j, s.cols j = l.map (· j)

/-- The contents of a `std::vector<T>` after `insert(begin() + i, first, last)`, where the range has the elements `xs`. -/
def vectorInsert {α : Type} (i : Nat) (xs l : List α) : List α := l.take i ++ xs ++ l.drop i

/-- The objects outside, after the first `c` of them have been moved from once, if they are xvalues. -/
def srcAfter (moved : (j : Fin n) → V j → V j) (m : Mode) (c : Nat) (src : Nat → (j : Fin n) → V j) : Nat → (j : Fin n) → V j :=
  fun k => if m = .xvalue ∧ k < c then fun j => moved j (src k j) else src k

/-- `f` applied `k` times. -/
def iter {α : Type} (f : α → α) : Nat → α → α
  | 0, x => x
  | k + 1, x => iter f k (f x)

/-- Orders of evaluation: any permutation of the fields, for each call. -/
def Orders (ord : Nat → List (Fin n)) : Prop := ∀ k, (ord k).Perm (List.finRange n)

end AnyAny.DpvRange
