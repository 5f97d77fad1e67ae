import Verif.Model.TypeList
/-
Specifications for the type-list functions, in terms of plain lists.
Only the datatype `Item` (nested lists) is shared with the model.
-/
namespace AnyAny.TypeList.Spec

variable {α : Type}

/-- `needle` occurs contiguously in `hay`, starting at position `i`. -/
def OccursAt (needle hay : List α) (i : Nat) : Prop :=
  ∃ before after, hay = before ++ needle ++ after ∧ before.length = i

/-- `i` is the first position of `t` in `ts`. -/
def FirstAt (t : α) (ts : List α) (i : Nat) : Prop :=
  ts[i]? = some t ∧ ∀ j, j < i → ts[j]? ≠ some t

mutual
/-- The leaves of a nested list, from left to right. -/
def leaves1 : Item α → List α
  | .leaf a => [a]
  | .list xs => leaves xs
def leaves : List (Item α) → List α
  | [] => []
  | x :: xs => leaves1 x ++ leaves xs
end

/-- `out` lists the elements of `ts` without repetition, in the order of their first occurrence. -/
def FirstOccurrences (ts out : List α) : Prop :=
  out.Nodup ∧ (∀ t, t ∈ out ↔ t ∈ ts) ∧
  out.Pairwise (fun a b => ∃ k l, FirstAt a ts k ∧ FirstAt b ts l ∧ k < l)

/-- `IsPartialOrder`-like laws of the "is the same class as or derives from" relation
(`std::is_base_of_v` on class types): reflexive, transitive, antisymmetric. -/
structure IsHierarchy (base : α → α → Bool) : Prop where
  refl : ∀ a, base a a = true
  trans : ∀ a b c, base a b = true → base b c = true → base a c = true
  antisymm : ∀ a b, base a b = true → base b a = true → a = b

end AnyAny.TypeList.Spec
