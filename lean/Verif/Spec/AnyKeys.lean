import Verif.Model.AnyKeys
import Verif.Spec.NestedCmp
/-
What containers with anys as keys should do. Keys are equal if they are, written out (Spec/NestedCmp.lean), the same sign by sign. What an unordered map has for a
key depends on the history of the operations only: not on hashes, buckets and orders.
-/
namespace AnyAny.Nested
open AnyAny.Poly (PO)

/-- Equal keys. -/
def Equal (F : Fns) (a b : Key) : Prop :=
  (text a).length = (text b).length ∧ ∀ (i : Nat) s t, (text a)[i]? = some s → (text b)[i]? = some t → s.same F t

/-- What was done to a map. -/
inductive MapOp (β : Type) where
  | insert (k : Key) (v : β)
  | assign (k : Key) (v : β)
  | erase (k : Key)

/-- After the operations (the last one first) the map has `w` for the keys that are equal to `q`. -/
def Has (F : Fns) {β : Type} : List (MapOp β) → Key → β → Prop
  | [], _, _ => False
  | .insert k v :: h, q, w => Has F h q w ∨ (Equal F k q ∧ w = v ∧ ∀ v', ¬ Has F h q v')
  | .assign k v :: h, q, w => (Equal F k q ∧ w = v) ∨ (¬ Equal F k q ∧ Has F h q w)
  | .erase k :: h, q, w => ¬ Equal F k q ∧ Has F h q w

/-- The maps that one can have after the operations (the last one first): the number of buckets changes at any time, to any number but 0, and any change of the
order of the elements with it. -/
inductive Reach (F : Fns) {β : Type} : List (MapOp β) → UMap β → Prop where
  | empty (n : Nat) : 0 < n → Reach F [] ⟨n, []⟩
  | insert {h m} (k : Key) (v : β) : Reach F h m → Reach F (.insert k v :: h) (m.insert F k v).1
  | assign {h m} (k : Key) (v : β) : Reach F h m → Reach F (.assign k v :: h) (m.assign F k v)
  | erase {h m} (k : Key) : Reach F h m → Reach F (.erase k :: h) (m.erase F k).1
  | rehash {h m} (n : Nat) (es : List (Entry β)) : 0 < n → List.Perm es m.entries → Reach F h m → Reach F h (m.rehash n es)

/-- A strict weak ordering of the keys in `S`, without undefined behaviour: what `std::map`, `std::set` and `std::sort` require of `<`. -/
structure StrictWeak (S : Key → Prop) (lt : Key → Key → Option Bool) : Prop where
  defined : ∀ a b, S a → S b → (lt a b).isSome
  irrefl : ∀ a, S a → lt a a = some false
  trans : ∀ a b c, S a → S b → S c → lt a b = some true → lt b c = some true → lt a c = some true
  incomp : ∀ a b c, S a → S b → S c → lt a b = some false → lt b a = some false → lt b c = some false → lt c b = some false →
    lt a c = some false ∧ lt c a = some false

end AnyAny.Nested
