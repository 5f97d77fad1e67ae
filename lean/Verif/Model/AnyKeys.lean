import Verif.Model.NestedCmp
/-
Anys as keys: `std::unordered_map<any, V>` with `std::hash<any>` (include/anyany/anyany.hpp:1979-1985) and `==` (1806-1817), and the `<` that
`std::map<any, V>` and `std::sort` use (rewritten to `<=>`, 1856-1869). A key is what an any holds; its anys are keys of the same form (Model/NestedCmp.lean).
The containers are those of the standard library; of the code in /repo they call only `==`, `<=>` and `std::hash`. Simplified: the elements of all buckets are in
one list, the ones of a bucket in the order in which the bucket has them; keys are not changed while they are in the container (they are const).
-/
namespace AnyAny.Nested
open AnyAny.Poly (PO)

/-- What the any that is a key holds (anyany.hpp:1806, 1982: `const basic_any&`). -/
abbrev Key := Option Val

/-- An element of the container: the cached result of `std::hash<any>` (anyany.hpp:1982-1984), the key, the value. -/
structure Entry (β : Type) where
  hash : Nat
  key : Key
  val : β

/-- `std::unordered_map<any, β>`: the number of buckets and the elements. -/
structure UMap (β : Type) where
  buckets : Nat
  entries : List (Entry β)

variable {β : Type}

/-- Is this the element that is looked for: in the bucket of `std::hash<any>{}(k)` (anyany.hpp:1982-1984) and with a key that is `==` (1806-1817). -/
def UMap.hit (F : Fns) (m : UMap β) (k : Key) (e : Entry β) : Bool := e.hash % m.buckets == anyHash F k % m.buckets && anyEq F e.key k

/-- `m.find(k)`: the first such element (uses anyany.hpp:1806-1817, 1979-1985). -/
def UMap.find (F : Fns) (m : UMap β) (k : Key) : Option β := (m.entries.find? (m.hit F k)).map (·.val)

/-- `m.insert({k, v})` / `m.try_emplace(k, v)`: nothing if there is an element with the key. The result says whether it was inserted
(uses anyany.hpp:1806-1817, 1979-1985). -/
def UMap.insert (F : Fns) (m : UMap β) (k : Key) (v : β) : UMap β × Bool :=
  match m.find F k with
  | some _ => (m, false)
  | none => ({ m with entries := ⟨anyHash F k, k, v⟩ :: m.entries }, true)

/-- The value of the first element that is looked for becomes `v`. -/
def setFirst (p : Entry β → Bool) (v : β) : List (Entry β) → List (Entry β)
  | [] => []
  | e :: es => if p e then { e with val := v } :: es else e :: setFirst p v es

/-- `m.insert_or_assign(k, v)` (uses anyany.hpp:1806-1817, 1979-1985). -/
def UMap.assign (F : Fns) (m : UMap β) (k : Key) (v : β) : UMap β :=
  match m.find F k with
  | some _ => { m with entries := setFirst (m.hit F k) v m.entries }
  | none => { m with entries := ⟨anyHash F k, k, v⟩ :: m.entries }

/-- `m.erase(k)`: the first element with the key, and the number of the erased elements (uses anyany.hpp:1806-1817, 1979-1985). -/
def UMap.erase (F : Fns) (m : UMap β) (k : Key) : UMap β × Nat :=
  match m.find F k with
  | some _ => ({ m with entries := m.entries.eraseP (m.hit F k) }, 1)
  | none => (m, 0)

/-- `m.rehash(n)`, which `insert` does too: another number of buckets, the elements go to their buckets by the cached hash. The order within buckets is any
order: `es`. -/
def UMap.rehash (m : UMap β) (n : Nat) (es : List (Entry β)) : UMap β := { buckets := n, entries := es }

/-- `a < b`, rewritten to `(a <=> b) < 0` (anyany.hpp:1856-1869). `none`: undefined behaviour. -/
def keyLess (F : Fns) (a b : Key) : Option Bool := (anyCmp F a b).map fun c => c == .less

end AnyAny.Nested
