/-
How many elements the operations of `data_parallel_vector` move that add elements (include/anyany/data_parallel_vector.hpp:373-388, 557-637).
A column is a `std::vector`, of which only the capacity and the number of moves (constructions from, or assignments of, elements that
are already there) is modelled; the columns have the same length (C52), exceptions are left out. What a `std::vector` does is taken from the standard
library: `emplace` moves the elements behind the position by one, or, if there is no room, all elements to new memory; `reserve` moves all elements
to memory for exactly as many elements as asked for. `grow c` is the capacity a full vector of capacity `c` gets, if that is enough. (How arguments are
copied is in Model/DpvRange.lean and C89.)
-/
namespace AnyAny.DpvCost

/-- A column: `container_t<I>` (data_parallel_vector.hpp:58), its capacity, and how many elements it has moved so far. -/
structure Col where
  cap : Nat
  moves : Nat
deriving DecidableEq, Repr

/-- `data_parallel_impl`: the number of elements and the columns `parts` (data_parallel_vector.hpp:62). -/
structure Dpv where
  len : Nat
  cols : List Col
deriving DecidableEq, Repr

variable (grow : Nat → Nat)

/-- `emplace` and `emplace_back` of a `std::vector` with `len` elements at position `i`. Standard library, no code of the library; used at
data_parallel_vector.hpp:558, 562. -/
def Col.emplace (len i : Nat) (c : Col) : Col :=
  if len < c.cap then { c with moves := c.moves + (len - i) }
  else ⟨max (grow c.cap) (len + 1), c.moves + len⟩

/-- `reserve` of a `std::vector`. Standard library, no code of the library; used at data_parallel_vector.hpp:663. -/
def Col.reserve (len n : Nat) (c : Col) : Col := if n ≤ c.cap then c else ⟨n, c.moves + len⟩

/-- `insert(pos, count, value)` of a `std::vector`. Standard library, no code of the library; used at data_parallel_vector.hpp:604. -/
def Col.insertCount (len i m : Nat) (c : Col) : Col :=
  if m = 0 then c
  else if len + m ≤ c.cap then { c with moves := c.moves + (len - i) }
  else ⟨max (grow c.cap) (len + m), c.moves + len⟩

/-- `insert(pos, count, value)` (data_parallel_vector.hpp:601-608). -/
def insertCount (i m : Nat) (d : Dpv) : Dpv := ⟨d.len + m, d.cols.map (Col.insertCount grow d.len i m)⟩

/-- `emplace(pos, fields...)` (data_parallel_vector.hpp:557-560), hence `insert(pos, value)` (592-599). -/
def emplace (i : Nat) (d : Dpv) : Dpv := ⟨d.len + 1, d.cols.map (Col.emplace grow d.len i)⟩

/-- `emplace_back(fields...)` (data_parallel_vector.hpp:561-564), hence `push_back(value)` (568-574). -/
def emplaceBack (d : Dpv) : Dpv := emplace grow d.len d

/-- `reserve(n)` (data_parallel_vector.hpp:662-664). -/
def reserve (n : Nat) (d : Dpv) : Dpv := { d with cols := d.cols.map (Col.reserve d.len n) }

/-- The loop of `insert` at the end (data_parallel_vector.hpp:615-616). -/
def appendLoop : Nat → Dpv → Dpv
  | 0, d => d
  | m + 1, d => appendLoop m (emplaceBack grow d)

/-- `insert` one after the other of the elements of a range, `++pos` after each (data_parallel_vector.hpp:623-631). -/
def insertLoop : Nat → Nat → Dpv → Dpv
  | _, 0, d => d
  | i, m + 1, d => insertLoop (i + 1) m (emplace grow i d)

/-- `insert(pos, first, last)` with `m` elements between the iterators; `ra`: they are random-access iterators
(data_parallel_vector.hpp:610-633). -/
def insertRange (ra : Bool) (i m : Nat) (d : Dpv) : Dpv :=
  if i = d.len then appendLoop grow m d
  else insertLoop grow i m (if ra then reserve (d.len + m) d else d)

/-- `data_parallel_impl(first, last)` (data_parallel_vector.hpp:373-377), with `n` columns. -/
def ofRange (n m : Nat) : Dpv := insertRange grow true 0 m ⟨0, List.replicate n ⟨0, 0⟩⟩

/-- `pop_back` (data_parallel_vector.hpp:659-661) and `clear` (656-658) move nothing and keep the memory. -/
def popBack (d : Dpv) : Dpv := { d with len := d.len - 1 }
/-- `clear` (data_parallel_vector.hpp:656-658). -/
def clear (d : Dpv) : Dpv := { d with len := 0 }

/-- Operations at the end: `push_back`, `emplace_back` (data_parallel_vector.hpp:561-574), `insert(end(), first, last)` (610-618),
`pop_back`, `clear` (656-661). -/
inductive EndOp where
  | pushBack
  | insertEnd (ra : Bool) (m : Nat)
  | popBack
  | clear
deriving DecidableEq, Repr

/-- The operation. (data_parallel_vector.hpp:561-574, 610-618, 656-661.) -/
def EndOp.run : EndOp → Dpv → Dpv
  | .pushBack, d => emplaceBack grow d
  | .insertEnd ra m, d => insertRange grow ra d.len m d
  | .popBack, d => DpvCost.popBack d
  | .clear, d => DpvCost.clear d

/-- A program of such operations. (data_parallel_vector.hpp:561-574, 610-618, 656-661.) -/
def runAll (ops : List EndOp) (d : Dpv) : Dpv := ops.foldl (fun d o => o.run grow d) d

end AnyAny.DpvCost
