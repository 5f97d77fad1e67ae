/-
When the columns of `data_parallel_vector` get new memory (include/anyany/data_parallel_vector.hpp:366-401, 453-457, 557-670). A column is a `std::vector`, of
which only the capacity and the number of allocations so far is modelled; the columns have the same length (C52), exceptions are left out. What a
`std::vector` does is taken from the standard library: it allocates iff it has to hold more elements than its capacity, or `reserve` asks for more. How
large the new memory is, is a parameter: `grow len cap need` elements if that is enough, otherwise `need`. `shrink_to_fit`, `swap`, and moves and copies
of whole containers are left out, because they are what may take memory away.
-/
namespace AnyAny.DpvKeep

/-- A column: `container_t<I>` (data_parallel_vector.hpp:58), its capacity, and how many times it has allocated memory so far. -/
structure Col where
  cap : Nat
  allocs : Nat
deriving DecidableEq, Repr

/-- `data_parallel_impl`: the number of elements and the columns `parts` (data_parallel_vector.hpp:62). `dflt`: the allocator is equal to a default
constructed one, as the temporary objects of `assign` use it (642, 647, 651). -/
structure Dpv where
  len : Nat
  cols : List Col
  dflt : Bool
deriving DecidableEq, Repr

/-- How vectors grow, and `propagate_on_container_move_assignment` of the allocator. -/
structure Env where
  grow : Nat → Nat → Nat → Nat
  prop : Bool

/-- A `std::vector` with `len` elements gets room for `need`. Standard library, no code of the library; used at data_parallel_vector.hpp:558, 562, 604,
663, 666, 669 and by constructors (368). -/
def Col.room (E : Env) (len need : Nat) (c : Col) : Col :=
  if need ≤ c.cap then c else ⟨max (E.grow len c.cap need) need, c.allocs + 1⟩

/-- Move assignment of a `std::vector` with `len` elements, from one with `len'` elements: if allocators are propagated or equal the memory is exchanged for
the one of the other vector, otherwise the elements are moved one by one. What the other vector has allocated is counted too. Standard library, no code of
the library; used at data_parallel_vector.hpp:395. -/
def Col.moveFrom (E : Env) (dflt : Bool) (len len' : Nat) (c c' : Col) : Col :=
  if E.prop || dflt then ⟨c'.cap, c.allocs + c'.allocs⟩
  else { c.room E len len' with allocs := (c.room E len len').allocs + c'.allocs }

/-- `capacity()` (data_parallel_vector.hpp:454-457): the smallest of the columns. -/
def Dpv.capacity (d : Dpv) : Nat :=
  match d.cols with
  | [] => 0
  | c :: cs => cs.foldl (fun a c => min a c.cap) c.cap

/-- All columns get room. (The folds over `parts`, data_parallel_vector.hpp:558, 562, 602-607, 663, 666, 669.) -/
def Dpv.room (E : Env) (need : Nat) (d : Dpv) : Dpv := { d with cols := d.cols.map (Col.room E d.len need) }

/-- `emplace(pos, fields...)` and `emplace_back(fields...)` (data_parallel_vector.hpp:557-564). -/
def emplace (E : Env) (d : Dpv) : Dpv := { d.room E (d.len + 1) with len := d.len + 1 }

/-- One after the other (data_parallel_vector.hpp:615-616, 623-631). -/
def emplaceLoop (E : Env) : Nat → Dpv → Dpv
  | 0, d => d
  | m + 1, d => emplaceLoop E m (emplace E d)

/-- `insert(pos, first, last)` with `m` elements between the iterators; `ra`: they are random-access iterators (data_parallel_vector.hpp:610-633). -/
def insertRange (E : Env) (ra : Bool) (i m : Nat) (d : Dpv) : Dpv :=
  if i = d.len then emplaceLoop E m d
  else emplaceLoop E m (if ra then d.room E (d.len + m) else d)

/-- `data_parallel_impl(count, value)` (data_parallel_vector.hpp:366-369), `n` columns. -/
def ofCount (E : Env) (n m : Nat) : Dpv := ⟨m, List.replicate n (Col.room E 0 m ⟨0, 0⟩), true⟩

/-- `data_parallel_impl(first, last)` (data_parallel_vector.hpp:373-377), hence from an `initializer_list` (384-388), `n` columns. -/
def ofRange (E : Env) (ra : Bool) (n m : Nat) : Dpv := insertRange E ra 0 m ⟨0, List.replicate n ⟨0, 0⟩, true⟩

/-- `operator=(data_parallel_impl&&)` (data_parallel_vector.hpp:395) from a temporary object with a default constructed allocator. -/
def moveFrom (E : Env) (tmp d : Dpv) : Dpv :=
  ⟨tmp.len, List.zipWith (Col.moveFrom E d.dflt d.len tmp.len) d.cols tmp.cols, E.prop || d.dflt⟩

/-- Operations of the container. (data_parallel_vector.hpp:557-671; `operator=(initializer_list)` 398-401 is `assign`.) -/
inductive Op where
  | reserve (n : Nat)
  | pushBack
  | insert
  | insertCount (m : Nat)
  | insertRange (ra : Bool) (i m : Nat)
  | resize (m : Nat)
  | popBack
  | erase
  | clear
  | assignCount (m : Nat)
  | assignRange (ra : Bool) (m : Nat)
deriving DecidableEq, Repr

/-- The operation: `reserve` (data_parallel_vector.hpp:662-664), `emplace_back`, `push_back` (561-574), `emplace`, `insert(pos, value)` (557-560, 592-599),
`insert(pos, count, value)` (601-608), `insert(pos, first, last)` (610-637), `resize` (665-670), `pop_back` (659-661), `erase(pos)` (578-582), `clear`
(656-658), `assign` (641-653). -/
def Op.run (E : Env) : Op → Dpv → Dpv
  | .reserve n, d => d.room E n
  | .pushBack, d => emplace E d
  | .insert, d => emplace E d
  | .insertCount m, d => { d.room E (d.len + m) with len := d.len + m }
  | .insertRange ra i m, d => DpvKeep.insertRange E ra i m d
  | .resize m, d => { d.room E m with len := m }
  | .popBack, d => { d with len := d.len - 1 }
  | .erase, d => { d with len := d.len - 1 }
  | .clear, d => { d with len := 0 }
  | .assignCount m, d => moveFrom E (ofCount E d.cols.length m) d
  | .assignRange ra m, d => moveFrom E (ofRange E ra d.cols.length m) d

/-- A program. (data_parallel_vector.hpp:557-671.) -/
def runAll (E : Env) (ops : List Op) (d : Dpv) : Dpv := ops.foldl (fun d o => o.run E d) d

end AnyAny.DpvKeep
