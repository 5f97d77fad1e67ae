/-
Model of the allocators of `aa::data_parallel_vector<T, Alloc>` (include/anyany/data_parallel_vector.hpp:48-62, 358-402, 639-652, 688-716).

The columns are `std::vector`s, each with its own (rebound) copy of the allocator. This model has only their allocators and buffers; contents
are in Model/Dpv.lean. Allocators are numbers; two are equal iff memory of the one may be given back to the other. Whether a member of
`std::vector` needs new memory, and whether it throws, is decided by an oracle for each operation, so that all contents, capacities and
moments of exceptions are covered.
-/
namespace AnyAny.DpvAlloc

/-- `std::allocator_traits<Alloc>`: the traits for copy assignment, move assignment and swap, `is_always_equal`,
`select_on_container_copy_construction`, and the allocator that `Alloc()` makes.
  `std::allocator_traits` is not part of the library; `Alloc` is the parameter at
  data_parallel_vector.hpp:34-60. -/
structure Traits where
  pocca : Bool
  pocma : Bool
  pocs : Bool
  alwaysEqual : Bool
  select : Nat → Nat
  dflt : Nat

/-- `a == b` Comparison of allocators, done by `std::vector`; for data_parallel_vector.hpp:62. -/
def Traits.eq (T : Traits) (a b : Nat) : Bool := T.alwaysEqual || a == b

/-- A `std::vector`: its allocator, and the allocator that its buffer (if it has one) was obtained
    from. `std::vector` is not part of the library; one of the members `container_t<Is>`
    (data_parallel_vector.hpp:62). -/
structure Col where
  alloc : Nat
  buf : Option Nat

/-! ### members of std::vector

As specified in the standard ([container.alloc.reqmts], [vector.cons]). `none` is undefined behaviour: memory is given back to an allocator
not equal to the one it was obtained from. `g`: the member needs (new) memory. -/
namespace Col
variable (T : Traits)

/-- The buffer is given back to the allocator. `std::vector` is not part of the library; used for
    data_parallel_vector.hpp:389-395, 657-672. -/
def release (c : Col) : Option Col :=
  match c.buf with
  | none => some c
  | some b => if T.eq c.alloc b then some { c with buf := none } else none

/-- Any member that changes the elements or the capacity. `std::vector` is not part of the
    library; called at data_parallel_vector.hpp:558-672. -/
def modify (g : Bool) (c : Col) : Option Col :=
  if g then do
    let c ← release T c
    some { c with buf := some c.alloc }
  else some c

/-- `vector(alloc)`, `vector(n, alloc)`, `vector(n, x, alloc)`, `vector(other, alloc)`
    `std::vector` is not part of the library; called at data_parallel_vector.hpp:363-386. -/
def make (a : Nat) (g : Bool) : Col := ⟨a, if g then some a else none⟩

/-- `vector(const vector&)` `std::vector` is not part of the library; called by the defaulted copy
    constructor (data_parallel_vector.hpp:389-394). -/
def copy (s : Col) (g : Bool) : Col := make (T.select s.alloc) g

/-- `vector(vector&&)`: the new vector and what is left of the source. `std::vector` is not part
    of the library; called by the defaulted move constructor (data_parallel_vector.hpp:389-394).
    -/
def move (s : Col) : Col × Col := (s, { s with buf := none })

/-- `vector(vector&&, alloc)` `std::vector` is not part of the library; called at
    data_parallel_vector.hpp:382. -/
def moveAlloc (s : Col) (a : Nat) (g : Bool) : Col × Col :=
  if T.eq a s.alloc then (⟨a, s.buf⟩, { s with buf := none }) else (make a g, s)

/-- `operator=(const vector&)` `std::vector` is not part of the library; called by the defaulted
    copy assignment (data_parallel_vector.hpp:394). -/
def copyAssign (d s : Col) (g : Bool) : Option Col :=
  if T.pocca then do
    let d ← if T.eq d.alloc s.alloc then some d else release T d
    modify T g { d with alloc := s.alloc }
  else modify T g d

/-- `operator=(vector&&)` `std::vector` is not part of the library; called by the defaulted move
    assignment (data_parallel_vector.hpp:395). -/
def moveAssign (d s : Col) (g : Bool) : Option (Col × Col) :=
  if T.pocma then do
    let _ ← release T d
    some (s, { s with buf := none })
  else if T.eq d.alloc s.alloc then do
    let d ← release T d
    some ({ d with buf := s.buf }, { s with buf := none })
  else do
    let d ← modify T g d
    some (d, s)

/-- `swap` `std::vector` is not part of the library; called at data_parallel_vector.hpp:711. -/
def swap (a b : Col) : Option (Col × Col) :=
  if T.pocs then some (b, a)
  else if T.eq a.alloc b.alloc then some ({ a with buf := b.buf }, { b with buf := a.buf })
  else none

end Col

variable {n : Nat}

/-- `parts` (data_parallel_vector.hpp:62). -/
abbrev Parts (n : Nat) := Fin n → Col

/-- Objects that exist. The members `parts` (data_parallel_vector.hpp:62) of all containers. -/
abbrev World (n : Nat) := Nat → Option (Parts n)

/-- No code of the library: update of a function, for the state of data_parallel_vector.hpp:62. -/
def upd {α} (f : Nat → Option α) (k : Nat) (v : Option α) : Nat → Option α := fun x => if x = k then v else f x

/-- What is decided by contents, capacities and failures: which columns need memory; `some (k, e)`: the member of column `k` throws, and
had (`e`) or had not got so far as to change its column. No code of the library; used for the
  members of data_parallel_vector.hpp:360-760. -/
structure Oracle (n : Nat) where
  grows : Fin n → Bool
  throws : Option (Fin n × Bool) := none

/-- One member for each column in turn; if one throws, the columns before it are done. The fold
    expressions at data_parallel_vector.hpp:558-672. -/
def cols (o : Oracle n) (f : Fin n → Col → Option Col) (p : Parts n) : Option (Parts n) :=
  let reached (j : Fin n) : Bool := match o.throws with | none => true | some (k, e) => decide (j < k) || (decide (j = k) && e)
  if ∀ j, reached j = true → (f j (p j)).isSome then some fun j => if reached j then (f j (p j)).getD (p j) else p j
  else none

variable (T : Traits) (o : Oracle n)

/-- All columns are destroyed. The implicit destructor of the member at
    data_parallel_vector.hpp:62. -/
def destroyed (p : Parts n) : Bool := decide (∀ j, ((p j).release T).isSome = true)

/-- A new container, unless a constructor of a column throws (the columns made so far are
    destroyed, each with its own allocator). The constructors of the member at
    data_parallel_vector.hpp:62 (363-386). -/
def construct (w : World n) (d : Nat) (p : Parts n) : World n × Bool :=
  match o.throws with
  | none => (upd w d (some p), false)
  | some _ => (w, true)

/-- `data_parallel_vector()` (360, 699) -/
def defaultCtor (w : World n) (d : Nat) : World n × Bool := construct { o with throws := none } w d fun _ => .make T.dflt false

/-- `data_parallel_vector(alloc)` (362-365), noexcept -/
def allocCtor (w : World n) (d a : Nat) : World n × Bool := construct { o with throws := none } w d fun _ => .make a false

/-- `data_parallel_vector(count, value, alloc)`, `(count, alloc)` (366-372); a default argument `Alloc()` is the caller's. -/
def countCtor (w : World n) (d a : Nat) : World n × Bool := construct o w d fun j => .make a (o.grows j)

/-- `data_parallel_vector(first, last, alloc)`, `(initializer_list, alloc)` (373-377, 384-388): the columns are made with `alloc`, then elements
are inserted; if that throws, the columns are destroyed. -/
def rangeCtor (w : World n) (d a : Nat) : Option (World n × Bool) := do
  let p ← cols o (fun j c => c.modify T (o.grows j)) fun _ => .make a false
  match o.throws with
  | none => some (upd w d (some p), false)
  | some _ => if destroyed T p then some (w, true) else none

/-- The copy constructor (392, 700). -/
def copyCtor (w : World n) (d s : Nat) : Option (World n × Bool) := do
  let q ← w s
  some (construct o w d fun j => (q j).copy T (o.grows j))

/-- `data_parallel_vector(other, alloc)` (378-380) -/
def copyCtorAlloc (w : World n) (d s a : Nat) : Option (World n × Bool) := do
  let _ ← w s
  some (construct o w d fun j => .make a (o.grows j))

/-- The move constructor (393, 701). -/
def moveCtor (w : World n) (d s : Nat) : Option (World n × Bool) := do
  let q ← w s
  some (upd (upd w s (some fun j => (q j).move.2)) d (some fun j => (q j).move.1), false)

/-- `data_parallel_vector(std::move(other), alloc)` (381-383). If the constructor of a column throws (allocators are not equal), the columns
made before are destroyed, with the buffers they have taken. -/
def moveCtorAlloc (w : World n) (d s a : Nat) : Option (World n × Bool) := do
  let q ← w s
  let r := fun j => (q j).moveAlloc T a (o.grows j)
  match o.throws with
  | none => some (upd (upd w s (some fun j => (r j).2)) d (some fun j => (r j).1), false)
  | some (k, _) =>
    if ∀ j, j < k → ((r j).1.release T).isSome = true then some (upd w s (some fun j => if j < k then (r j).2 else q j), true) else none

/-- The destructor (396). -/
def dtor (w : World n) (d : Nat) : Option (World n × Bool) := do
  let p ← w d
  if destroyed T p then some (upd w d none, false) else none

/-- Copy assignment (394, 708), of different objects. -/
def copyAssign (w : World n) (d s : Nat) : Option (World n × Bool) := do
  let p ← w d
  let q ← w s
  let p' ← cols o (fun j c => c.copyAssign T (q j) (o.grows j)) p
  some (upd w d (some p'), o.throws.isSome)

/-- Move assignment of vectors throws only if it has to move the elements one by one.
    `std::vector` is not part of the library; used for the move assignments at
    data_parallel_vector.hpp:395, 709. -/
def moveThrows : Oracle n := if T.pocma || T.alwaysEqual then { o with throws := none } else o

/-- Move assignment (395, 709) of the columns. -/
def moveParts (p q : Parts n) : Option (Parts n × Parts n) := do
  let p' ← cols (moveThrows T o) (fun j c => (c.moveAssign T (q j) (o.grows j)).map (·.1)) p
  let q' ← cols (moveThrows T o) (fun j c => (Col.moveAssign T (p j) c (o.grows j)).map (·.2)) q
  some (p', q')

/-- Move assignment (395, 709), of different objects. -/
def moveAssign (w : World n) (d s : Nat) : Option (World n × Bool) := do
  let p ← w d
  let q ← w s
  let r ← moveParts T o p q
  some (upd (upd w s (some r.2)) d (some r.1), (moveThrows T o).throws.isSome)

/-- `assign(...)`, `operator=(initializer_list)` (398-401, 639-652, 703-706): `*this = data_parallel_impl(...)`, a temporary made with the
default argument `allocator_type()`; `o1`: its construction, `o`: the move assignment. -/
def assign (o1 : Oracle n) (w : World n) (d : Nat) : Option (World n × Bool) := do
  let p ← w d
  let tmp ← cols o1 (fun j c => c.modify T (o1.grows j)) fun _ => .make T.dflt false
  match o1.throws with
  | some _ => if destroyed T tmp then some (w, true) else none
  | none =>
    let r ← moveParts T o p tmp
    if destroyed T r.2 then some (upd w d (some r.1), (moveThrows T o).throws.isSome) else none

/-- Every other member that changes elements or capacity: `emplace`, `emplace_back`, `push_back`, `erase`, `insert`, `clear`, `pop_back`, `reserve`,
`resize`, `shrink_to_fit` (557-636, 654-673). -/
def modify (w : World n) (d : Nat) : Option (World n × Bool) := do
  let p ← w d
  let p' ← cols o (fun j c => c.modify T (o.grows j)) p
  some (upd w d (some p'), o.throws.isSome)

/-- `swap` (711-716), of different objects. -/
def swap (w : World n) (d e : Nat) : Option (World n × Bool) := do
  let p ← w d
  let q ← w e
  if ∀ j, (Col.swap T (p j) (q j)).isSome = true then
    some (upd (upd w d (some fun j => ((Col.swap T (p j) (q j)).getD (p j, q j)).1)) e
      (some fun j => ((Col.swap T (p j) (q j)).getD (p j, q j)).2), false)
  else none

end AnyAny.DpvAlloc
