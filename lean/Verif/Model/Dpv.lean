/-
Model of `aa::data_parallel_vector<T, Alloc>` (include/anyany/data_parallel_vector.hpp:35-720).

The record type `T` has `n` fields, field `j` of type `V j`; a value of `T` is a function giving the fields
(`Traits::get<I>`, noexport/data_parallel_vector_details.hpp:269-275). The container stores one `std::vector`
per field (`parts`, data_parallel_vector.hpp:62). `std::vector` itself is not part of the code: `Col` and its
operations say what the C++ standard says about it. A column also has a capacity and an identity of its
buffer, so that validity of the spans returned by `view` can be stated.

Simplifications: one program counter `tick` counts the operations on columns; it decides which of them throw (`Env.throws`)
and is used as the identity of a new buffer. Allocators are always equal. Ranges given to `insert`, `assign` and the
constructor are lists of values, they do not refer to elements of the same container. `bool_` (the element
type of columns of `bool`) is identified with `bool`.
-/
namespace AnyAny.Dpv

variable {n : Nat}

/-- A value of `T`. `value_type` of the container (data_parallel_vector.hpp:38-60), by its fields.
    -/
abbrev Rec (V : Fin n → Type) := (j : Fin n) → V j

/-- A `std::vector`. `std::vector` is not part of the library; one of the members
    `container_t<Is>` (data_parallel_vector.hpp:62). -/
structure Col (α : Type) where
  data : List α
  cap : Nat
  buf : Nat
deriving DecidableEq, Repr

/-- `parts` (data_parallel_vector.hpp:62). -/
abbrev Parts (V : Fin n → Type) := (j : Fin n) → Col (V j)

/-- What is not determined by the code: growth of vectors, which operations on columns throw and what they leave behind, value
initialisation. No code of the library; used for the members of data_parallel_vector.hpp:360-760.
  -/
structure Env (V : Fin n → Type) where
  /-- new capacity of a vector of that capacity that must hold that many elements -/
  grow : Nat → Nat → Nat
  grow_ok : ∀ c k, k ≤ grow c k
  /-- capacity left by `shrink_to_fit` for that size and capacity -/
  shrink : Nat → Nat → Nat
  shrink_ok : ∀ k c, k ≤ c → k ≤ shrink k c ∧ shrink k c ≤ c
  /-- whether the operation at that tick throws; contents left by operations without the strong guarantee; value left by a
  throwing assignment of a field -/
  throws : Nat → Option (((j : Fin n) → List (V j) → List (V j)) × ((j : Fin n) → V j → V j))
  /-- value-initialised field -/
  fieldDefault : (j : Fin n) → V j
  /-- `T()` -/
  recDefault : Rec V
  /-- a field after its value has been moved out -/
  movedFrom : (j : Fin n) → V j → V j

/-- All containers of the program, and the tick. The members `parts` (data_parallel_vector.hpp:62)
    of all containers. -/
structure World (V : Fin n → Type) where
  vecs : Nat → Option (Parts V)
  tick : Nat

/-- Language rule, no code of the library; the ways a member of data_parallel_vector.hpp:360-760
    can end. -/
inductive Res (V : Fin n → Type) (α : Type) where
  | ok (a : α) (w : World V)
  | exn (w : World V)
  /-- failed assertion or violated precondition of `std::vector` -/
  | ub

/-- Language rule, no code of the library; a statement of a member of
    data_parallel_vector.hpp:360-760. -/
abbrev M (V : Fin n → Type) (α : Type) := World V → Res V α

variable {V : Fin n → Type}

/-- Language rule, no code of the library; the empty statement, for
    data_parallel_vector.hpp:360-760. Language rule, no code of the library; sequencing, for
    data_parallel_vector.hpp:360-760. -/
@[inline] def M.pure {α} (a : α) : M V α := fun w => .ok a w
@[inline] def M.bind {α β} (m : M V α) (f : α → M V β) : M V β := fun w =>
  match m w with
  | .ok a w => f a w
  | .exn w => .exn w
  | .ub => .ub

instance : Monad (M V) where
  pure := M.pure
  bind := M.bind

/-- Language rule, no code of the library; an undefined operation or a failed `assert`
    (data_parallel_vector.hpp:424-452, 554-606). -/
def ub {α} : M V α := fun _ => .ub

/-! ### `std::vector` -/

namespace Col
variable {α : Type}

/-- Makes room for `k` elements: a new buffer if the capacity is smaller. `std::vector` is not
    part of the library; used for data_parallel_vector.hpp:558-669. -/
def room (grow : Nat → Nat → Nat) (k t : Nat) (c : Col α) : Col α :=
  if k ≤ c.cap then c else { c with cap := grow c.cap k, buf := t }

/-- A new vector with these elements; an empty one has no buffer. `std::vector` is not part of the
    library; the constructors called at data_parallel_vector.hpp:363-386. -/
def new (grow : Nat → Nat → Nat) (xs : List α) (t : Nat) : Col α := room grow xs.length t ⟨xs, 0, t⟩

/-- `std::vector` is not part of the library; called at data_parallel_vector.hpp:562. -/
def pushBack (grow : Nat → Nat → Nat) (x : α) (t : Nat) (c : Col α) : Col α :=
  { room grow (c.data.length + 1) t c with data := c.data ++ [x] }

/-- `std::vector` is not part of the library; called at data_parallel_vector.hpp:558, 604. -/
def insert (grow : Nat → Nat → Nat) (i : Nat) (xs : List α) (t : Nat) (c : Col α) : Col α :=
  { room grow (c.data.length + xs.length) t c with data := c.data.take i ++ xs ++ c.data.drop i }

/-- `std::vector` is not part of the library; called at data_parallel_vector.hpp:580. -/
def erase (i : Nat) (c : Col α) : Col α := { c with data := c.data.eraseIdx i }

/-- `std::vector` is not part of the library; called at data_parallel_vector.hpp:657. -/
def clear (c : Col α) : Col α := { c with data := [] }

/-- `std::vector` is not part of the library; called at data_parallel_vector.hpp:660. -/
def popBack (c : Col α) : Col α := { c with data := c.data.dropLast }

/-- `std::vector` is not part of the library; called at data_parallel_vector.hpp:663. -/
def reserve (grow : Nat → Nat → Nat) (k t : Nat) (c : Col α) : Col α := room grow k t c

/-- `std::vector` is not part of the library; called at data_parallel_vector.hpp:666, 669. -/
def resize (grow : Nat → Nat → Nat) (k : Nat) (x : α) (t : Nat) (c : Col α) : Col α :=
  { room grow k t c with data := c.data.take k ++ List.replicate (k - c.data.length) x }

/-- `std::vector` is not part of the library; called at data_parallel_vector.hpp:672. -/
def shrinkToFit (shrink : Nat → Nat → Nat) (t : Nat) (c : Col α) : Col α :=
  if shrink c.data.length c.cap = c.cap then c else { c with cap := shrink c.data.length c.cap, buf := t }

/-- copy assignment `std::vector` is not part of the library; called by the defaulted copy
    assignment (data_parallel_vector.hpp:389-394). -/
def assign (grow : Nat → Nat → Nat) (xs : List α) (t : Nat) (c : Col α) : Col α :=
  { room grow xs.length t c with data := xs }

/-- `std::vector` is not part of the library; an assignment to an element
    (data_parallel_vector.hpp:94-102). -/
def set (i : Nat) (x : α) (c : Col α) : Col α := { c with data := c.data.set i x }

end Col

/-! ### operations on all columns -/

variable (env : Env V)

/-- One column of `parts` (data_parallel_vector.hpp:62) is changed. -/
def setP (p : Parts V) (j : Fin n) (c : Col (V j)) : Parts V :=
  fun k => if h : k = j then h ▸ c else p k

/-- `(f(conts), ...)` with operations that may throw: columns in order, stopping at the first exception. Result: columns, tick, and
whether an exception left the expression. `left j` is the state of column `j` if its operation
  throws. The fold expressions at data_parallel_vector.hpp:94-111, 558-672. -/
def forCols (f : (j : Fin n) → Nat → Col (V j) → Col (V j))
    (left : (((j : Fin n) → List (V j) → List (V j)) × ((j : Fin n) → V j → V j)) → (j : Fin n) → Col (V j) → Col (V j)) :
    List (Fin n) → Parts V → Nat → Parts V × Nat × Bool
  | [], p, t => (p, t, false)
  | j :: js, p, t =>
    match env.throws t with
    | some g => (setP p j (left g j (p j)), t + 1, true)
    | none => forCols f left js (setP p j (f j t (p j))) (t + 1)

/-- State of a column after an operation with the strong guarantee has thrown. `std::vector` is
    not part of the library; used for the operations called at data_parallel_vector.hpp:562, 663,
    666, 669, 672. -/
def leftStrong (_ : ((j : Fin n) → List (V j) → List (V j)) × ((j : Fin n) → V j → V j)) (j : Fin n) (c : Col (V j)) : Col (V j) := c

/-- The same with the basic guarantee: some contents. `std::vector` is not part of the library;
    used for the operations called at data_parallel_vector.hpp:394, 558, 580, 604. -/
def leftBasic (g : ((j : Fin n) → List (V j) → List (V j)) × ((j : Fin n) → V j → V j)) (j : Fin n) (c : Col (V j)) : Col (V j) :=
  { c with data := g.1 j c.data }

/-- A throwing assignment to the element at `i`: some value. Language rule, no code of the
    library; used for the assignments at data_parallel_vector.hpp:94-102. -/
def leftElem (i : Nat) (g : ((j : Fin n) → List (V j) → List (V j)) × ((j : Fin n) → V j → V j)) (j : Fin n) (c : Col (V j)) :
    Col (V j) := { c with data := c.data.modify i (g.2 j) }

/-- No code of the library: update of a function, for the state of data_parallel_vector.hpp:62. -/
def upd {α} (f : Nat → Option α) (k : Nat) (v : Option α) : Nat → Option α := fun x => if x = k then v else f x

/-- Access to the member `parts` (data_parallel_vector.hpp:62) of a container that exists. -/
def get (d : Nat) : M V (Parts V) := fun w =>
  match w.vecs d with
  | some p => .ok p w
  | none => .ub

/-- Assignment to the member `parts` (data_parallel_vector.hpp:62). -/
def put (d : Nat) (p : Parts V) : M V Unit := fun w => .ok () { w with vecs := upd w.vecs d (some p) }

/-- `std::apply([&](auto&... conts) { (f(conts), ...); }, parts)`. (data_parallel_vector.hpp:558,
    562, 663-672.) -/
def apply (d : Nat) (f : (j : Fin n) → Nat → Col (V j) → Col (V j))
    (left : (((j : Fin n) → List (V j) → List (V j)) × ((j : Fin n) → V j → V j)) → (j : Fin n) → Col (V j) → Col (V j)) :
    M V Unit := fun w =>
  match w.vecs d with
  | none => .ub
  | some p =>
    let r := forCols env f left (List.finRange n) p w.tick
    let w' : World V := ⟨upd w.vecs d (some r.1), r.2.1⟩
    if r.2.2 then .exn w' else .ok () w'

/-- The same with operations that do not throw. (data_parallel_vector.hpp:580, 657, 660.) -/
def applyNoexcept (d : Nat) (f : (j : Fin n) → Col (V j) → Col (V j)) : M V Unit := do
  let p ← get d
  put d fun j => f j (p j)

/-! ### members -/

/-- `size()` (data_parallel_vector.hpp:529-532): of the first column. Types without fields do not compile. -/
def sizeP (p : Parts V) : Nat := if h : 0 < n then (p ⟨0, h⟩).data.length else 0

/-- `size()` (data_parallel_vector.hpp:530-532). -/
def size (d : Nat) : M V Nat := do
  let p ← get d
  pure (sizeP p)

/-- `empty()` (525-528). -/
def isEmpty (d : Nat) : M V Bool := do
  let p ← get d
  pure (sizeP p == 0)

/-- `capacity()` (454-457). -/
def capacityP (p : Parts V) : Nat :=
  match (List.finRange n).map fun j => (p j).cap with
  | [] => 0
  | c :: cs => cs.foldl min c

/-- `capacity()` (data_parallel_vector.hpp:455-457). -/
def capacity (d : Nat) : M V Nat := do
  let p ← get d
  pure (capacityP p)

/-- Element of a column: out of range is undefined. `std::get<Is>(owner->parts)[index]...`
    (data_parallel_vector.hpp:71, 86-88). -/
def readRec (p : Parts V) (i : Nat) : Option (Rec V) :=
  if h : ∀ j, i < (p j).data.length then some fun j => (p j).data[i]'(h j) else none

/-- `value_type(v[i])`: `operator[]` (445-450), `proxy` (80-82) and its conversion (83-90). -/
def elem (d i : Nat) : M V (Rec V) := do
  let p ← get d
  if i < sizeP p then
    match readRec p i with
    | some r => pure r
    | none => ub
  else ub

/-- `view<j>()` (462-524): the span, here its contents. `std::get<j>(v)` (743-758) is the same span. Views by type and structured bindings are in
Model/DpvViews.lean. -/
def view (d : Nat) (j : Fin n) : M V (List (V j)) := do
  let p ← get d
  pure (p j).data

/-- The memory the span `view<j>()` (462-524) refers to: identity of the buffer and number of elements. -/
def spanOf (d : Nat) (j : Fin n) : M V (Nat × Nat) := do
  let p ← get d
  pure ((p j).buf, (p j).data.length)

/-- Member by member, `iterator(this, i)` (249-251): the position must not be beyond the end. -/
def iteratorAt (d i : Nat) : M V Unit := do
  let s ← size d
  if i ≤ s then pure () else ub

/-- Constructor from columns (366-383): nothing is left if it throws. -/
def construct (d : Nat) (mk : (j : Fin n) → Nat → Col (V j)) : M V Unit := fun w =>
  let r := forCols env (fun j t _ => mk j t) leftStrong (List.finRange n) (fun _ => ⟨[], 0, 0⟩) w.tick
  if r.2.2 then .exn { w with tick := r.2.1 } else .ok () ⟨upd w.vecs d (some r.1), r.2.1⟩

/-- `data_parallel_impl()`, `data_parallel_impl(alloc)` (360-365). -/
def defaultCtor (d : Nat) : M V Unit := fun w => .ok () { w with vecs := upd w.vecs d (some fun _ => ⟨[], 0, w.tick⟩) }

/-- `data_parallel_impl(count, value)` (366-369). -/
def countValueCtor (d k : Nat) (v : Rec V) : M V Unit :=
  construct env d fun j t => Col.new env.grow (List.replicate k (v j)) t

/-- `data_parallel_impl(count)` (370-372). -/
def countCtor (d k : Nat) : M V Unit :=
  construct env d fun j t => Col.new env.grow (List.replicate k (env.fieldDefault j)) t

/-- Copy constructors (378-380, 392, 700). -/
def copyCtor (d s : Nat) : M V Unit := do
  let p ← get s
  construct env d fun j t => Col.new env.grow (p j).data t

/-- Move constructors (381-383, 393, 701): the columns are taken over. -/
def moveCtor (d s : Nat) : M V Unit := fun w =>
  match w.vecs s with
  | none => .ub
  | some p => .ok () { w with vecs := upd (upd w.vecs s (some fun _ => ⟨[], 0, w.tick⟩)) d (some p) }

/-- Destructor (396). -/
def dtor (d : Nat) : M V Unit := fun w => .ok () { w with vecs := upd w.vecs d none }

/-- Copy assignment (394, 707): of every column. -/
def copyAssign (d s : Nat) : M V Unit := do
  let q ← get s
  apply env d (fun j t c => if d = s then c else Col.assign env.grow (q j).data t c) leftBasic

/-- Move assignment (395, 708). -/
def moveAssign (d s : Nat) : M V Unit := fun w =>
  match w.vecs d, w.vecs s with
  | some _, some p =>
    if d = s then .ok () w
    else .ok () { w with vecs := upd (upd w.vecs s (some fun _ => ⟨[], 0, w.tick⟩)) d (some p) }
  | _, _ => .ub

/-- `conts.begin() + pos.index` for every column: the position must not be beyond its end. (data_parallel_vector.hpp:558, 604.) -/
def positions (d i : Nat) : M V Unit := do
  let p ← get d
  if ∀ j, i ≤ (p j).data.length then pure () else ub

/-- `(conts.insert(conts.begin() + pos.index, …), ...)` (data_parallel_vector.hpp:558, 604): the values `xs j` into column `j`. -/
def insertCols (d i : Nat) (xs : (j : Fin n) → List (V j)) : M V Unit := do
  positions d i
  apply env d (fun j t c => Col.insert env.grow i (xs j) t c) leftBasic

/-- `emplace(pos, fields...)` (557-560); result: index of the returned iterator. -/
def emplace (d i : Nat) (v : Rec V) : M V Nat := do
  iteratorAt d i
  insertCols env d i fun j => [v j]
  iteratorAt d i
  pure i

/-- `emplace_back(fields...)` (561-564), without the returned reference. -/
def emplaceBack (d : Nat) (v : Rec V) : M V Unit :=
  apply env d (fun j t c => Col.pushBack env.grow (v j) t c) leftStrong

/-- `push_back` (568-574). -/
def pushBack (d : Nat) (v : Rec V) : M V Unit := emplaceBack env d v

/-- `erase(pos)` (578-582); result from `iter_from_last_iter` (545-548). `erase(first, last)` (583-588) uses a
member that does not exist and does not compile. -/
def erase (d i : Nat) : M V Nat := do
  let p ← get d
  if ∀ j, i < (p j).data.length then do
    apply env d (fun _ _ c => Col.erase i c) leftBasic
    iteratorAt d i
    pure i
  else ub

/-- `insert(pos, value)` (592-599). -/
def insertVal (d i : Nat) (v : Rec V) : M V Nat := emplace env d i v

/-- `insert(pos, count, value)` (601-608). -/
def insertCount (d i k : Nat) (v : Rec V) : M V Nat := do
  iteratorAt d i
  insertCols env d i fun j => List.replicate k (v j)
  iteratorAt d i
  pure i

/-- `reserve` (662-664). -/
def reserve (d k : Nat) : M V Unit := apply env d (fun _ t c => Col.reserve env.grow k t c) leftStrong

/-- `for (; first != last; ++first) emplace_back(...)` (615-616). -/
def emplaceBackAll (d : Nat) : List (Rec V) → M V Unit
  | [] => pure ()
  | v :: vs => do
    emplaceBack env d v
    emplaceBackAll d vs

/-- `for (; first != last; ++first) pos = emplace(++pos, ...)` (627-631). -/
def emplaceAll (d : Nat) : Nat → List (Rec V) → M V Unit
  | _, [] => pure ()
  | i, v :: vs => do
    let i' ← emplace env d (i + 1) v
    emplaceAll d i' vs

/-- `if constexpr (std::random_access_iterator<It>) reserve(...)` (619-622). -/
def reserveFor (d k : Nat) (ra : Bool) : M V Unit := if ra then reserve env d k else pure ()

/-- The first element and the others (623-631). -/
def insertMiddle (d i : Nat) : List (Rec V) → M V Unit
  | [] => pure ()
  | v :: vs => do
    let i' ← emplace env d i v
    emplaceAll env d i' vs

/-- `insert(pos, first, last)` (610-637); `ra`: the iterators are random access iterators. -/
def insertRange (d i : Nat) (vs : List (Rec V)) (ra : Bool) : M V Nat := do
  iteratorAt d i
  let s ← size d
  if i = s then do
    emplaceBackAll env d vs
    iteratorAt d i
    pure i
  else do
    reserveFor env d (s + vs.length) ra
    insertMiddle env d i vs
    iteratorAt d i
    pure i

/-- `data_parallel_impl(first, last)` and `data_parallel_impl(initializer_list)` (373-377, 384-388): if the insertion throws, the object
is destroyed. -/
def rangeCtor (d : Nat) (vs : List (Rec V)) (ra : Bool) : M V Unit := fun w =>
  match (do defaultCtor d; insertRange env d 0 vs ra : M V Nat) w with
  | .ok _ w' => .ok () w'
  | .exn w' => .exn ⟨w.vecs, w'.tick⟩
  | .ub => .ub

/-- A temporary made by `mk` and move-assigned to `*this`. `tmp` is a name for the temporary.
    (data_parallel_vector.hpp:641-654.) -/
def assignFrom (d tmp : Nat) (mk : M V Unit) : M V Unit := do
  mk
  moveAssign d tmp
  dtor tmp

/-- `assign(count, value)` (641-643). -/
def assignCount (d tmp k : Nat) (v : Rec V) : M V Unit := assignFrom d tmp (countValueCtor env tmp k v)

/-- `assign(first, last)`, `assign(initializer_list)`, `operator=(initializer_list)` (398-401, 645-652). -/
def assignRange (d tmp : Nat) (vs : List (Rec V)) (ra : Bool) : M V Unit := assignFrom d tmp (rangeCtor env tmp vs ra)

/-- `clear()` (656-658). -/
def clear (d : Nat) : M V Unit := applyNoexcept d fun _ c => c.clear

/-- `pop_back()` (659-661). -/
def popBack (d : Nat) : M V Unit := do
  let p ← get d
  if ∀ j, (p j).data ≠ [] then applyNoexcept d fun _ c => c.popBack else ub

/-- `resize(sz)` (665-667). -/
def resize (d k : Nat) : M V Unit :=
  apply env d (fun j t c => Col.resize env.grow k (env.fieldDefault j) t c) leftStrong

/-- `resize(sz, v)` (668-670). -/
def resizeVal (d k : Nat) (v : Rec V) : M V Unit :=
  apply env d (fun j t c => Col.resize env.grow k (v j) t c) leftStrong

/-- `shrink_to_fit()` (671-673). -/
def shrinkToFit (d : Nat) : M V Unit := apply env d (fun _ t c => Col.shrinkToFit env.shrink t c) leftStrong

/-- `swap` (710-715). -/
def swap (d e : Nat) : M V Unit := fun w =>
  match w.vecs d, w.vecs e with
  | some p, some q => .ok () { w with vecs := upd (upd w.vecs d (some q)) e (some p) }
  | _, _ => .ub

/-! ### element references (`proxy`, data_parallel_vector.hpp:66-165) -/

/-- A reference `v[i]`: the assertion of the constructor (80-82), and all columns have the element. -/
def proxyAt (d i : Nat) : M V (Parts V) := do
  let p ← get d
  if i < sizeP p ∧ ∀ j, i < (p j).data.length then pure p else ub

/-- `v[i] = value` (92-100). -/
def assignElem (d i : Nat) (v : Rec V) : M V Unit := do
  let _ ← proxyAt d i
  apply env d (fun j _ c => Col.set i (v j) c) (leftElem i)

/-- `v[i] = u[k]` (101-107): field by field. -/
def assignRef (d i e k : Nat) : M V Unit := do
  let _ ← proxyAt d i
  let q ← proxyAt e k
  apply env d (fun j _ c => match (q j).data[k]? with | some x => Col.set i x c | none => c) (leftElem i)

/-- `swap(v[i], u[k])` (109-115) and `iter_swap` (272-282), for one field. -/
def swapField (d i e k : Nat) (j : Fin n) : M V Unit := do
  let p ← get d
  let q ← get e
  match (p j).data[i]?, (q j).data[k]? with
  | some x, some y => do
    put d (setP p j (Col.set i y (p j)))
    let q' ← get e
    put e (setP q' j (Col.set k x (q' j)))
  | _, _ => ub

/-- The fold expressions at data_parallel_vector.hpp:111, 275. -/
def swapFields (d i e k : Nat) : List (Fin n) → M V Unit
  | [] => pure ()
  | j :: js => do
    swapField d i e k j
    swapFields d i e k js

/-- `swap(v[i], u[k])`. Swapping of fields does not throw. (data_parallel_vector.hpp:106-112.) -/
def swapRef (d i e k : Nat) : M V Unit := do
  let _ ← proxyAt d i
  let _ ← proxyAt e k
  swapFields d i e k (List.finRange n)

/-- `iter_move(it)` (257-271): the value is moved out. -/
def iterMove (d i : Nat) : M V (Rec V) := do
  let p ← proxyAt d i
  match readRec p i with
  | none => ub
  | some r => do
    applyNoexcept d fun j c => { c with data := c.data.modify i (env.movedFrom j) }
    pure r

/-- A write `x` to field `j` of element `i`, through `get<j>(v[i])`, `v[i].tie()` (69-76), a structured binding of `v[i]` (762-769) or the
span `view<j>()[i]`. A `const_reference` (175-228) offers no writes: its `tie()` and `get` give `const` references, its assignments are deleted
(201-204). -/
def setField (d i : Nat) (j : Fin n) (x : V j) : M V Unit := do
  let p ← get d
  if i < (p j).data.length then put d (setP p j (Col.set i x (p j))) else ub

/-! ### comparison -/

/-- `std::partial_ordering`, the result of `<=>` at data_parallel_vector.hpp:116-146. -/
inductive Cmp where
  | less
  | equal
  | greater
  | unordered
deriving DecidableEq, Repr

/-- One step of the fold in `compare_by_fields` (117-146): `unequal_finded`, `cmp_res`. -/
def cmpStep (cmp : (j : Fin n) → V j → V j → Cmp) (a b : Rec V) (s : Bool × Cmp) (j : Fin n) : Bool × Cmp :=
  if s.1 then s
  else
    let r := cmp j (a j) (b j)
    (r != .equal, r)

/-- `compare_by_fields` (117-146), `operator<=>` (159-164). -/
def compareByFields (cmp : (j : Fin n) → V j → V j → Cmp) (a b : Rec V) : Cmp :=
  ((List.finRange n).foldl (cmpStep cmp a b) (false, .equal)).2

/-- `operator==` of references (150-158). -/
def eqByFields (cmp : (j : Fin n) → V j → V j → Cmp) (a b : Rec V) : Bool := compareByFields cmp a b == .equal

/-- `std::ranges::equal` from position `i` on, `k` more positions. The algorithm is not part of
    the library; it is called by the comparison of containers (data_parallel_vector.hpp:719-728).
    -/
def equalFrom (cmp : (j : Fin n) → V j → V j → Cmp) (d e : Nat) (i : Nat) : Nat → M V Bool
  | 0 => pure true
  | k + 1 => do
    let a ← elem d i
    let b ← elem e i
    if eqByFields cmp a b then equalFrom cmp d e (i + 1) k else pure false

/-- `operator==` of containers (537-541, 717-719): sizes first (sized ranges), then elements. -/
def equal (cmp : (j : Fin n) → V j → V j → Cmp) (d e : Nat) : M V Bool := do
  let s ← size d
  let t ← size e
  if s = t then equalFrom cmp d e 0 s else pure false

/-- Iteration from `begin()` to `end()`, reading every element. (data_parallel_vector.hpp:408-419,
    289-300.) -/
def readFrom (d : Nat) (i : Nat) : Nat → M V (List (Rec V))
  | 0 => pure []
  | k + 1 => do
    let a ← elem d i
    let as ← readFrom d (i + 1) k
    pure (a :: as)

/-- All elements, read from `begin()` to `end()` (data_parallel_vector.hpp:408-419, 289-300). -/
def toList (d : Nat) : M V (List (Rec V)) := do
  let s ← size d
  readFrom d 0 s

end AnyAny.Dpv
