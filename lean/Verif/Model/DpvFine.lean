import Verif.Spec.DpvHist
/-
Accesses of operations on elements of a `data_parallel_vector` to single objects in memory, in their order
(include/anyany/data_parallel_vector.hpp), for several threads.

Simplifications: a field is read or written in one access, whatever its type is; forming a reference to a field is counted as reading it just if it is read afterwards.
An operation on whole containers (`push_back`, copying, ...) is one access to all that belongs to its containers. Assertions are checked.
-/
namespace AnyAny.DpvFine

open AnyAny.Dpv

variable {n : Nat} {V : Fin n → Type}

/-- The element type of the `std::vector` of a field: that of the field, or `noexport::bool_`
(noexport/data_parallel_vector_details.hpp:279-323). -/
inductive Stored where
  | own | wrapper
  deriving DecidableEq, Repr

/-- `container_for` (data_parallel_vector.hpp:47-57), for a field that is a `bool` or not. -/
def containerFor (isBool : Bool) : Stored := if isBool then .wrapper else .own

/-- `std::vector<bool>` keeps several elements in one word; elements of other vectors are objects of their own. `std::vector` is not part of the
library; the columns of data_parallel_vector.hpp:62. -/
def Stored.packed (isBool : Bool) : Stored → Bool
  | .own => isBool
  | .wrapper => false

/-- Objects in memory: the members of a column (pointers of a `std::vector`), an element of a column, a word of a packed column; the member `parts`
(data_parallel_vector.hpp:62). -/
inductive Loc (n : Nat) where
  | hdr (d : Nat) (j : Fin n)
  | cell (d : Nat) (j : Fin n) (i : Nat)
  | word (d : Nat) (j : Fin n) (k : Nat)
  deriving DecidableEq

/-- The object that has field `j` of element `i`: `std::get<Is>(owner->parts)[index]` (data_parallel_vector.hpp:71). -/
def fieldLoc (isBool : Fin n → Bool) (d : Nat) (j : Fin n) (i : Nat) : Loc n :=
  if (containerFor (isBool j)).packed (isBool j) then .word d j (i / 64) else .cell d j i

/-- Code of a thread, by its accesses to memory. Language rule, no code of the library; the bodies of members of data_parallel_vector.hpp:66-760.
  -/
inductive Code (V : Fin n → Type) (α : Type) where
  | ret (a : α)
  /-- reads the members of a column: the number of elements -/
  | col (d : Nat) (j : Fin n) (k : Nat → Code V α)
  /-- reads an element of a column -/
  | read (d : Nat) (j : Fin n) (i : Nat) (k : V j → Code V α)
  /-- writes an element of a column -/
  | write (d : Nat) (j : Fin n) (i : Nat) (x : V j) (k : Code V α)
  /-- an assignment to field `j`, user code: does it throw, and what does it leave then? -/
  | call (j : Fin n) (k : Option (V j → V j) → Code V α)
  /-- an operation on whole containers; `none`: it throws -/
  | whole (op : Op V) (k : Option (Out V) → Code V α)
  | ub

/-- Language rule, no code of the library; sequencing, for data_parallel_vector.hpp:66-760. -/
def Code.bind {α β : Type} : Code V α → (α → Code V β) → Code V β
  | .ret a, f => f a
  | .col d j k, f => .col d j fun s => (k s).bind f
  | .read d j i k, f => .read d j i fun x => (k x).bind f
  | .write d j i x k, f => .write d j i x (k.bind f)
  | .call j k, f => .call j fun g => (k g).bind f
  | .whole op k, f => .whole op fun r => (k r).bind f
  | .ub, _ => .ub

/-- The containers of the program, their members `parts` (data_parallel_vector.hpp:62). -/
abbrev Vecs (V : Fin n → Type) := Nat → Option (Parts V)

/-- What code outside of the library decides in one step: which user code throws, how vectors grow, which buffers they get. No code of the library; used for
data_parallel_vector.hpp:66-760. -/
structure Choice (V : Fin n → Type) where
  env : Env V
  tick : Nat

/-- One step. Language rule, no code of the library; elements of the columns of data_parallel_vector.hpp:62. -/
def step {α : Type} (ch : Choice V) (v : Vecs V) : Code V α → Option (Vecs V × Code V α)
  | .ret _ => none
  | .ub => none
  | .col d j k => match v d with
    | some p => some (v, k (p j).data.length)
    | none => some (v, .ub)
  | .read d j i k => match (v d).bind fun p => (p j).data[i]? with
    | some x => some (v, k x)
    | none => some (v, .ub)
  | .write d j i x k => match v d with
    | some p => if i < (p j).data.length then some (upd v d (some (setP p j (Col.set i x (p j)))), k) else some (v, .ub)
    | none => some (v, .ub)
  | .call j k => some (v, k ((ch.env.throws ch.tick).map fun g => g.2 j))
  | .whole op k => match exec ch.env op ⟨v, ch.tick⟩ with
    | .ok a w => some (w.vecs, k (some a))
    | .exn w => some (w.vecs, k none)
    | .ub => some (v, .ub)

/-- Containers that an operation on whole containers changes, and those that it only reads. The members at data_parallel_vector.hpp:360-720. -/
def wholeWrites : Op V → List Nat
  | .defaultCtor d | .countValueCtor d _ _ | .countCtor d _ | .rangeCtor d _ _ | .copyCtor d _ | .dtor d | .copyAssign d _
  | .emplace d _ _ | .emplaceBack d _ | .pushBack d _ | .erase d _ | .insertVal d _ _ | .insertCount d _ _ _ | .insertRange d _ _ _
  | .clear d | .popBack d | .reserve d _ | .resize d _ | .resizeVal d _ _ | .shrinkToFit d | .assignElem d _ _ | .assignRef d _ _ _
  | .iterMove d _ | .setField d _ _ _ => [d]
  | .moveCtor d s | .moveAssign d s | .swap d s | .swapRef d _ s _ => [d, s]
  | .assignCount d tmp _ _ | .assignRange d tmp _ _ => [d, tmp]

/-- See `wholeWrites` (data_parallel_vector.hpp:360-720). -/
def wholeReads : Op V → List Nat
  | .copyCtor _ s | .copyAssign _ s | .assignRef _ _ s _ => [s]
  | _ => []

/-- The objects that the next step of the code reads: an element is found through the members of its column. The accesses of
data_parallel_vector.hpp:66-760. -/
def Code.Reads {α : Type} (isBool : Fin n → Bool) : Code V α → Loc n → Prop
  | .ret _, _ | .ub, _ | .call _ _, _ => False
  | .col d j _, l => l = .hdr d j
  | .read d j i _, l => l = .hdr d j ∨ l = fieldLoc isBool d j i
  | .write d j _ _ _, l => l = .hdr d j
  | .whole op _, l => ∃ d ∈ wholeReads op ++ wholeWrites op, ∃ j, l = .hdr d j ∨ ∃ i, l = fieldLoc isBool d j i

/-- The objects that it writes. The accesses of data_parallel_vector.hpp:66-760. -/
def Code.Writes {α : Type} (isBool : Fin n → Bool) : Code V α → Loc n → Prop
  | .ret _, _ | .ub, _ | .call _ _, _ | .col _ _ _, _ | .read _ _ _ _, _ => False
  | .write d j i _ _, l => l = fieldLoc isBool d j i
  | .whole op _, l => ∃ d ∈ wholeWrites op, ∃ j, l = .hdr d j ∨ ∃ i, l = fieldLoc isBool d j i

/-! ### operations on elements -/

/-- `size()` (data_parallel_vector.hpp:530-532): of the first column. -/
def sizeC {α : Type} (d : Nat) (k : Nat → Code V α) : Code V α := if h : 0 < n then .col d ⟨0, h⟩ k else .ub

/-- `v[i]` (data_parallel_vector.hpp:445-450): `begin()` (408-413) makes an iterator, which checks its position (249-251), and `operator*` (289-291)
a reference, which checks it too (80-82). -/
def refAt {α : Type} (d i : Nat) (k : Code V α) : Code V α :=
  sizeC d fun _ => sizeC d fun s => if i < s then k else .ub

/-- What operations on elements give. -/
inductive EOut (V : Fin n → Type) where
  | unit
  | num (k : Nat)
  | fld (j : Fin n) (x : V j)
  | val (r : Rec V)
  | order (c : Cmp)
  | bool (b : Bool)
  | other (o : Out V)

/-- A value from its fields. `value_type(...)` (data_parallel_vector.hpp:83-90). -/
def collect (f : (j : Fin n) → Option (V j)) : Option (Rec V) :=
  if h : ∀ j, (f j).isSome then some fun j => (f j).get (h j) else none

/-- No code of the library: update of a function, for the fields of the value at data_parallel_vector.hpp:83-90. -/
def putField (f : (j : Fin n) → Option (V j)) (j : Fin n) (x : V j) : (j : Fin n) → Option (V j) :=
  fun k => if h : k = j then some (h ▸ x) else f k

/-- `proxy::operator value_type` (data_parallel_vector.hpp:83-90): the fields are read one after the other. -/
def readFields (d i : Nat) : List (Fin n) → ((j : Fin n) → Option (V j)) → Code V (Option (EOut V))
  | [], f => match collect f with
    | some r => .ret (some (.val r))
    | none => .ub
  | j :: js, f => .read d j i fun x => readFields d i js (putField f j x)

/-- An assignment to a field. The assignments at data_parallel_vector.hpp:94-102. -/
def assignField (d i : Nat) (j : Fin n) (x : V j) (k : Code V (Option (EOut V))) : Code V (Option (EOut V)) :=
  .call j fun g => match g with
    | none => .write d j i x k
    | some g => .read d j i fun y => .write d j i (g y) (.ret none)

/-- `proxy::operator=(value)` (data_parallel_vector.hpp:92-100). -/
def assignFields (d i : Nat) (v : Rec V) : List (Fin n) → Code V (Option (EOut V))
  | [] => .ret (some .unit)
  | j :: js => assignField d i j (v j) (assignFields d i v js)

/-- `proxy::operator=(proxy)` (data_parallel_vector.hpp:101-107). -/
def assignFieldsFrom (d i e k : Nat) : List (Fin n) → Code V (Option (EOut V))
  | [] => .ret (some .unit)
  | j :: js => .read e j k fun x => assignField d i j x (assignFieldsFrom d i e k js)

/-- `proxy::swap` (data_parallel_vector.hpp:109-112), `do_iter_swap` (272-276). Swapping of fields does not throw. -/
def swapFieldsC (d i e k : Nat) : List (Fin n) → Code V (Option (EOut V))
  | [] => .ret (some .unit)
  | j :: js => .read d j i fun x => .read e j k fun y => .write d j i y (.write e j k x (swapFieldsC d i e k js))

/-- `do_iter_move` (data_parallel_vector.hpp:258-265). -/
def moveFields (moved : (j : Fin n) → V j → V j) (d i : Nat) : List (Fin n) → ((j : Fin n) → Option (V j)) → Code V (Option (EOut V))
  | [], f => match collect f with
    | some r => .ret (some (.val r))
    | none => .ub
  | j :: js, f => .read d j i fun x => .write d j i (moved j x) (moveFields moved d i js (putField f j x))

/-- `compare_by_fields` (data_parallel_vector.hpp:117-146) of two elements: stops at the first difference. -/
def compareFields (cmp : (j : Fin n) → V j → V j → Cmp) (d i e k : Nat) (next : Cmp → Code V (Option (EOut V))) :
    List (Fin n) → Cmp → Code V (Option (EOut V))
  | [], c => next c
  | j :: js, _ => .read d j i fun x => .read e j k fun y =>
    if cmp j x y = .equal then compareFields cmp d i e k next js .equal else next (cmp j x y)

/-- `std::ranges::equal` (not part of the library) from position `i` on, `m` more positions; called at data_parallel_vector.hpp:537-541. -/
def equalFromC (cmp : (j : Fin n) → V j → V j → Cmp) (d e : Nat) (i : Nat) : Nat → Code V (Option (EOut V))
  | 0 => .ret (some (.bool true))
  | m + 1 => refAt d i (refAt e i (compareFields cmp d i e i
      (fun c => if c = .equal then equalFromC cmp d e (i + 1) m else .ret (some (.bool false))) (List.finRange n) .equal))

/-- Operations of a thread: on elements, or on whole containers. `v[i]` also stands for `*it`, and spans for what `std::get` and structured bindings of a container
give (data_parallel_vector.hpp:408-541, 743-769). -/
inductive TOp (V : Fin n → Type) where
  /-- `v.size()` -/
  | size (d : Nat)
  /-- `get<j>(v[i])`, read -/
  | getField (d i : Nat) (j : Fin n)
  /-- `get<j>(v[i]) = x`, and the assignment does not throw -/
  | setField (d i : Nat) (j : Fin n) (x : V j)
  /-- `v.view<j>()[i]`, read -/
  | spanGet (d i : Nat) (j : Fin n)
  /-- `v.view<j>()[i] = x`, and the assignment does not throw -/
  | spanSet (d i : Nat) (j : Fin n) (x : V j)
  /-- `T(v[i])` -/
  | getElem (d i : Nat)
  /-- `v[i] = x` -/
  | assignElem (d i : Nat) (x : Rec V)
  /-- `v[i] = u[k]` -/
  | assignRef (d i e k : Nat)
  /-- `swap(v[i], u[k])` -/
  | swapRef (d i e k : Nat)
  /-- `iter_move(v.begin() + i)` -/
  | iterMove (d i : Nat)
  /-- `v[i] <=> u[k]` -/
  | compare (d i e k : Nat)
  /-- `v == u` -/
  | equal (d e : Nat)
  | whole (op : Op V)

/-- The rest of what is not determined by the library: comparison of fields, fields after a move. No code of the library; used for
data_parallel_vector.hpp:116-146, 258-265. -/
structure Fields (V : Fin n → Type) where
  cmp : (j : Fin n) → V j → V j → Cmp
  moved : (j : Fin n) → V j → V j

/-- The code of an operation (data_parallel_vector.hpp:66-760); `none`: an exception. -/
def TOp.code (F : Fields V) : TOp V → Code V (Option (EOut V))
  | .size d => sizeC d fun s => .ret (some (.num s))
  | .getField d i j => refAt d i (.read d j i fun x => .ret (some (.fld j x)))
  | .setField d i j x => refAt d i (.write d j i x (.ret (some .unit)))
  | .spanGet d i j => .col d j fun s => if i < s then .read d j i fun x => .ret (some (.fld j x)) else .ub
  | .spanSet d i j x => .col d j fun s => if i < s then .write d j i x (.ret (some .unit)) else .ub
  | .getElem d i => refAt d i (readFields d i (List.finRange n) fun _ => none)
  | .assignElem d i x => refAt d i (assignFields d i x (List.finRange n))
  | .assignRef d i e k => refAt d i (refAt e k (assignFieldsFrom d i e k (List.finRange n)))
  | .swapRef d i e k => refAt d i (refAt e k (swapFieldsC d i e k (List.finRange n)))
  | .iterMove d i => refAt d i (moveFields F.moved d i (List.finRange n) fun _ => none)
  | .compare d i e k => refAt d i (refAt e k (compareFields F.cmp d i e k (fun c => .ret (some (.order c))) (List.finRange n) .equal))
  | .equal d e => sizeC d fun s => sizeC e fun t => if s = t then equalFromC F.cmp d e 0 s else .ret (some (.bool false))
  | .whole op => .whole op fun r => .ret (r.map .other)

end AnyAny.DpvFine
