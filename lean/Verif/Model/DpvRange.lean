/-
Model of how elements get into `aa::data_parallel_vector<T>`: what is read, copied and moved
(include/anyany/data_parallel_vector.hpp:366-388, 557-632, 639-652; noexport/data_parallel_vector_details.hpp:43-51, 225-229, 269-275).

The record type `T` has `n` fields, field `j` of type `V j`. The elements to be added are objects of the program, numbered from 0 (for a range: in
its order). Contents of the container are one list per field. Exceptions, capacities and relocation inside `std::vector` are not in this
model (they are in Model/Dpv.lean).
-/
namespace AnyAny.DpvRange

variable {n : Nat}

/-- What `*first` (or the name of the argument) is: an lvalue (`const T&`), an xvalue (`std::move_iterator`, `T&&`), or a new object each
time (views that compute their elements). `*first` at data_parallel_vector.hpp:616; `fields` and
  `value` at 555-606. -/
inductive Mode where
  | lvalue
  | xvalue
  | prvalue
deriving DecidableEq

/-- The container, the objects outside, and for each field how often it was copied and moved, for each object how often its iterator was
dereferenced. The member `parts` (data_parallel_vector.hpp:62), the range given to 612-640, and
  counters that have no counterpart in the code. -/
structure St (V : Fin n → Type) where
  cols : (j : Fin n) → List (V j)
  src : Nat → (j : Fin n) → V j
  copies : Fin n → Nat
  moves : Fin n → Nat
  derefs : Nat → Nat

variable {V : Fin n → Type}

/-- No code of the library: one field of an element of the range of
    data_parallel_vector.hpp:612-640 is changed. -/
def setRec (r : (j : Fin n) → V j) (j : Fin n) (x : V j) : (j : Fin n) → V j := fun k => if h : k = j then h ▸ x else r k

/-- No code of the library: a counter is increased, for data_parallel_vector.hpp:612-640. -/
def incr {α} [DecidableEq α] (f : α → Nat) (a : α) : α → Nat := fun b => if b = a then f b + 1 else f b

variable (moved : (j : Fin n) → V j → V j) (m : Mode)

/-- The field `j` of the object `k` is initialised from: `Traits::get<j>(x)` (data_parallel_vector_details.hpp:269-275) with
`forward_save_prvalues` (43-51) and `magic_get` (225-229) is an lvalue if `x` is one, else an xvalue. -/
def takeField (k : Nat) (j : Fin n) (s : St V) : V j × St V :=
  match m with
  | .lvalue => (s.src k j, { s with copies := incr s.copies j })
  | .xvalue => (s.src k j, { s with moves := incr s.moves j, src := fun i => if i = k then setRec (s.src k) j (moved j (s.src k j)) else s.src i })
  | .prvalue => (s.src k j, { s with moves := incr s.moves j })

/-- `value_type(*first)`, `value_type v = *first` (625, 630): a new object of type `T`. -/
def takeRec (k : Nat) (s : St V) : ((j : Fin n) → V j) × St V :=
  match m with
  | .lvalue => (s.src k, { s with copies := fun j => s.copies j + 1 })
  | .xvalue => (s.src k, { s with moves := fun j => s.moves j + 1, src := fun i => if i = k then fun j => moved j (s.src k j) else s.src i })
  | .prvalue => (s.src k, s)

/-- `*first` (data_parallel_vector.hpp:616). -/
def deref (k : Nat) (s : St V) : St V := { s with derefs := incr s.derefs k }

/-- `Traits::get<Is>(*first)...` (616), the fields in the order `js`: arguments are evaluated in any order. -/
def fieldArgs (k : Nat) : List (Fin n) → ((j : Fin n) → V j) → St V → ((j : Fin n) → V j) × St V
  | [], r, s => (r, s)
  | j :: js, r, s =>
    let q := takeField moved m k j (deref k s)
    fieldArgs k js (setRec r j q.1) q.2

/-- `Traits::get<Is>(value_type(*first))...` (625): a new object for each field, which is moved from it. -/
def recArgs (k : Nat) : List (Fin n) → ((j : Fin n) → V j) → St V → ((j : Fin n) → V j) × St V
  | [], r, s => (r, s)
  | j :: js, r, s =>
    let q := takeRec moved m k (deref k s)
    recArgs k js (setRec r j (q.1 j)) { q.2 with moves := incr q.2.moves j }

/-- `emplace(pos, fields...)`, `emplace_back(fields...)` (557-564): the parameters are objects, and are copied into the columns. -/
def emplace (i : Nat) (r : (j : Fin n) → V j) (s : St V) : St V :=
  { s with cols := fun j => (s.cols j).take i ++ r j :: (s.cols j).drop i, copies := fun j => s.copies j + 1 }

/-- `size()` (529-532). -/
def size (s : St V) : Nat := if h : 0 < n then (s.cols ⟨0, h⟩).length else 0

/-- An argument by name (`const T&` or `T&&`) is not an iterator, but it is read in the same way: `push_back(v)` (568-574); `insert(pos, v)`
(592-599). `js`: the order of evaluation. -/
def insertOne (js : List (Fin n)) (i : Nat) (s : St V) : St V :=
  let q := fieldArgs moved m 0 js (s.src 0) s
  emplace i q.1 { q.2 with derefs := s.derefs }

/-- `for (; first != last; ++first) emplace_back(...)` (615-616), `c` objects from `k`. `ord k`: order of evaluation. -/
def pushAll (ord : Nat → List (Fin n)) : (c k : Nat) → St V → St V
  | 0, _, s => s
  | c + 1, k, s =>
    let q := fieldArgs moved m k (ord k) (s.src k) s
    pushAll ord c (k + 1) (emplace (size q.2) q.1 q.2)

/-- `for (; first != last; ++first) { value_type v = *first; pos = emplace(++pos, get<Is>(std::move(v))...); }` (628-632), `c` objects from `k`; `i`
is the position of the last one inserted. -/
def insertRest : (c k i : Nat) → St V → St V
  | 0, _, _, s => s
  | c + 1, k, i, s =>
    let q := takeRec moved m k (deref k s)
    insertRest c (k + 1) (i + 1) (emplace (i + 1) q.1 { q.2 with moves := fun j => q.2.moves j + 1 })

/-- `insert(pos, first, last)` (610-634) with a range of `c` objects. -/
def insertRange (ord : Nat → List (Fin n)) (i c : Nat) (s : St V) : St V :=
  if i = size s then pushAll moved m ord c 0 s
  else
    match c with
    | 0 => s
    | c + 1 =>
      let q := recArgs moved m 0 (ord 0) (s.src 0) s
      insertRest moved m c 1 i (emplace i q.1 q.2)

/-- `data_parallel_vector(first, last)` (373-377), and the temporary of `assign(first, last)` (644-647). -/
def rangeCtor (ord : Nat → List (Fin n)) (c : Nat) (s : St V) : St V := insertRange moved m ord 0 c { s with cols := fun _ => [] }

end AnyAny.DpvRange
