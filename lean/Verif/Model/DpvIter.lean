/-
Model of the iterators of `aa::data_parallel_vector` (include/anyany/data_parallel_vector.hpp:232-352) with machine integers:
`index_t` is an unsigned, `difference_type` a signed integer of `b` bits; both are bit vectors, a signed operand of an
arithmetic operation with an unsigned one is converted to unsigned (same bits). The number of bits is a parameter.

`none` is a failed assertion. `sz` gives the size of a container.
-/
namespace AnyAny.DpvIter

variable {b : Nat}

/-- `iterator_` (232-352): `owner` and `index` (239-240). -/
structure It (b : Nat) where
  owner : Option Nat
  index : BitVec b
deriving DecidableEq, Repr

variable (sz : Nat → BitVec b)

/-- `iterator_(owner, i)` (249-251). -/
def make (d : Nat) (i : BitVec b) : Option (It b) := if i ≤ sz d then some ⟨some d, i⟩ else none

/-- `iterator_()` (248): `index` (240) has no initialiser, so that an iterator that is only default-initialised has any value there. -/
def defaultInit (garbage : BitVec b) : It b := ⟨none, garbage⟩
/-- Value-initialisation sets the members to zero first, as the constructor is not user-provided.
    The defaulted default constructor of the iterators (data_parallel_vector.hpp:184-253). -/
def valueInit : It b := defaultInit 0

/-- `begin()` (408-413) and `end()` (414-419). -/
def begin_ (d : Nat) : Option (It b) := make sz d 0
/-- `end()` (data_parallel_vector.hpp:414-419). -/
def end_ (d : Nat) : Option (It b) := make sz d (sz d)

/-- `operator*` (289-291): the reference (80-82), container and position. -/
def deref (it : It b) : Option (Nat × Nat) :=
  match it.owner with
  | none => none
  | some d => if it.index < sz d then some (d, it.index.toNat) else none

/-- `operator++` (292-296). -/
def inc (it : It b) : Option (It b) :=
  match it.owner with
  | none => none
  | some d => if it.index ≠ sz d then some { it with index := it.index + 1 } else none

/-- `operator--` (302-306). -/
def dec (it : It b) : Option (It b) := if it.index ≠ 0 then some { it with index := it.index - 1 } else none

/-- `operator+=` (312-316), `operator+` (317-324). -/
def add (it : It b) (dif : BitVec b) : Option (It b) :=
  match it.owner with
  | none => none
  | some _ => some { it with index := it.index + dif }

/-- `operator-=` (325-329), `operator-` (330-334): `dif <= index` compares unsigned values. -/
def sub (it : It b) (dif : BitVec b) : Option (It b) :=
  if dif ≤ it.index then some { it with index := it.index - dif } else none

/-- `operator-(other)` (335-337): the unsigned difference converted to the signed type. -/
def diff (it other : It b) : BitVec b := it.index - other.index

/-- `operator[]` (338-340). -/
def at_ (it : It b) (dif : BitVec b) : Option (Nat × Nat) := do
  let it' ← add it dif
  deref sz it'

/-- `operator==(default_sentinel)` (341-343). -/
def atEnd (it : It b) : Bool :=
  match it.owner with
  | none => true
  | some d => sz d == it.index

/-- `operator==` (344-347). -/
def eq (it other : It b) : Option Bool := if it.owner = other.owner then some (it.index == other.index) else none

/-- `operator<=>` (348-351): the order of unsigned values. -/
def cmp (it other : It b) : Option Ordering := if it.owner = other.owner then some (compare it.index.toNat other.index.toNat) else none

/-- `v[pos]` (445-450): `*(begin() += pos)`. -/
def subscript (d : Nat) (pos : BitVec b) : Option (Nat × Nat) := do
  let it ← begin_ sz d
  at_ sz it pos

/-- `front()` (429-436) and `back()` (437-440): `*begin()`, `*--end()`, of a container that is not empty. -/
def front (d : Nat) : Option (Nat × Nat) := if sz d ≠ 0 then do deref sz (← begin_ sz d) else none
/-- `back()` (data_parallel_vector.hpp:436-443). -/
def back (d : Nat) : Option (Nat × Nat) :=
  if sz d ≠ 0 then do
    let e ← end_ sz d
    let l ← dec e
    deref sz l
  else none

end AnyAny.DpvIter
