/-
`noexport::bool_` (include/anyany/noexport/data_parallel_vector_details.hpp:278-322): what `data_parallel_vector` stores for fields of type
`bool`. An expression has a type, a value category and constness; what it denotes is either the member `b` of the object (`.self`) or a
value. Overload resolution follows C++20 ([over.match.best], [over.match.oper], [over.ics.rank]).
-/
namespace AnyAny.BoolField

/-- An operand: an object of type `bool_` or `bool`, as an expression of some constness and category. Language rule, no code of the
library; the implicit object parameters at noexport/data_parallel_vector_details.hpp:295-306. -/
structure Opd where
  /-- `bool_`, or `bool` -/
  wrapped : Bool
  const : Bool
  rvalue : Bool
  val : Bool
  deriving DecidableEq, Repr

/-- A conversion function: constness and ref-qualifier of the object, and what the returned reference is. -/
structure Conv where
  objConst : Bool
  objRvalue : Bool
  const : Bool
  rvalue : Bool
  deriving DecidableEq, Repr

/-- The four conversion functions (noexport/data_parallel_vector_details.hpp:295-306), in the order of the code. All return `b`. -/
def convs : List Conv :=
  [⟨false, true, false, true⟩, ⟨true, true, true, true⟩, ⟨false, false, false, false⟩, ⟨true, false, true, false⟩]

/-- Can the implicit object parameter bind to the operand? `X&`: non-const lvalues; `const X&`: everything; `X&&`: non-const rvalues;
`const X&&`: rvalues. Language rule, for noexport/data_parallel_vector_details.hpp:295-306. -/
def Conv.binds (c : Conv) (x : Opd) : Bool :=
  (c.objConst || !x.const) && (if c.objRvalue then x.rvalue else (!x.rvalue || c.objConst))

/-- Is the binding of the object better? An rvalue prefers an rvalue reference; otherwise the less const one. Language rule
([over.ics.rank] 3.2), for noexport/data_parallel_vector_details.hpp:295-306. -/
def Conv.better (c d : Conv) : Bool :=
  if c.objRvalue != d.objRvalue then c.objRvalue else !c.objConst && d.objConst

/-- The best of the candidates; `none`: none, or ambiguous. Language rule, for the overloads at
noexport/data_parallel_vector_details.hpp:295-320. -/
def best {α : Type} [DecidableEq α] (better : α → α → Bool) (l : List α) : Option α :=
  l.find? fun c => l.all fun d => c == d || better c d

/-- What is asked for: `bool&` (or `const bool&`), or a `bool`. -/
inductive Target where
  | lref (const : Bool)
  | value
  deriving DecidableEq, Repr

/-- Is the result of the conversion function usable? A reference binds directly to an lvalue of no more const type. Language rule
([over.match.ref]), for noexport/data_parallel_vector_details.hpp:295-306. -/
def Conv.gives (c : Conv) : Target → Bool
  | .lref k => !c.rvalue && (k || !c.const)
  | .value => true

/-- `static_cast<bool&>(x)`, `static_cast<const bool&>(x)`, `bool(x)` for an `x` of type `bool_`
(noexport/data_parallel_vector_details.hpp:295-306, used at data_parallel_vector.hpp:70, 85, 87, 261, 263): the function called. -/
def convert (t : Target) (x : Opd) : Option Conv := best Conv.better (convs.filter fun c => c.binds x && c.gives t)

/-- Assignments to an object of type `bool_` (noexport/data_parallel_vector_details.hpp:284, 286, 290-293). -/
inductive Assign where
  | copy
  | move
  | ofBool
  deriving DecidableEq, Repr

/-- Rank of converting the right operand to the parameter: 0 exact, 3 by a constructor or conversion function; second component: an
rvalue reference bound to an rvalue. Language rule, for noexport/data_parallel_vector_details.hpp:284-293. -/
def Assign.rank (x : Opd) : Assign → Option (Nat × Bool)
  | .copy => some (if x.wrapped then 0 else 3, false)
  | .move => if x.wrapped then (if x.rvalue && !x.const then some (0, true) else none) else some (3, true)
  | .ofBool => some (if x.wrapped then 3 else 0, false)

/-- Language rule ([over.ics.rank]), for noexport/data_parallel_vector_details.hpp:284-293. -/
def Assign.better (x : Opd) (a b : Assign) : Bool :=
  match a.rank x, b.rank x with
  | some (r, p), some (s, q) => r < s || (r == s && p && !q)
  | some _, none => true
  | none, _ => false

/-- `l = x` (noexport/data_parallel_vector_details.hpp:284-293): the function called, and the new value of `b`. -/
def assign (x : Opd) : Option (Assign × Bool) :=
  (best (Assign.better x) ([Assign.copy, .move, .ofBool].filter fun a => (a.rank x).isSome)).map fun a => (a, x.val)

/-- Candidates for `l == r` and `l <=> r`: the template for `bool` (noexport/data_parallel_vector_details.hpp:308-316), the function for
`bool_` (316-321), each also with the operands reversed, and the built-in operator. -/
inductive Cand where
  | ofBool
  | ofWrapped
  | ofBoolReversed
  | ofWrappedReversed
  | builtin
  deriving DecidableEq, Repr

/-- Ranks of the conversions of both operands; `none`: not viable. Exact 0, promotion of `bool` to `int` 1, by a constructor or conversion
function 3. The template takes `bool` only (`std::same_as`). Language rule, for noexport/data_parallel_vector_details.hpp:308-321. -/
def Cand.ranks (l r : Opd) : Cand → Option (Nat × Nat)
  | .ofBool => if l.wrapped && !r.wrapped then some (0, 0) else none
  | .ofWrapped => if l.wrapped then some (0, if r.wrapped then 0 else 3) else none
  | .ofBoolReversed => if r.wrapped && !l.wrapped then some (0, 0) else none
  | .ofWrappedReversed => if r.wrapped then some (if l.wrapped then 0 else 3, 0) else none
  | .builtin => some (if l.wrapped then 3 else 1, if r.wrapped then 3 else 1)

/-- Candidates made by reversing the operands of others. Language rule ([over.match.oper] 3.4). -/
def Cand.reversed : Cand → Bool
  | .ofBoolReversed | .ofWrappedReversed => true
  | _ => false

/-- Better for both operands, strictly for one; or as good, and not a reversed candidate while the other is. Language rule
([over.match.best] 2). -/
def Cand.better (l r : Opd) (a b : Cand) : Bool :=
  match a.ranks l r, b.ranks l r with
  | some (x, y), some (u, v) => (x ≤ u && y ≤ v && (x < u || y < v)) || (x == u && y == v && !a.reversed && b.reversed)
  | some _, none => true
  | none, _ => false

/-- The operator called. -/
def resolve (l r : Opd) : Option Cand :=
  best (Cand.better l r) ([Cand.ofBool, .ofWrapped, .ofBoolReversed, .ofWrappedReversed, .builtin].filter fun c => (c.ranks l r).isSome)

/-- `l == r` (noexport/data_parallel_vector_details.hpp:308-310, 316-318), with the built-in `==` of `bool`. The body of
`operator==(const bool_&)` is itself an expression `b == x` with a `bool` and a `bool_`, so a number of steps is given; `none`: not
finished, or does not compile. -/
def eq : Nat → Opd → Opd → Option Bool
  | 0, _, _ => none
  | n + 1, l, r =>
    match resolve l r with
    | some .builtin => some (l.val == r.val)
    | some .ofBool => some (l.val == r.val)
    | some .ofBoolReversed => some (r.val == l.val)
    | some .ofWrapped => eq n ⟨false, true, false, l.val⟩ ⟨true, true, false, r.val⟩
    | some .ofWrappedReversed => eq n ⟨false, true, false, r.val⟩ ⟨true, true, false, l.val⟩
    | none => none

/-- The built-in `<=>` of `bool`. -/
def cmp (x y : Bool) : Ordering := compare x.toNat y.toNat

/-- `l <=> r` (noexport/data_parallel_vector_details.hpp:312-315, 319-321). The result of a reversed candidate is reversed. -/
def spaceship (l r : Opd) : Option Ordering :=
  match resolve l r with
  | some .builtin => some (cmp l.val r.val)
  | some .ofBool => some (cmp l.val r.val)
  | some .ofWrapped => some (cmp l.val r.val)
  | some .ofBoolReversed => some (cmp r.val l.val).swap
  | some .ofWrappedReversed => some (cmp r.val l.val).swap
  | none => none

end AnyAny.BoolField
