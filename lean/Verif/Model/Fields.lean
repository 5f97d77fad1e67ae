/-
Model of the decomposition of aggregates (include/anyany/noexport/data_parallel_vector_details.hpp:9-231): counting of fields and access
to a field.

What a type `T` is constructible from is a predicate on the number of arguments of `any_type`, which is convertible to
everything; it is given by the language. A value of an aggregate with `m` fields is the list of its fields.
-/
namespace AnyAny.Fields

/-- `field_count<T>(index_sequence)` (32-38), for a sequence of that length; `none`: does not compile (`make_index_sequence` of
`0 - 1` elements). -/
def fieldCount (constructible : Nat → Bool) : Nat → Option Nat
  | 0 => if constructible 0 then some 0 else none
  | k + 1 => if constructible (k + 1) then some (k + 1) else fieldCount constructible k

/-- `fields_count_v` (40-41). -/
def fieldsCount (constructible : Nat → Bool) : Option Nat := fieldCount constructible 30

/-- The branches of `magic_tie` (61-221): number of fields, names of the structured binding in order (`_0` is `0`), and names forwarded
to the tuple in order. -/
def branches : List (Nat × List Nat × List Nat) :=
  [
   -- 61-63
   (1, [0], [0]),
   -- 64-66
   (2, [0, 1], [0, 1]),
   -- 67-69
   (3, [0, 1, 2], [0, 1, 2]),
   -- 70-72
   (4, [0, 1, 2, 3], [0, 1, 2, 3]),
   -- 73-75
   (5, [0, 1, 2, 3, 4], [0, 1, 2, 3, 4]),
   -- 76-78
   (6, [0, 1, 2, 3, 4, 5], [0, 1, 2, 3, 4, 5]),
   -- 79-81
   (7, [0, 1, 2, 3, 4, 5, 6], [0, 1, 2, 3, 4, 5, 6]),
   -- 82-85
   (8, [0, 1, 2, 3, 4, 5, 6, 7], [0, 1, 2, 3, 4, 5, 6, 7]),
   -- 86-89
   (9, [0, 1, 2, 3, 4, 5, 6, 7, 8], [0, 1, 2, 3, 4, 5, 6, 7, 8]),
   -- 90-93
   (10, [0, 1, 2, 3, 4, 5, 6, 7, 8, 9], [0, 1, 2, 3, 4, 5, 6, 7, 8, 9]),
   -- 95-98
   (11, [0, 1, 2, 3, 4, 5, 6, 7, 8, 9, 10], [0, 1, 2, 3, 4, 5, 6, 7, 8, 9, 10]),
   -- 99-102
   (12, [0, 1, 2, 3, 4, 5, 6, 7, 8, 9, 10, 11], [0, 1, 2, 3, 4, 5, 6, 7, 8, 9, 10, 11]),
   -- 103-106
   (13, [0, 1, 2, 3, 4, 5, 6, 7, 8, 9, 10, 11, 12], [0, 1, 2, 3, 4, 5, 6, 7, 8, 9, 10, 11, 12]),
   -- 107-110
   (14, [0, 1, 2, 3, 4, 5, 6, 7, 8, 9, 10, 11, 12, 13], [0, 1, 2, 3, 4, 5, 6, 7, 8, 9, 10, 11, 12, 13]),
   -- 111-115
   (15, [0, 1, 2, 3, 4, 5, 6, 7, 8, 9, 10, 11, 12, 13, 14], [0, 1, 2, 3, 4, 5, 6, 7, 8, 9, 10, 11, 12, 13, 14]),
   -- 116-120
   (16, [0, 1, 2, 3, 4, 5, 6, 7, 8, 9, 10, 11, 12, 13, 14, 15], [0, 1, 2, 3, 4, 5, 6, 7, 8, 9, 10, 11, 12, 13, 14, 15]),
   -- 121-126
   (17, [0, 1, 2, 3, 4, 5, 6, 7, 8, 9, 10, 11, 12, 13, 14, 15, 16], [0, 1, 2, 3, 4, 5, 6, 7, 8, 9, 10, 11, 12, 13, 14, 15, 16]),
   -- 127-132
   (18, [0, 1, 2, 3, 4, 5, 6, 7, 8, 9, 10, 11, 12, 13, 14, 15, 16, 17], [0, 1, 2, 3, 4, 5, 6, 7, 8, 9, 10, 11, 12, 13, 14, 15, 16, 17]),
   -- 133-138
   (19, [0, 1, 2, 3, 4, 5, 6, 7, 8, 9, 10, 11, 12, 13, 14, 15, 16, 17, 18], [0, 1, 2, 3, 4, 5, 6, 7, 8, 9, 10, 11, 12, 13, 14, 15, 16, 17, 18]),
   -- 140-145
   (20, [0, 1, 2, 3, 4, 5, 6, 7, 8, 9, 10, 11, 12, 13, 14, 15, 16, 17, 18, 19], [0, 1, 2, 3, 4, 5, 6, 7, 8, 9, 10, 11, 12, 13, 14, 15, 16, 17, 18, 19]),
   -- 147-152
   (21, [0, 1, 2, 3, 4, 5, 6, 7, 8, 9, 10, 11, 12, 13, 14, 15, 16, 17, 18, 19, 20], [0, 1, 2, 3, 4, 5, 6, 7, 8, 9, 10, 11, 12, 13, 14, 15, 16, 17, 18, 19, 20]),
   -- 154-162
   (22, [0, 1, 2, 3, 4, 5, 6, 7, 8, 9, 10, 11, 12, 13, 14, 15, 16, 17, 18, 19, 20, 21], [0, 1, 2, 3, 4, 5, 6, 7, 8, 9, 10, 11, 12, 13, 14, 15, 16, 17, 18, 19, 20, 21]),
   -- 164-170
   (23, [0, 1, 2, 3, 4, 5, 6, 7, 8, 9, 10, 11, 12, 13, 14, 15, 16, 17, 18, 19, 20, 21, 22], [0, 1, 2, 3, 4, 5, 6, 7, 8, 9, 10, 11, 12, 13, 14, 15, 16, 17, 18, 19, 20, 21, 22]),
   -- 172-178
   (24, [0, 1, 2, 3, 4, 5, 6, 7, 8, 9, 10, 11, 12, 13, 14, 15, 16, 17, 18, 19, 20, 21, 22, 23], [0, 1, 2, 3, 4, 5, 6, 7, 8, 9, 10, 11, 12, 13, 14, 15, 16, 17, 18, 19, 20, 21, 22, 23]),
   -- 180-186
   (25, [0, 1, 2, 3, 4, 5, 6, 7, 8, 9, 10, 11, 12, 13, 14, 15, 16, 17, 18, 19, 20, 21, 22, 23, 24], [0, 1, 2, 3, 4, 5, 6, 7, 8, 9, 10, 11, 12, 13, 14, 15, 16, 17, 18, 19, 20, 21, 22, 23, 24]),
   -- 188-194
   (26, [0, 1, 2, 3, 4, 5, 6, 7, 8, 9, 10, 11, 12, 13, 14, 15, 16, 17, 18, 19, 20, 21, 22, 23, 24, 25], [0, 1, 2, 3, 4, 5, 6, 7, 8, 9, 10, 11, 12, 13, 14, 15, 16, 17, 18, 19, 20, 21, 22, 23, 24, 25]),
   -- 196-202
   (27, [0, 1, 2, 3, 4, 5, 6, 7, 8, 9, 10, 11, 12, 13, 14, 15, 16, 17, 18, 19, 20, 21, 22, 23, 24, 25, 26], [0, 1, 2, 3, 4, 5, 6, 7, 8, 9, 10, 11, 12, 13, 14, 15, 16, 17, 18, 19, 20, 21, 22, 23, 24, 25, 26]),
   -- 204-211
   (28, [0, 1, 2, 3, 4, 5, 6, 7, 8, 9, 10, 11, 12, 13, 14, 15, 16, 17, 18, 19, 20, 21, 22, 23, 24, 25, 26, 27], [0, 1, 2, 3, 4, 5, 6, 7, 8, 9, 10, 11, 12, 13, 14, 15, 16, 17, 18, 19, 20, 21, 22, 23, 24, 25, 26, 27]),
   -- 213-220
   (29, [0, 1, 2, 3, 4, 5, 6, 7, 8, 9, 10, 11, 12, 13, 14, 15, 16, 17, 18, 19, 20, 21, 22, 23, 24, 25, 26, 27, 28], [0, 1, 2, 3, 4, 5, 6, 7, 8, 9, 10, 11, 12, 13, 14, 15, 16, 17, 18, 19, 20, 21, 22, 23, 24, 25, 26, 27, 28])
  ]

/-- A structured binding: the names are bound to the fields in order; their numbers must agree. Result: the field bound to a
name. Language rule, no code of the library; used by `magic_tie`
  (noexport/data_parallel_vector_details.hpp:56-222). -/
def bind_ {α} (names : List Nat) (fields : List α) : Option (Nat → Option α) :=
  if names.length = fields.length then some fun x => fields[names.idxOf x]? else none

/-- `magic_tie(value)` (56-222) for a value with these fields, the number of fields counted being `sz`. `none`: does not compile. -/
def magicTie {α} (sz : Nat) (fields : List α) : Option (List α) :=
  match branches.find? fun br => br.1 == sz with
  | none => none
  | some (_, names, fwd) => do
    let f ← bind_ names fields
    fwd.mapM f

/-- `magic_get<I>(value)` (225-228). -/
def magicGet {α} (constructible : Nat → Bool) (fields : List α) (i : Nat) : Option α := do
  let sz ← fieldsCount constructible
  let t ← magicTie sz fields
  t[i]?

/-! ### value categories -/

/-- Value category of the argument of `magic_get`
    (noexport/data_parallel_vector_details.hpp:225-229). -/
inductive Cat where
  | lvalue
  | rvalue
deriving DecidableEq, Repr

/-- Declared type of a field: not a reference, lvalue reference, rvalue reference. Language rule,
    no code of the library; used for `magic_get`
    (noexport/data_parallel_vector_details.hpp:225-229). -/
inductive FieldKind where
  | value
  | lref
  | rref
deriving DecidableEq, Repr

/-- `forward_save_prvalues<T, Field>(val)` (45-53), called for `T&&` bound to an lvalue or an rvalue. -/
def forwardSave : Cat → FieldKind → Cat
  | .rvalue, .value => .rvalue   -- std::forward<Field>
  | .rvalue, .lref => .lvalue
  | .rvalue, .rref => .rvalue
  | .lvalue, .value => .lvalue   -- static_cast<Field&>
  | .lvalue, .lref => .lvalue    -- static_cast<Field&&> of a reference type
  | .lvalue, .rref => .rvalue

end AnyAny.Fields
