import Verif.Model.Fields
/-
Element types of `data_parallel_vector`: `tl_traits` (include/anyany/noexport/data_parallel_vector_details.hpp:230-275), the containers of
the fields (include/anyany/data_parallel_vector.hpp:44-63, 689-696), and making an element from its fields (82-89).

Types are numbers. What compiles is modelled by `Option` and `Bool`.
-/
namespace AnyAny.Elem
open AnyAny.Fields (fieldsCount magicGet)

/-- The type of a field or component, as written: an object type, perhaps const, perhaps behind a reference. The types
`tuple_element_t` and `decltype` at noexport/data_parallel_vector_details.hpp:230-248. -/
structure FTy where
  ty : Nat
  const : Bool := false
  ref : Bool := false
  deriving DecidableEq, Repr

/-- `std::remove_cvref_t` (noexport/data_parallel_vector_details.hpp:232). -/
def FTy.removeCvref (f : FTy) : FTy := ⟨f.ty, false, false⟩

/-- Types of elements. Language and standard library, no code of the library; what `tl_traits`
(noexport/data_parallel_vector_details.hpp:250-275) is instantiated with. -/
inductive ElemTy where
  /-- `std::tuple` and `std::pair` -/
  | tuple (ts : List FTy)
  /-- `std::array<T, n>`: the standard specializes `tuple_size`, `tuple_element` and `get` for it; an aggregate whose only member is
  an array -/
  | array (t : FTy) (n : Nat)
  /-- a class for which a user has specialized `std::tuple_size`, `std::tuple_element` and `std::get`, with or without a constructor from
  the components -/
  | userTuple (ts : List FTy) (ctor : Bool)
  /-- an aggregate with these fields; `c k`: it can be made from `k` arguments that convert to anything -/
  | aggregate (fs : List FTy) (c : Nat → Bool)
  /-- `std::variant`: has `std::get`, but no `tuple_size` -/
  | variant (ts : List FTy)
  /-- any other class -/
  | other

/-- `is_tuple_like` (noexport/data_parallel_vector_details.hpp:234-237): `std::get<0>(value)` is valid. -/
def isTupleLike : ElemTy → Bool
  | .tuple ts => !ts.isEmpty
  | .array _ n => decide (0 < n)
  | .userTuple ts _ => !ts.isEmpty
  | .aggregate _ _ => false
  | .variant ts => !ts.isEmpty
  | .other => false

/-- `std::tuple_size_v<T>`. Standard library, no code of the library; read at
noexport/data_parallel_vector_details.hpp:257. -/
def stdTupleSize : ElemTy → Option Nat
  | .tuple ts => some ts.length
  | .array _ n => some n
  | .userTuple ts _ => some ts.length
  | .aggregate _ _ => none
  | .variant _ => none
  | .other => none

/-- `std::tuple_element_t<I, T>`. Standard library, no code of the library; read at
noexport/data_parallel_vector_details.hpp:243-244. -/
def stdTupleElement (i : Nat) : ElemTy → Option FTy
  | .tuple ts => ts[i]?
  | .array t n => if i < n then some t else none
  | .userTuple ts _ => ts[i]?
  | .aggregate _ _ => none
  | .variant _ => none
  | .other => none

/-- `tl_traits::tuple_size<T>` (noexport/data_parallel_vector_details.hpp:252-262). `none`: does not compile. -/
def tupleSize (e : ElemTy) : Option Nat :=
  if isTupleLike e then stdTupleSize e
  else match e with
    | .aggregate _ c => fieldsCount c
    | _ => none

/-- `field_type_t<I, T>` (noexport/data_parallel_vector_details.hpp:231-232). -/
def fieldType (i : Nat) : ElemTy → Option FTy
  | .aggregate fs c => (magicGet c fs i).map FTy.removeCvref
  | _ => none

/-- `tl_traits::tuple_element<I, T>` (noexport/data_parallel_vector_details.hpp:239-248, 264-266). -/
def tupleElement (i : Nat) (e : ElemTy) : Option FTy :=
  if isTupleLike e then stdTupleElement i e else fieldType i e

/-- `tl_traits::get<I>(value)` (noexport/data_parallel_vector_details.hpp:268-274), for a value whose components or fields are `vs`. -/
def get {α} (i : Nat) (e : ElemTy) (vs : List α) : Option α :=
  if isTupleLike e then
    match stdTupleElement i e with
    | some _ => vs[i]?
    | none => none
  else match e with
    | .aggregate _ c => magicGet c vs i
    | _ => none

/-- The value type of a container of a field: `bool_` in place of `bool`, to keep `std::vector<bool>` away.
`container_for::U` (data_parallel_vector.hpp:48-51). -/
inductive Col where
  | bool_
  | ty (t : Nat)
  deriving DecidableEq, Repr

/-- `container_for<X>` (data_parallel_vector.hpp:47-54), `boolT` being the number of `bool`. `none`: there is no `std::vector` of const
objects or references. -/
def containerFor (boolT : Nat) (x : FTy) : Option Col :=
  if x.const || x.ref then none else some (if x.ty = boolT then .bool_ else .ty x.ty)

/-- `std::tuple<container_t<Is>...> parts` (data_parallel_vector.hpp:57-62), `Is` up to `tuple_size` (689-696). `none`: does not
compile. -/
def columns (boolT : Nat) (e : ElemTy) : Option (List Col) := do
  let n ← tupleSize e
  (List.range n).mapM fun i => do
    let x ← tupleElement i e
    containerFor boolT x

/-- Does `T(a, b, c)` compile, the arguments being the fields? Language rule, no code of the library; used at
data_parallel_vector.hpp:85. Aggregates can be made so since C++20, but braces around the elements of a member array can be left out
only between braces. -/
def fromParens : ElemTy → Bool
  | .tuple _ => true
  | .array _ _ => false
  | .userTuple _ ctor => ctor
  | .aggregate _ _ => true
  | .variant _ => false
  | .other => false

/-- Does `T{a, b, c}` compile, the arguments being the fields? Language rule, no code of the library; used at
data_parallel_vector.hpp:87. -/
def fromBraces : ElemTy → Bool
  | .tuple _ => true
  | .array _ _ => true
  | .userTuple _ ctor => ctor
  | .aggregate _ _ => true
  | .variant _ => false
  | .other => false

/-- `operator value_type()` of proxies (data_parallel_vector.hpp:82-89); `paren`: `__cpp_aggregate_paren_init` is defined. -/
def toValue (paren : Bool) (e : ElemTy) : Bool := if paren then fromParens e else fromBraces e

end AnyAny.Elem
