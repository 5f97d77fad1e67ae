import Verif.Model.Dpv
/-
Views of `data_parallel_vector` by type and structured bindings (include/anyany/data_parallel_vector.hpp:47-53, 462-523, 724-769). Which column a view
refers to is decided at compile time, from the types of the fields: `F` are the C++ types, `ty j` is the type of field `j`
(`element_t<j>`, 44-45), `boolT` is `bool` and `boolU` is `noexport::bool_`. `none` means that the program does not compile.
-/
namespace AnyAny.Dpv

variable {n : Nat} {V : Fin n → Type} {F : Type} [DecidableEq F]

/-- The types of the fields. (data_parallel_vector.hpp:38-60.) -/
structure Types (n : Nat) (F : Type) where
  ty : Fin n → F
  boolT : F
  boolU : F

/-- The element type of `container_for_t<X>` (48-55); the vector type is determined by it. -/
def containerFor (T : Types n F) (x : F) : F := if x = T.boolT then T.boolU else x

/-- `std::get<C>(parts)`, `C` the vector with that element type: there must be exactly one column
    of that type ([tuple.elem]). (data_parallel_vector.hpp:466, 476.) -/
def stdGet (T : Types n F) (c : F) : Option (Fin n) :=
  match (List.finRange n).filter fun j => containerFor T (T.ty j) = c with
  | [j] => some j
  | _ => none

/-- A type argument `X` or `const X` (`ty` without `const`). The template arguments `X` of
    `view_only` (data_parallel_vector.hpp:463-482, 500-507). -/
structure TArg (F : Type) where
  ty : F
  const : Bool
deriving DecidableEq, Repr

/-- A span: of which column, of what element type, with const elements or not. The results at
    data_parallel_vector.hpp:463-498. -/
structure Span (n : Nat) (F : Type) where
  col : Fin n
  elem : F
  const : Bool
deriving DecidableEq, Repr

/-- `get_span<X>()` (464-474). The span is made from the vector by `span<X>(c)`, which needs elements of type `X`, or for `bool` from its
`data()` by `reinterpret_cast` (`reinterpret_cast` between `bool_*` and `bool*` is taken to give the same elements). -/
def getSpan (T : Types n F) (x : TArg F) : Option (Span n F) := do
  let j ← stdGet T (containerFor T x.ty)
  if x.const = false ∧ x.ty = T.boolT then some ⟨j, T.boolT, false⟩
  else if x.const = true ∧ x.ty = T.boolT then some ⟨j, T.boolT, true⟩
  else if containerFor T (T.ty j) = x.ty then some ⟨j, x.ty, x.const⟩ else none

/-- `get_span<X>() const` (475-482). -/
def getSpanConst (T : Types n F) (x : TArg F) : Option (Span n F) := do
  let j ← stdGet T (containerFor T x.ty)
  if x.ty = T.boolT then some ⟨j, T.boolT, true⟩
  else if containerFor T (T.ty j) = x.ty then some ⟨j, x.ty, true⟩ else none

/-- `get_span<I>()` (483-490) and `get_span<I>() const` (491-498): `std::span(c)` has the element type of the vector, `const` if the vector is. -/
def getSpanIdx (T : Types n F) (selfConst : Bool) (j : Fin n) : Span n F :=
  if T.ty j = T.boolT then ⟨j, T.boolT, selfConst⟩ else ⟨j, containerFor T (T.ty j), selfConst⟩

/-- `view<Types...>()` (509-516); `view_only<X>()` (501-508) is the case of one type. -/
def viewTypes (T : Types n F) (selfConst : Bool) (xs : List (TArg F)) : Option (List (Span n F)) :=
  xs.mapM (if selfConst then getSpanConst T else getSpan T)

/-- `view<Nbs...>()` (517-523). -/
def viewIdx (T : Types n F) (selfConst : Bool) (js : List (Fin n)) : List (Span n F) := js.map (getSpanIdx T selfConst)

/-! ### structured bindings -/

/-- `auto [...] = v`, `auto [...] = std::move(v)`, `auto& [...] = v` (or `auto&&`), with or
    without `const`. Language rule, no code of the library; structured bindings with the `get` and
    `tuple_size` of data_parallel_vector.hpp:743-769. -/
inductive BindKind where
  | copy
  | move
  | ref
deriving DecidableEq, Repr

/-- A structured binding. Language rule, no code of the library; for
    data_parallel_vector.hpp:743-769. -/
structure BindMode where
  kind : BindKind
  const : Bool
deriving DecidableEq, Repr

/-- The namespaces associated with `data_parallel_vector<T, Alloc>` ([basic.lookup.argdep]): its own (`aa`), that of its base class
(`aa::noexport`), those associated with `T` and `Alloc`. The classes are at
  data_parallel_vector.hpp:34-36, 683-690. -/
def associated (nsT nsAlloc : List String) : List String := ["aa", "aa::noexport"] ++ nsT ++ nsAlloc

/-- `get<I>(e)` of a structured binding is looked up in the associated namespaces only ([dcl.struct.bind]); `get` for containers is in
`std` (743-758). -/
def bindCompiles (nsT nsAlloc : List String) : Bool := (associated nsT nsAlloc).contains "std"

/-- The object that is bound: a new one (`e`), or the container itself. Language rule, no code of
    the library; the initialisation of the hidden variable of a structured binding
    (data_parallel_vector.hpp:743-758). -/
def bindTarget (env : Env V) (m : BindMode) (d e : Nat) : M V Nat :=
  match m.kind with
  | .copy => do
    copyCtor env e d
    pure e
  | .move => do
    moveCtor e d
    pure e
  | .ref => do
    let _ ← get d
    pure d

/-- `get<I>(e)` (743-758): all overloads give `view<I>()` of their argument. The type of the binding is `tuple_element<I, E>` (731-739). -/
def bindSpan (T : Types n F) (m : BindMode) (j : Fin n) : Span n F := getSpanIdx T m.const j

/-- Type and constness of a binding: `std::tuple_element` (data_parallel_vector.hpp:735-758). -/
def bindType (T : Types n F) (m : BindMode) (j : Fin n) : F × Bool := (T.ty j, m.const)

/-- `auto [...] = v[i]` (762-769 with 69-76): binding `j` is `get<j>(proxy)`, a reference to the element `i` of column `j`: its buffer and position. -/
def bindElem (d i : Nat) (j : Fin n) : M V (Nat × Nat) := do
  let p ← proxyAt d i
  pure ((p j).buf, i)

end AnyAny.Dpv
