/-
The calls of `copy_fn` in the copy constructors and in `materialize`: include/anyany/anyany.hpp:273-341, 1196-1210, 1326-1341, 1512-1527.
What is modelled is whether they compile.
-/
namespace AnyAny.CopyCall

/-- Types of arguments and parameters. -/
inductive Ty where
  | voidPtr | constVoidPtr
  /-- `Alloc*` -/
  | allocPtr
  /-- an lvalue of type `Alloc` -/
  | alloc
  deriving DecidableEq, Repr

/-- Implicit conversions: pointers to objects convert to `void*`, `void*` to `const void*`; an allocator does not convert to a pointer.
Language rule, for the calls below. (A class with a conversion to `void*` is left out.) -/
def converts : Ty → Ty → Bool
  | .voidPtr, .constVoidPtr => true
  | .allocPtr, .voidPtr => true
  | .allocPtr, .constVoidPtr => true
  | a, b => a == b

/-- A call with these arguments of a function with these parameters. Language rule. -/
def callOk (params args : List Ty) : Bool :=
  decide (args.length = params.length) && (args.zip params).all fun p => converts p.1 p.2

/-- What is asked of the allocator type: `std::is_empty`, `std::is_default_constructible`. -/
structure Alloc where
  empty : Bool
  dflt : Bool
  deriving DecidableEq, Repr

/-- `copy_requires_alloc` (noexport/anyany_details.hpp:250-253). -/
def requiresAlloc (a : Alloc) : Bool := !(a.empty && a.dflt)

/-- `copy_fn_t` (anyany.hpp:299-300). -/
def copyParams (a : Alloc) : List Ty :=
  if !requiresAlloc a then [.constVoidPtr, .voidPtr] else [.constVoidPtr, .voidPtr, .voidPtr]

/-- The functions selected for the method (anyany.hpp:281-297), by their parameters: for trivially copyable types that fit, trivially
copyable types, and others (noexport/anyany_details.hpp:264, 287, 293, 299, 304, 314). -/
def selected (a : Alloc) (trivial fits : Bool) : List Ty :=
  if !requiresAlloc a then
    if trivial && fits then [.constVoidPtr, .voidPtr]
    else if trivial then [.constVoidPtr, .voidPtr]
    else [.constVoidPtr, .voidPtr]
  else
    if trivial && fits then [.constVoidPtr, .voidPtr, .voidPtr]
    else if trivial then [.constVoidPtr, .voidPtr, .voidPtr]
    else [.constVoidPtr, .voidPtr, .voidPtr]

/-- Does the vtable entry compile? A pointer to a function is a pointer of that type only (anyany.hpp:299-315). -/
def entryOk (a : Alloc) (trivial fits : Bool) : Bool := selected a trivial fits == copyParams a

/-- The copy constructor and the transmutating copy constructor (anyany.hpp:1199-1207, 1332-1339): pointers to the two values, and
`std::addressof(alloc)`. -/
def copyCtorArgs (a : Alloc) : List Ty :=
  if !requiresAlloc a then [.voidPtr, .voidPtr] else [.voidPtr, .voidPtr, .allocPtr]

/-- `materialize` (anyany.hpp:1519-1525): `mate::get_alloc(result)` is an lvalue of type `Alloc` (507-509). -/
def materializeArgs (a : Alloc) : List Ty :=
  if !requiresAlloc a then [.constVoidPtr, .voidPtr] else [.constVoidPtr, .voidPtr, .alloc]

/-- Copying an any compiles. -/
def copyOk (a : Alloc) : Bool := callOk (copyParams a) (copyCtorArgs a)

/-- `materialize` compiles. -/
def materializeOk (a : Alloc) : Bool := callOk (copyParams a) (materializeArgs a)

end AnyAny.CopyCall
