/-
What the operations of anys need of the allocator: include/anyany/anyany.hpp:1109-1509, 1516-1530.

As in Model/DpvReq.lean, a body is the list of the things in it that may fail to compile; all branches of an `if` are compiled, and of an
`if constexpr` the one whose condition holds. What methods need of values is in Model/Methods.lean; here a type has all methods or not.
-/
namespace AnyAny.AllocReq

/-- The allocator type: what the library looks at. -/
structure Al where
  /-- `pointer` is a class and not a pointer to `value_type` -/
  fancy : Bool
  /-- the copy constructor is declared `noexcept` -/
  noexceptCopy : Bool
  /-- can it be default-constructed? -/
  dflt : Bool
  /-- no data members: `std::is_empty_v` -/
  empty : Bool
  alwaysEqual : Bool
  pocca : Bool
  pocma : Bool
  /-- can it be assigned lvalues and rvalues of its type? -/
  copyAssign : Bool
  moveAssign : Bool
  deriving DecidableEq, Repr

/-- The any type: has it `copy_with` with its allocator and buffer, one with others, `move`; is `SooS == 0`? -/
structure An where
  copy : Bool
  otherCopy : Bool
  move : Bool
  soo0 : Bool
  deriving DecidableEq, Repr

/-- The type of the value that is put into an any, and its construction: does it have all methods of the any, can it be constructed from
the arguments, does it fit into a buffer that is not empty, is it trivially copyable, can its copy constructor throw, can the constructor
that is called? -/
structure Val where
  exist : Bool
  makes : Bool
  fits : Bool
  trivial : Bool
  nothrowCopy : Bool
  nothrowMake : Bool
  deriving DecidableEq, Repr

/-- Things in bodies that may fail to compile. -/
inductive Act where
  /-- `alloc.allocate(n)` converted to `void*` or taken as `auto*` -/
  | allocate
  /-- `reinterpret_cast<alloc_pointer_type>(value_ptr)` -/
  | castBack
  /-- an allocator made without arguments -/
  | default
  /-- assignment of the allocator -/
  | assignCopy | assignMove
  /-- the function that moves values, of an any type -/
  | moveFn (a : An)
  /-- conditions of `static_assert`, `requires` and `enable_if` -/
  | require (b : Bool)
  deriving DecidableEq, Repr

/-- `noexport::has_move` (anyany.hpp:330-332). -/
def An.hasMoveMethod (a : An) : Bool := a.copy || a.otherCopy || a.move

/-- `has_move` (anyany.hpp:1165). -/
def An.hasMove (a : An) : Bool := a.hasMoveMethod || a.soo0

/-- Does it compile? `allocate` returns `pointer`, and classes are not converted to `void*` and not cast from it. `get_move_fn`
(anyany.hpp:1431-1436) is `invoke` of `move` or of a copy method. -/
def Act.ok (al : Al) : Act → Bool
  | .allocate => !al.fancy
  | .castBack => !al.fancy
  | .default => al.dflt
  | .assignCopy => al.copyAssign
  | .assignMove => al.moveAssign
  | .moveFn a => a.hasMoveMethod
  | .require b => b

/-- `is_fits_in_soo_buffer` (noexport/anyany_details.hpp:227-231). -/
def isSmall (a : An) (v : Val) : Bool := v.fits && !a.soo0

/-- `copy_requires_alloc` (noexport/anyany_details.hpp:250-253). -/
def copyRequiresAlloc (al : Al) : Bool := !(al.empty && al.dflt)

/-- `Alloc a{};` of the copy functions without allocator argument (noexport/anyany_details.hpp:288-291, 313-316). -/
def localAlloc (al : Al) : List Act := if copyRequiresAlloc al then [] else [.default]

/-- The copy function in the vtable (anyany.hpp:281-297; noexport/anyany_details.hpp:263-316). -/
def copyFn (al : Al) (a : An) (v : Val) : List Act :=
  if v.trivial && isSmall a v then []
  else if v.trivial then localAlloc al ++ [.allocate]
  else if isSmall a v then localAlloc al
  else localAlloc al ++ [.allocate]

/-- `construct_value` (anyany.hpp:1458-1463): the value is constructed from the arguments, and `addr_vtable_for<T, Methods...>` needs the
functions of the methods. -/
def constructValue (al : Al) (a : An) (v : Val) : List Act := .require v.makes :: (if a.copy then copyFn al a v else [])

/-- `emplace_in_empty` (anyany.hpp:1128-1149). -/
def emplaceInEmpty (al : Al) (a : An) (v : Val) (force : Bool) : List Act :=
  if isSmall a v && !force then constructValue al a v
  else .allocate :: constructValue al a v ++ (if v.nothrowMake then [] else [.castBack])

/-- `deallocate_memory` (anyany.hpp:1503-1508). -/
def deallocateMemory : List Act := [.castBack]

/-- `reset` (anyany.hpp:1379-1383), the destructor (1193-1195). -/
def reset : List Act := deallocateMemory

/-- `emplace_decayed` (anyany.hpp:1439-1455). -/
def emplaceDecayed (al : Al) (a : An) (v : Val) : List Act := deallocateMemory ++ emplaceInEmpty al a v false ++ constructValue al a v

/-- `move_value_from<MemoryMaybeReused>(other)` (anyany.hpp:1465-1497), `b` the type of `other`. -/
def moveValueFrom (reused : Bool) (b : An) : List Act :=
  if b.soo0 then []
  else .moveFn b :: (if reused then [] else [.allocate, .castBack, .moveFn b])

/-- Operations of anys. -/
inductive Op where
  | defaultCtor
  /-- `basic_any(value)`, `basic_any(in_place_type<T>, args...)` -/
  | valueCtor (v : Val)
  /-- with `force_stable_pointers` -/
  | stableCtor (v : Val)
  /-- `basic_any(allocator_arg, alloc)` and with a value -/
  | allocCtor
  | allocValueCtor (v : Val)
  | copyCtor | moveCtor
  /-- from an any with more methods -/
  | fromMoreCopy (b : An) | fromMoreMove (b : An)
  | copyAssign | moveAssign
  /-- `emplace<T>(args...)`, and assignment of values -/
  | emplace (v : Val)
  | reset | replaceWithBytes | getAllocator
  /-- `materialize` with and without allocator -/
  | materializeAlloc | materialize
  deriving DecidableEq, Repr

/-- Copy construction (anyany.hpp:1199-1211). -/
def copyCtorBody (a : An) : List Act := [.require a.copy]

/-- Move construction (anyany.hpp:1217-1220). -/
def moveCtorBody (a : An) : List Act := .require a.hasMove :: moveValueFrom true a

/-- Move assignment (anyany.hpp:1221-1251). -/
def moveAssignBody (al : Al) (a : An) : List Act :=
  .require a.hasMove ::
    (if al.alwaysEqual then reset ++ moveValueFrom true a
     else if al.pocma then reset ++ [.assignMove] ++ moveValueFrom true a
     else [.moveFn a] ++ deallocateMemory ++ moveValueFrom false a ++ reset ++ moveValueFrom true a)

/-- Copy assignment (anyany.hpp:1253-1264). -/
def copyAssignBody (al : Al) (a : An) : List Act :=
  .require a.copy :: copyCtorBody a ++ (if !al.alwaysEqual && al.pocca then reset ++ [.assignCopy] else []) ++ moveAssignBody al a

/-- The bodies (anyany.hpp:1191-1395, 1516-1530). The allocator is a member without initialiser (1123), so that constructors that do not
name it default-construct it. -/
def body (al : Al) (a : An) : Op → List Act
  | .defaultCtor => [.default]
  | .valueCtor v => .require v.exist :: .default :: emplaceInEmpty al a v false
  | .stableCtor v => .require v.exist :: .default :: emplaceInEmpty al a v true
  | .allocCtor => []
  | .allocValueCtor v => .require v.exist :: emplaceInEmpty al a v false
  | .copyCtor => copyCtorBody a
  | .moveCtor => moveCtorBody a
  | .fromMoreCopy b => [.require b.copy]
  | .fromMoreMove b => .require b.hasMoveMethod :: .default :: moveValueFrom true b
  | .copyAssign => copyAssignBody al a
  | .moveAssign => moveAssignBody al a
  | .emplace v => .require v.exist :: emplaceDecayed al a v
  | .reset => reset
  | .replaceWithBytes => .allocate :: deallocateMemory
  | .getAllocator => []
  | .materializeAlloc => [.require a.copy]
  | .materialize => [.default, .require a.copy]

/-- The class is instantiated (anyany.hpp:1167-1168; the value type is made a byte by `basic_any_with`, C30), anys have destructors, and the
body compiles. -/
def compiles (al : Al) (a : An) (o : Op) : Bool := (.require al.noexceptCopy :: reset ++ body al a o).all (Act.ok al)

/-- Does the operation take part in overload resolution: what `std::is_constructible`, `std::is_assignable`, `requires` and other checks say.
The constraints: `AA_IF_HAS_CPP20(requires(...))` (anyany.hpp:1199, 1217, 1222, 1253), which are there only in C++20; `enable_if` (1271-1373, 1516-1520);
a defaulted constructor (1191) is deleted if a member cannot be default-constructed. -/
def declared (cpp20 : Bool) (al : Al) (a : An) : Op → Bool
  | .defaultCtor => al.dflt
  | .valueCtor v | .stableCtor v | .allocValueCtor v | .emplace v => v.exist
  | .copyCtor | .copyAssign => !cpp20 || a.copy
  | .moveCtor | .moveAssign => !cpp20 || a.hasMove
  | .fromMoreCopy b => b.copy
  | .fromMoreMove b => b.hasMoveMethod
  | .materializeAlloc | .materialize => a.copy
  | .allocCtor | .reset | .replaceWithBytes | .getAllocator => true

end AnyAny.AllocReq
