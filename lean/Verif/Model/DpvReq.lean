/-
What the operations of `data_parallel_vector` need of the types of the fields: include/anyany/data_parallel_vector.hpp:66-673.

A body is the list of the things in it that may fail to compile: operations of the vectors that hold the fields, initialisations of
parameters and local variables, names of members and conversions of results. Branches are all compiled, whichever is taken. Iterators
given to operations are those of a sequence of `T`, or move iterators of one.
-/
namespace AnyAny.DpvReq

/-- What a type can do: copy and move construction, copy and move assignment, default construction. -/
structure Caps where
  copyC : Bool
  moveC : Bool
  copyA : Bool
  moveA : Bool
  dflt : Bool
  deriving DecidableEq, Repr

/-- A field of `T`: its type, and whether it has a default member initialiser. -/
structure Field where
  caps : Caps
  init : Bool := false
  deriving DecidableEq, Repr

/-- The allocator: `propagate_on_container_move_assignment`, and can it be default-constructed? -/
structure Al where
  pocma : Bool
  dflt : Bool
  deriving DecidableEq, Repr

/-- Operations of `std::vector<X>`. `rv`: the argument, or what the iterators refer to, is an rvalue. -/
inductive VOp where
  | ctorCount | ctorCountValue | ctorRange (rv : Bool) | copyCtor | moveCtor | copyCtorAlloc | moveCtorAlloc
  | copyAssign | moveAssign | swap | assignCount | assignRange (rv : Bool)
  | pushBack (rv : Bool) | emplaceBack (rv : Bool) | emplace (rv : Bool)
  | insert (rv : Bool) | insertCount | insertRange (rv : Bool)
  | erase | eraseRange | clear | popBack | reserve | resize | resizeValue | shrink
  deriving DecidableEq, Repr

/-- A type can be made from an lvalue or rvalue of itself. -/
def Caps.from (c : Caps) (rv : Bool) : Bool := if rv then c.moveC else c.copyC

/-- A type can be assigned an lvalue or rvalue of itself. -/
def Caps.assigned (c : Caps) (rv : Bool) : Bool := if rv then c.moveA else c.copyA

/-- What `std::vector<X>` needs of `X`: [sequence.reqmts], [container.alloc.reqmts], [vector.capacity]. Standard library, no code of the
library; used for the containers of data_parallel_vector.hpp:62. -/
def VOp.needs (a : Al) (c : Caps) : VOp → Bool
  | .ctorCount => c.dflt
  | .ctorCountValue => c.copyC
  | .ctorRange rv => c.from rv
  | .copyCtor => c.copyC
  | .moveCtor => true
  | .copyCtorAlloc => c.copyC
  | .moveCtorAlloc => c.moveC
  | .copyAssign => c.copyC && c.copyA
  | .moveAssign => a.pocma || (c.moveC && c.moveA)
  | .swap => true
  | .assignCount => c.copyC && c.copyA
  | .assignRange rv => c.from rv && c.assigned rv
  | .pushBack rv => c.from rv
  | .emplaceBack rv => c.from rv && c.moveC
  | .emplace rv => c.from rv && c.moveC && c.moveA
  | .insert rv => c.from rv && c.assigned rv
  | .insertCount => c.copyC && c.copyA
  | .insertRange rv => c.from rv && c.moveC && c.moveA
  | .erase => c.moveA
  | .eraseRange => c.moveA
  | .clear => true
  | .popBack => true
  | .reserve => c.moveC
  | .resize => c.dflt && c.moveC
  | .resizeValue => c.copyC
  | .shrink => c.moveC

/-- Types of expressions and results. -/
inductive Ty where
  | proxy | constProxy | iter | constIter
  deriving DecidableEq, Repr

/-- Can the result of a function be initialised so? A prvalue of the same type is the result; iterators convert to const iterators
(data_parallel_vector.hpp:285-288); `const_proxy` has no conversion to `proxy` (173-221), and that from `proxy` copies one, which cannot
be done (192-193, 105). -/
def converts : Ty → Ty → Bool
  | .iter, .constIter => true
  | a, b => a == b

/-- The data members of iterators (data_parallel_vector.hpp:239-240). -/
def iterMembers : List String := ["owner", "index"]

/-- Things in bodies that may fail to compile. -/
inductive Act where
  /-- the operation for the container of each field -/
  | col (v : VOp)
  /-- `element_t<Is>... fields` from `Traits::get<Is>(v)...`, `v` an lvalue or rvalue of type `T` -/
  | param (rv : Bool)
  /-- an object of type `T` from an lvalue or rvalue of type `T` -/
  | make (rv : Bool)
  /-- `T(fields...)`, with lvalues or rvalues -/
  | join (rv : Bool)
  /-- the fields are assigned lvalues or rvalues of their types -/
  | assign (rv : Bool)
  /-- `allocator_type()` -/
  | alloc
  /-- a member of an iterator -/
  | member (n : String)
  /-- a result of type `x` returned as `y` -/
  | ret (x y : Ty)
  deriving DecidableEq, Repr

/-- Does it compile? Making a `T` is making its fields. Language rule, for the bodies below. -/
def Act.ok (a : Al) (fs : List Field) : Act → Bool
  | .col v => fs.all fun f => v.needs a f.caps
  | .param rv => fs.all fun f => f.caps.from rv
  | .make rv => fs.all fun f => f.caps.from rv
  | .join rv => fs.all fun f => f.caps.from rv
  | .assign rv => fs.all fun f => f.caps.assigned rv
  | .alloc => a.dflt
  | .member n => n ∈ iterMembers
  | .ret x y => converts x y

/-- Operations of `data_parallel_vector`, with allocators given to constructors. `rv`: the argument, or what the iterators refer to, is
an rvalue. -/
inductive Op where
  | ctorCount | ctorCountValue | ctorRange (rv : Bool) | ctorList | copyCtor | moveCtor | copyCtorAlloc | moveCtorAlloc
  | copyAssign | moveAssign | listAssign | swap | assignCount | assignRange (rv : Bool) | assignList
  | front (const : Bool) | back (const : Bool) | index (const : Bool)
  | read | moveOut | write (rv : Bool)
  | emplaceBack (rv : Bool) | pushBack (rv : Bool) | emplace (rv : Bool)
  | insert (rv : Bool) | insertCount | insertRange (rv : Bool) | insertList
  | erase | eraseRange | clear | popBack | reserve | resize | resizeValue | shrink
  deriving DecidableEq, Repr

/-- `begin()` and `end()` (data_parallel_vector.hpp:408-419), by whether the container is const. -/
def iterOf (const : Bool) : Ty := if const then .constIter else .iter

/-- `*it` (data_parallel_vector.hpp:243, 289-291). -/
def deref : Ty → Ty
  | .iter => .proxy
  | .constIter => .constProxy
  | t => t

/-- `front`, `operator[]` (data_parallel_vector.hpp:429-436, 445-450): `reference`, or for const containers `const_reference`. -/
def frontBody (const : Bool) : List Act := [.ret (deref (iterOf const)) (if const then .constProxy else .proxy)]

/-- `back` (data_parallel_vector.hpp:437-444): both overloads return `reference`. -/
def backBody (const : Bool) : List Act := [.ret (deref (iterOf const)) .proxy]

/-- `emplace_back(element_t<Is>... fields)` once it has its parameters: they are lvalues (data_parallel_vector.hpp:561-564). -/
def emplaceBackBody : List Act := .col (.emplaceBack false) :: backBody false

/-- `emplace(pos, element_t<Is>... fields)` likewise (data_parallel_vector.hpp:557-560). -/
def emplaceBody : List Act := [.member "index", .col (.emplace false)]

/-- `insert(pos, first, last)` (data_parallel_vector.hpp:610-633): at the end, `reserve`, the first element, which is made as a temporary,
and the others, which are made as local variables. -/
def insertRangeBody (rv : Bool) : List Act :=
  [.param rv] ++ emplaceBackBody ++ [.col .reserve, .ret .iter .constIter, .make rv, .param true] ++ emplaceBody ++ [.ret .iter .constIter, .make rv, .param true] ++
    emplaceBody

/-- The constructor from a range (data_parallel_vector.hpp:373-377); that from an initializer list (384-388, 635-637) inserts the elements of the list, which are const. -/
def ctorRangeBody (rv : Bool) : List Act := .ret .iter .constIter :: insertRangeBody rv

/-- The constructors that make one container for each field and move them into the tuple (data_parallel_vector.hpp:366-372, 378-383). -/
def partsBody (v : VOp) : List Act := [.col v, .col .moveCtor]

/-- The bodies (data_parallel_vector.hpp:83-100, 258-265, 362-450, 557-673). -/
def body : Op → List Act
  | .ctorCount => partsBody .ctorCount
  | .ctorCountValue => partsBody .ctorCountValue
  | .ctorRange rv => ctorRangeBody rv
  | .ctorList => ctorRangeBody false
  | .copyCtor => [.col .copyCtor]
  | .moveCtor => [.col .moveCtor]
  | .copyCtorAlloc => partsBody .copyCtorAlloc
  | .moveCtorAlloc => partsBody .moveCtorAlloc
  | .copyAssign => [.col .copyAssign]
  | .moveAssign => [.col .moveAssign]
  | .listAssign => .alloc :: ctorRangeBody false ++ [.col .moveAssign]
  | .swap => [.col .swap]
  | .assignCount => .alloc :: partsBody .ctorCountValue ++ [.col .moveAssign]
  | .assignRange rv => .alloc :: ctorRangeBody rv ++ [.col .moveAssign]
  | .assignList => .alloc :: ctorRangeBody false ++ [.col .moveAssign]
  | .front c => frontBody c
  | .back c => backBody c
  | .index c => frontBody c
  | .read => [.join false]
  | .moveOut => [.join true]
  | .write rv => [.assign rv]
  | .emplaceBack rv => .param rv :: emplaceBackBody
  | .pushBack rv => .param rv :: emplaceBackBody
  | .emplace rv => .param rv :: emplaceBody
  | .insert rv => .param rv :: emplaceBody
  | .insertCount => [.member "index", .col .insertCount]
  | .insertRange rv => insertRangeBody rv
  | .insertList => insertRangeBody false
  | .erase => [.member "index", .col .erase]
  | .eraseRange => [.member "iters", .member "iters", .col .eraseRange]
  | .clear => [.col .clear]
  | .popBack => [.col .popBack]
  | .reserve => [.col .reserve]
  | .resize => [.col .resize]
  | .resizeValue => [.col .resizeValue]
  | .shrink => [.col .shrink]

/-- Does the operation compile for these fields? -/
def compiles (a : Al) (fs : List Field) (o : Op) : Bool := (body o).all (Act.ok a fs)

end AnyAny.DpvReq
