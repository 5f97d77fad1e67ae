import Verif.Model.TypeList
/-
Memory and lifetime model of `basic_any` (include/anyany/anyany.hpp:1103-1508).

A world contains any objects (at addresses `Nat`), heap blocks, and bookkeeping (object identities,
how often each was destroyed, how often each block was freed). Each C++ function is a function
`World → Res`. Outcomes: normal return, exception, undefined behaviour (`ub`), `std::terminate`.

Simplifications, valid for the whole file:
* types are numbers with a `TyInfo`; values are numbers; copying and moving preserve the value;
* allocators are numbers; two allocators compare equal iff the numbers are equal, or always for
  `is_always_equal` allocators; moving an allocator does not change it (allocator requirements);
* a possibly throwing call consults `faults` at the current tick, so the theorems quantify over every
  schedule of exceptions;
* a failing `assert` is `ub`;
* construction of an object starts by reading its argument, then reuses the storage.
-/
namespace AnyAny.Mem
open AnyAny.TypeList (numberOfFirst findSubsequence)

/-- Methods relevant for `basic_any` itself: `aa::destroy` (anyany.hpp:232), `aa::move` (255),
`noexport::copy_method<Alloc, SooS>` (277; `key = 0` is the instance with this any's own allocator
and buffer size), `aa::type_info` (1759), `aa::equal_to` (1784), `aa::spaceship` (1830), `aa::hash` (344),
and user methods. -/
inductive Method where
  | destroy
  | move
  | copy (key : Nat)
  | typeInfo
  | equalTo
  | spaceship
  | hash
  | user (n : Nat)
deriving DecidableEq, Repr

/-- How a user method takes `self` (`any_method_traits`, noexport/anyany_details.hpp:103-124):
`const&`, mutable `&`, or by value. -/
inductive SelfKind where
  | constRef
  | mutRef
  | byValue
deriving DecidableEq, Repr

/-- Properties of a contained type that the code inspects through `<type_traits>`. The traits are
    read at noexport/anyany_details.hpp:227-230 (`is_fits_in_soo_buffer`),
    noexport/anyany_details.hpp:276-287 (`is_nothrow_copy_constructible`), anyany.hpp:1137-1145
    (`is_nothrow_constructible`). -/
structure TyInfo where
  size : Nat
  align : Nat
  nothrowMove : Bool
  nothrowCopy : Bool
  trivCopy : Bool
  trivDestr : Bool
  /-- every object has a positive size -/
  sizePos : 0 < size := by decide
  /-- a trivially copyable type has a trivial destructor (language rule) -/
  trivOk : trivCopy = true → trivDestr = true := by decide

/-- Static parameters: the template arguments `Alloc`, `SooS`, all types, and the fault schedule.
    (anyany.hpp:1103-1122; the allocator traits are read at 1158-1161, 1199, 1223-1233,
    1255-1259.) -/
structure Cfg where
  /-- `SooS` -/
  soos : Nat
  /-- `alignof(std::max_align_t)`, the alignment of `data` (anyany.hpp:1119) -/
  maxAlign : Nat
  /-- alignment of the memory returned by the byte allocator -/
  allocAlign : Nat
  /-- `is_always_equal` -/
  alwaysEq : Bool
  /-- `propagate_on_container_move_assignment` -/
  pocma : Bool
  /-- `propagate_on_container_copy_assignment` -/
  pocca : Bool
  /-- `copy_requires_alloc<Alloc>()` (noexport/anyany_details.hpp:250-253) -/
  copyNeedsAlloc : Bool
  /-- `select_on_container_copy_construction` -/
  soccc : Nat → Nat
  /-- a default-constructed allocator -/
  defaultAlloc : Nat
  ty : Nat → TyInfo
  /-- does the throwing call number `n` throw? -/
  faults : Nat → Bool
  /-- implementation of user method `m` for type `t`: value → argument → result × new value -/
  impl : Nat → Nat → Nat → Nat → Nat × Nat
  /-- how user method `m` takes self -/
  kind : Nat → SelfKind
  /-- value of an object of type `t` after being moved from -/
  movedFrom : Nat → Nat → Nat
  /-- the implementation of user method `m` for type `t` never throws -/
  methodNothrow : Nat → Nat → Bool := fun _ _ => true
  /-- value that user method `m` with mutable `self` leaves if it throws -/
  partway : Nat → Nat → Nat → Nat → Nat := fun _ _ v _ => v

/-- A contained object: identity (ghost), dynamic type, value. The object under `value_ptr`
    (anyany.hpp:1116); `id` has no counterpart in the code. -/
structure Obj where
  id : Nat
  ty : Nat
  val : Nat
deriving DecidableEq, Repr

/-- The union `{ data[SooS]; size_allocated; }` (anyany.hpp:1117-1121). -/
inductive Buf where
  | raw
  | size (n : Nat)
  | obj (o : Obj)
deriving DecidableEq, Repr

/-- Addresses that `value_ptr` can hold: the buffer of an any, or a heap block. (anyany.hpp:1116,
    1119, 1135.) -/
inductive Ptr where
  | data (a : Nat)
  | blk (b : Nat)
deriving DecidableEq, Repr

/-- `const vtable<Methods...>*`: points to entry `off` of the static table
`vtable_for<ty, table...>` (anyany.hpp:452-458). -/
structure VtPtr where
  ty : Nat
  table : List Method
  off : Nat
deriving DecidableEq, Repr

/-- An object of class `basic_any<Alloc, SooS, ms...>` (anyany.hpp:1115-1122). -/
structure AnySt where
  ms : List Method
  vt : Option VtPtr
  vp : Ptr
  buf : Buf
  al : Nat
deriving DecidableEq, Repr

/-- A heap block: requested size, allocator that provided it, object inside. The memory obtained
    at anyany.hpp:1135, 1395, 1483 and noexport/anyany_details.hpp:275, 310; the allocator is
    recorded to check 1141, 1486, 1505. -/
structure Blk where
  size : Nat
  al : Nat
  cell : Option Obj
deriving DecidableEq, Repr

/-- The state of all `basic_any` objects (members at anyany.hpp:1115-1122) and of the memory they
    allocated; the counters have no counterpart in the code. -/
structure World where
  anys : Nat → Option AnySt
  blks : Nat → Option Blk
  nextBlk : Nat
  nextObj : Nat
  /-- type of object `id` (ghost) -/
  born : Nat → Nat
  /-- number of destructor runs of object `id` (ghost) -/
  dtors : Nat → Nat
  /-- number of deallocations of block `b` (ghost) -/
  frees : Nat → Nat
  /-- number of copy constructions of contained objects (ghost) -/
  copies : Nat
  /-- number of potentially throwing calls so far -/
  tick : Nat

/-- The empty world. Semantics of C++ itself, no code of the library; the state before the first
    constructor (anyany.hpp:1190) runs. -/
def World.init : World where
  anys := fun _ => none
  blks := fun _ => none
  nextBlk := 0
  nextObj := 0
  born := fun _ => 0
  dtors := fun _ => 0
  frees := fun _ => 0
  copies := 0
  tick := 0

/-- Semantics of C++ itself, no code of the library; the ways a call of a function of
    anyany.hpp:1103-1508 can end: return, exception, undefined behaviour, `std::terminate`. -/
inductive Res (α : Type) where
  | ok (a : α) (w : World)
  | exn (w : World)
  | ub
  | term

/-- Semantics of C++ itself, no code of the library; a statement of anyany.hpp:1103-1508 as a
    transformer of the state. -/
abbrev M (α : Type) := World → Res α

/-- Semantics of C++ itself, no code of the library; the empty statement, for
    anyany.hpp:1103-1508. Semantics of C++ itself, no code of the library; sequencing of
    statements, for anyany.hpp:1103-1508; an exception, UB or termination stops it. -/
@[inline] def M.pure {α} (a : α) : M α := fun w => .ok a w
@[inline] def M.bind {α β} (m : M α) (f : α → M β) : M β := fun w =>
  match m w with
  | .ok a w' => f a w'
  | .exn w' => .exn w'
  | .ub => .ub
  | .term => .term

instance : Monad M where
  pure := M.pure
  bind := M.bind

/-- Semantics of C++ itself, no code of the library; an undefined operation, or a violated
    `assert` (anyany.hpp:1467, 1504). -/
def ub {α} : M α := fun _ => .ub
/-- Semantics of C++ itself, no code of the library; `throw` (rethrown at anyany.hpp:1142-1145,
    1484-1488, noexport/anyany_details.hpp:283-286). -/
def throwExn {α} : M α := fun w => .exn w
/-- Semantics of C++ itself, no code of the library; reading the state, for anyany.hpp:1103-1508.
    -/
def getW : M World := fun w => .ok w w

/-- function update Semantics of C++ itself, no code of the library; assignment to members, for
    anyany.hpp:1103-1508. -/
def upd {β : Type} (f : Nat → β) (k : Nat) (v : β) : Nat → β := fun x => if x = k then v else f x

/-- Exception at a `noexcept` boundary calls `std::terminate`. Semantics of C++ itself, no code of
    the library; `noexcept(c)` on the functions at anyany.hpp:1215, 1219, 1281, 1297, 1310, 1346,
    1376, 1440, 1466. -/
def noexceptIf {α} (b : Bool) (m : M α) : M α := fun w =>
  match m w with
  | .exn w' => if b then .term else .exn w'
  | r => r

/-- `scope_failure` / `catch (...) { cleanup; throw; }` (noexport/anyany_details.hpp:417-432). -/
def onFail {α} (m : M α) (cleanup : M Unit) : M α := fun w =>
  match m w with
  | .exn w' =>
    match cleanup w' with
    | .ok _ w'' => .exn w''
    | .exn _ => .term
    | .ub => .ub
    | .term => .term
  | r => r

/-- Run `fin` (a destructor of a local) after `m`, on normal and on exceptional exit. Semantics of
    C++ itself, no code of the library; destructors run during unwinding; for `scope_failure`,
    noexport/anyany_details.hpp:417-432, used at anyany.hpp:1140, 1485, and for local objects (1254). -/
def finallyDo {α} (m : M α) (fin : M Unit) : M α := fun w =>
  match m w with
  | .ok a w' =>
    match fin w' with
    | .ok _ w'' => .ok a w''
    | .exn w'' => .exn w''
    | .ub => .ub
    | .term => .term
  | .exn w' =>
    match fin w' with
    | .ok _ w'' => .exn w''
    | .exn _ => .term
    | .ub => .ub
    | .term => .term
  | .ub => .ub
  | .term => .term

variable (cfg : Cfg)

/-- A call that may throw. Semantics of C++ itself, no code of the library; a call into user code
    (constructor of the contained type, allocator) that may throw: anyany.hpp:1135, 1395, 1460,
    1483, noexport/anyany_details.hpp:267-290. -/
def throwPoint : M Unit := fun w =>
  if cfg.faults w.tick then .exn { w with tick := w.tick + 1 } else .ok () { w with tick := w.tick + 1 }

/-- A call that may throw unless `nothrow`. Semantics of C++ itself, no code of the library; the
    same unless the operation is `noexcept` (noexport/anyany_details.hpp:277; anyany.hpp:1137). -/
def mayThrow (nothrow : Bool) : M Unit := if nothrow then pure () else throwPoint cfg

/-- allocator comparison `alloc == other.alloc` (anyany.hpp:1228, 1233, 1257). -/
def allocEq (x y : Nat) : Bool := cfg.alwaysEq || x == y

/-- `is_fits_in_soo_buffer<T, SooS>` (noexport/anyany_details.hpp:227-230). -/
def fits (t : Nat) : Bool :=
  decide ((cfg.ty t).align ≤ cfg.maxAlign) && (cfg.ty t).nothrowMove && decide ((cfg.ty t).size ≤ cfg.soos)

/-- `movable_alloc()` (anyany.hpp:1158-1161). -/
def movableAlloc : Bool := cfg.alwaysEq || cfg.pocma

/-- Semantics of C++ itself, no code of the library; access to a `basic_any` object that is alive
    (members anyany.hpp:1115-1122). -/
def getAny (a : Nat) : M AnySt := fun w =>
  match w.anys a with
  | some s => .ok s w
  | none => .ub

/-- Semantics of C++ itself, no code of the library; writing the members of a `basic_any`
    (anyany.hpp:1115-1122). -/
def setAny (a : Nat) (s : AnySt) : M Unit := fun w => .ok () { w with anys := upd w.anys a (some s) }

/-- Semantics of C++ itself, no code of the library; writing some members of a `basic_any`
    (anyany.hpp:1115-1122). -/
def modifyAny (a : Nat) (f : AnySt → AnySt) : M Unit := do
  let s ← getAny a
  setAny a (f s)

/-- May this storage be reused or released without losing an object that needs destruction?
    Semantics of C++ itself, no code of the library; whether forgetting the object skips a
    destructor with an effect; `destroy` is a no-op for trivial types (anyany.hpp:238-251). -/
def Obj.needsDtor (o : Obj) : Bool := !(cfg.ty o.ty).trivDestr

/-- Semantics of C++ itself, no code of the library; storage may be reused only when no object
    with a non-trivial destructor lives in it; precondition of noexport/anyany_details.hpp:171-177
    and of anyany.hpp:1127-1150. -/
def cellFree : Option Obj → Bool
  | none => true
  | some o => !o.needsDtor cfg

/-- The union of `data` and `size_allocated` (anyany.hpp:1117-1121), read as an object. -/
def Buf.cell : Buf → Option Obj
  | .obj o => some o
  | _ => none

/-- Buffer contents after an object was stored or destroyed. The union of `data` and
    `size_allocated` (anyany.hpp:1117-1121), written as an object. -/
def Buf.ofCell : Option Obj → Buf
  | some o => .obj o
  | none => .raw

/-- Object stored at an address. `*static_cast<T*>(value_ptr)` (anyany.hpp:1116, 1460): the object
    at an address. -/
def cellAt (w : World) : Ptr → Option Obj
  | .data a => (w.anys a).bind (fun s => s.buf.cell)
  | .blk b => (w.blks b).bind (fun k => k.cell)

/-- Store an object (or garbage) at an address; `ub` if there is no storage. Semantics of C++
    itself, no code of the library; starting or ending the lifetime of the object at an address
    (noexport/anyany_details.hpp:171-181). -/
def setCell (p : Ptr) (c : Option Obj) : M Unit := fun w =>
  match p with
  | .data a =>
    match w.anys a with
    | some s => .ok () { w with anys := upd w.anys a (some { s with buf := .ofCell c }) }
    | none => .ub
  | .blk b =>
    match w.blks b with
    | some k => .ok () { w with blks := upd w.blks b (some { k with cell := c }) }
    | none => .ub

/-- Is there storage at `p` that is big enough and aligned for type `t`, without an object that still
needs destruction? Semantics of C++ itself, no code of the library; placement new
  (noexport/anyany_details.hpp:171-177) needs storage of sufficient size and alignment. -/
def storageOk (w : World) (p : Ptr) (t : Nat) : Bool :=
  match p with
  | .data a =>
    match w.anys a with
    | some s => cellFree cfg s.buf.cell && decide ((cfg.ty t).size ≤ cfg.soos) &&
        decide ((cfg.ty t).align ≤ cfg.maxAlign)
    | none => false
  | .blk b =>
    match w.blks b with
    | some k => cellFree cfg k.cell && decide ((cfg.ty t).size ≤ k.size) &&
        decide ((cfg.ty t).align ≤ cfg.allocAlign)
    | none => false

/-- A constructor argument: a value, or a reference to an object read at construction time. The
    argument `Args&&...` of constructors and `emplace` (anyany.hpp:1281-1373), reduced to a value
    that is copied or moved from, or an exception-free literal. -/
inductive Arg where
  | lit (v : Nat)
  | ref (p : Ptr)
deriving DecidableEq, Repr

/-- `std::forward<Args>(args)...` (anyany.hpp:1460), where the argument may refer into an any. -/
def evalArg (arg : Arg) : M Nat := fun w =>
  match arg with
  | .lit v => .ok v w
  | .ref p =>
    match cellAt w p with
    | some o => .ok o.val w
    | none => .ub

/-- Register a fresh object identity. Semantics of C++ itself, no code of the library; a new
    object identity for noexport/anyany_details.hpp:171-177. -/
def freshObj (t v : Nat) : M Obj := fun w =>
  .ok ⟨w.nextObj, t, v⟩ { w with nextObj := w.nextObj + 1, born := upd w.born w.nextObj t }

/-- Placement new of a `t` at `p`: `noexport::construct_at` (noexport/anyany_details.hpp:171-177) or
`alloc_traits::construct` (anyany.hpp:1460). If the constructor throws, the storage is garbage. -/
def constructAt (p : Ptr) (t : Nat) (arg : Arg) (nothrow : Bool) : M Unit := do
  let w ← getW
  if storageOk cfg w p t then
    let v ← evalArg arg
    onFail (mayThrow cfg nothrow) (setCell p none)
    let o ← freshObj t v
    setCell p (some o)
  else ub

/-- `noexport::destroy_at` (noexport/anyany_details.hpp:178-181). -/
def destroyAt (p : Ptr) (t : Nat) : M Unit := fun w =>
  match cellAt w p with
  | some o =>
    if o.ty = t then
      setCell p none { w with dtors := upd w.dtors o.id (w.dtors o.id + 1) }
    else .ub
  | none => .ub

/-- `alloc.allocate(n)`. `alloc.allocate` (anyany.hpp:1135, 1395, 1483;
    noexport/anyany_details.hpp:275, 310); the allocator is the user's. -/
def allocate (al n : Nat) : M Nat := do
  throwPoint cfg
  fun w => .ok w.nextBlk { w with
    nextBlk := w.nextBlk + 1
    blks := upd w.blks w.nextBlk (some ⟨n, al, none⟩) }

/-- `alloc.deallocate(p, n)`: `ub` unless `p` is a live block of that size, provided by an equal
allocator, that holds no object needing destruction. `alloc.deallocate` (anyany.hpp:1141, 1486,
  1505; noexport/anyany_details.hpp:284); the allocator is the user's. -/
def deallocate (al : Nat) (p : Ptr) (n : Nat) : M Unit := fun w =>
  match p with
  | .data _ => .ub
  | .blk b =>
    match w.blks b with
    | some k =>
      if k.size = n && allocEq cfg k.al al && cellFree cfg k.cell then
        .ok () { w with blks := upd w.blks b none, frees := upd w.frees b (w.frees b + 1) }
      else .ub
    | none => .ub

/-- reading `size_allocated` Reading `size_allocated` (anyany.hpp:1120, 1403, 1483, 1505). -/
def readSize (a : Nat) : M Nat := fun w =>
  match w.anys a with
  | some s =>
    match s.buf with
    | .size n => .ok n w
    | _ => .ub
  | none => .ub

/-- writing `size_allocated` (activates the union member); `ub` over a live object Writing
    `size_allocated` (anyany.hpp:1120, 1136, 1398, 1492; noexport/anyany_details.hpp:288, 312). -/
def writeSize (a n : Nat) : M Unit := fun w =>
  match w.anys a with
  | some s =>
    if cellFree cfg s.buf.cell then .ok () { w with anys := upd w.anys a (some { s with buf := .size n }) }
    else .ub
  | none => .ub

/-- `memory_allocated()` (anyany.hpp:1498-1500): `value_ptr != data`. -/
def memAlloc (a : Nat) (s : AnySt) : Bool := s.vp != .data a

/-- `invoke<Method>(any)` on the vtable: `mate::get_vtable_ptr(any)->invoke<Method>()`
(anyany.hpp:387-403, 1059-1069). Returns the type whose function is stored in the entry; `ub` for a
null vtable (the assert at 1022/1066) or if the entry reached is not that of the method. A method that
is not in the list does not compile in C++ (`static_assert(has_method<Method>)`); it is `ub` here. -/
def slotTy (s : AnySt) (m : Method) : M Nat :=
  match s.vt with
  | none => ub
  | some v =>
    match numberOfFirst m s.ms with
    | none => ub
    | some i => if v.table[v.off + i]? = some m then pure v.ty else ub

/-- `destroy_value()` (anyany.hpp:1383-1388) with `aa::destroy` (232-253): the vtable stores a no-op
for trivially destructible types, so nothing happens to the object then. -/
def destroyValue (a : Nat) : M Unit := do
  let s ← getAny a
  if s.vt.isNone then pure ()
  else
    let t ← slotTy s .destroy
    if (cfg.ty t).trivDestr then pure () else destroyAt s.vp t
    modifyAny a (fun s => { s with vt := none })

/-- `deallocate_memory()` (anyany.hpp:1502-1507). -/
def deallocateMemory (a : Nat) : M Unit := do
  let s ← getAny a
  if s.vt.isSome || !memAlloc a s then ub
  else
    let n ← readSize a
    deallocate cfg s.al s.vp n
    modifyAny a (fun s => { s with vp := .data a })

/-- `reset()` (anyany.hpp:1376-1380). -/
def reset (a : Nat) : M Unit := do
  destroyValue cfg a
  let s ← getAny a
  if memAlloc a s then deallocateMemory cfg a else pure ()

/-- `construct_value<T>(args...)` (anyany.hpp:1456-1462). -/
def constructValue (a t : Nat) (arg : Arg) (nothrow : Bool) : M Unit := do
  let s ← getAny a
  constructAt cfg s.vp t arg nothrow
  modifyAny a (fun s => { s with vt := some ⟨t, s.ms, 0⟩ })

/-- `emplace_in_empty<T, ForceAllocate>(args...)` (anyany.hpp:1127-1148). -/
def emplaceInEmpty (a t : Nat) (force : Bool) (arg : Arg) (nothrow : Bool) : M Unit := do
  if fits cfg t && !force then constructValue cfg a t arg nothrow
  else
    let s ← getAny a
    let b ← allocate cfg s.al (cfg.ty t).size
    modifyAny a (fun s => { s with vp := .blk b })
    writeSize cfg a (cfg.ty t).size
    if nothrow then constructValue cfg a t arg nothrow
    else
      onFail (constructValue cfg a t arg nothrow) (do
        let s ← getAny a
        deallocate cfg s.al s.vp (cfg.ty t).size
        modifyAny a (fun s => { s with vp := .data a }))

/-- `emplace_decayed<T>(args...)` (anyany.hpp:1438-1454), without its return value. -/
def emplaceDecayed (a t : Nat) (arg : Arg) (nothrow : Bool) : M Unit :=
  noexceptIf (nothrow && fits cfg t) do
    destroyValue cfg a
    let s ← getAny a
    if !memAlloc a s then emplaceInEmpty cfg a t false arg nothrow
    else
      let n ← readSize a
      if n < (cfg.ty t).size then
        deallocateMemory cfg a
        emplaceInEmpty cfg a t false arg nothrow
      else constructValue cfg a t arg nothrow

/-- `emplace<T>(args...)` (anyany.hpp:1280-1294) and `operator=(V&&)` (1271-1275). -/
def emplace (a t : Nat) (arg : Arg) (nothrow : Bool) : M Unit :=
  noexceptIf (nothrow && fits cfg t) (emplaceDecayed cfg a t arg nothrow)

/-- `replace_with_bytes(bytes)` (anyany.hpp:1391-1400). -/
def replaceWithBytes (a n : Nat) : M Unit := do
  destroyValue cfg a
  let s ← getAny a
  let cap ← if memAlloc a s then readSize a else pure cfg.soos
  if cap ≥ n then pure ()
  else
    let b ← allocate cfg s.al n
    if memAlloc a s then deallocateMemory cfg a else pure ()
    modifyAny a (fun s => { s with vp := .blk b })
    writeSize cfg a n

/-- `noexport::relocate<T>` / `relocate_trivial<sizeof(T)>` as selected by `aa::move::do_value<T>`
(anyany.hpp:255-269, noexport/anyany_details.hpp:232-248). `noexcept`. -/
def relocate (t : Nat) (src dest : Ptr) : M Unit :=
  noexceptIf true do
    let w ← getW
    match cellAt w src with
    | none => ub
    | some o =>
      if o.ty = t then
        if (cfg.ty t).trivCopy && (cfg.ty t).trivDestr then
          constructAt cfg dest t (.ref src) true
        else
          constructAt cfg dest t (.ref src) (cfg.ty t).nothrowMove
          destroyAt src t
      else ub

/-- First `copy_method<A, N>` in the method list, whatever its parameters
(`some_copy_method`, anyany.hpp:319-327). -/
def someCopyMethod : List Method → Option Method
  | [] => none
  | .copy k :: _ => some (.copy k)
  | _ :: ms => someCopyMethod ms

/-- `get_move_fn()` (anyany.hpp:1431-1436): the type whose `relocate` is in the vtable. -/
def getMoveFn (s : AnySt) : M Nat :=
  if s.ms.contains .move then slotTy s .move
  else
    match someCopyMethod s.ms with
    | some m => slotTy s m
    | none => ub

/-- `subtable_ptr<ToMethods...>(ptr)` (anyany.hpp:417-442); a list without the sublist does not
compile in C++, `ub` here. -/
def subtablePtr (msTo msFrom : List Method) (v : VtPtr) : M VtPtr :=
  if msTo = msFrom then pure v
  else
    match findSubsequence msTo msFrom with
    | some i => pure { v with off := v.off + i }
    | none => ub

/-- `move_value_from<MemoryMaybeReused>(other)` (anyany.hpp:1464-1496); `a` is `this`, `o` is
`other`. -/
def moveValueFrom (reuse : Bool) (a o : Nat) : M Unit :=
  noexceptIf reuse do
    let s ← getAny a
    if s.vt.isSome || memAlloc a s then ub
    else
      let t ← getAny o
      match t.vt with
      | none => pure ()
      | some v =>
        if cfg.soos = 0 then
          modifyAny o (fun t => { t with vp := .data o })
          modifyAny a (fun s => { s with vp := t.vp })
          let n ← readSize o
          writeSize cfg a n
        else if !memAlloc o t then
          let ty ← getMoveFn t
          relocate cfg ty t.vp s.vp
        else if reuse then
          modifyAny o (fun t => { t with vp := .data o })
          modifyAny a (fun s => { s with vp := t.vp })
          let n ← readSize o
          writeSize cfg a n
        else
          let n ← readSize o
          let b ← allocate cfg s.al n
          modifyAny a (fun s => { s with vp := .blk b })
          writeSize cfg a n
          onFail (do
              let ty ← getMoveFn t
              relocate cfg ty t.vp (.blk b))
            (do
              let s ← getAny a
              let n ← readSize o
              deallocate cfg s.al s.vp n
              modifyAny a (fun s => { s with vp := .data a }))
        let v' ← subtablePtr s.ms t.ms v
        modifyAny a (fun s => { s with vt := some v' })
        modifyAny o (fun t => { t with vt := none })

/-- The storage of an any object disappears (end of scope, or constructor left by an exception).
    Semantics of C++ itself, no code of the library; end of the lifetime of the members of a
    `basic_any` after `~basic_any` (anyany.hpp:1192-1194). -/
def dropSlot (a : Nat) : M Unit := fun w => .ok () { w with anys := upd w.anys a none }

/-- A constructor: the members are initialised (anyany.hpp:1115-1122: null vtable, `value_ptr = data`),
then the body runs; if it throws the object never existed (its destructor does not run). `ub` if the
storage is occupied. -/
def construct (a : Nat) (ms : List Method) (al : Nat) (body : M Unit) : M Unit := do
  let w ← getW
  if (w.anys a).isSome then ub
  else
    setAny a ⟨ms, none, .data a, .raw, al⟩
    onFail body (dropSlot a)

/-- `basic_any()` (anyany.hpp:1190) and `basic_any(allocator_arg, alloc)` (1314-1315). -/
def allocCtor (a : Nat) (ms : List Method) (al : Nat) : M Unit := construct a ms al (pure ())

/-- `basic_any(in_place_type<T>, args...)`, `basic_any(T&&)`, `basic_any(allocator_arg, alloc, T&&)`
(anyany.hpp:1295-1322). -/
def valueCtor (a : Nat) (ms : List Method) (al t : Nat) (arg : Arg) (nothrow : Bool) : M Unit :=
  noexceptIf (nothrow && fits cfg t)
    (construct a ms al (emplaceInEmpty cfg a t false arg nothrow))

/-- `basic_any(force_stable_pointers, ...)` (anyany.hpp:1352-1372). -/
def forceCtor (a : Nat) (ms : List Method) (t : Nat) (arg : Arg) (nothrow : Bool) : M Unit :=
  noexceptIf (nothrow && fits cfg t)
    (construct a ms cfg.defaultAlloc (emplaceInEmpty cfg a t true arg nothrow))

/-- Count a copy construction of a contained object (ghost). Semantics of C++ itself, no code of
    the library; ghost counter of copies of contained objects (noexport/anyany_details.hpp:269,
    278, 281, 301, 311). -/
def countCopy : M Unit := fun w => .ok () { w with copies := w.copies + 1 }

/-- The function stored by `copy_method<Alloc, SooS>::do_value<T>` (anyany.hpp:277-313):
`trivial_copy_small_fn`, `trivial_copy_big_fn` or `copy_fn` (noexport/anyany_details.hpp:255-316).
`dest` is the buffer of any `a`; returns the address of the copy. With an empty allocator a
default-constructed one is used. -/
def copyFn (t : Nat) (src : Ptr) (a : Nat) (dest : Ptr) (al : Nat) : M Ptr := do
  let al := if cfg.copyNeedsAlloc then al else cfg.defaultAlloc
  let w ← getW
  match cellAt w src with
  | none => ub
  | some o =>
    if o.ty = t then
      countCopy
      if (cfg.ty t).trivCopy && fits cfg t then
        constructAt cfg dest t (.ref src) true
        pure dest
      else if (cfg.ty t).trivCopy then
        let b ← allocate cfg al (cfg.ty t).size
        constructAt cfg (.blk b) t (.ref src) true
        writeSize cfg a (cfg.ty t).size
        pure (.blk b)
      else if fits cfg t then
        constructAt cfg dest t (.ref src) (cfg.ty t).nothrowCopy
        pure dest
      else
        let b ← allocate cfg al (cfg.ty t).size
        if (cfg.ty t).nothrowCopy then constructAt cfg (.blk b) t (.ref src) true
        else
          onFail (constructAt cfg (.blk b) t (.ref src) false)
            (deallocate cfg al (.blk b) (cfg.ty t).size)
        writeSize cfg a (cfg.ty t).size
        pure (.blk b)
    else ub

/-- Copy constructor (anyany.hpp:1198-1209) and transmutating copy constructor (1326-1341): they
differ only in `subtable_ptr`, which is the identity for equal method lists. -/
def copyCtor (a : Nat) (ms : List Method) (o : Nat) : M Unit := do
  let t ← getAny o
  construct a ms (cfg.soccc t.al) do
    match t.vt with
    | none => pure ()
    | some v =>
      let s ← getAny a
      let ty ← slotTy t (.copy 0)
      let p ← copyFn cfg ty t.vp a s.vp s.al
      modifyAny a (fun s => { s with vp := p })
      let v' ← subtablePtr ms t.ms v
      modifyAny a (fun s => { s with vt := some v' })

/-- Move constructor (anyany.hpp:1215-1218). -/
def moveCtor (a o : Nat) : M Unit :=
  noexceptIf (movableAlloc cfg) do
    let t ← getAny o
    construct a t.ms t.al (moveValueFrom cfg true a o)

/-- Transmutating move constructor (anyany.hpp:1342-1348): the allocator is default-constructed. -/
def transMoveCtor (a : Nat) (ms : List Method) (o : Nat) : M Unit :=
  noexceptIf (movableAlloc cfg)
    (construct a ms cfg.defaultAlloc (moveValueFrom cfg true a o))

/-- Destructor (anyany.hpp:1192-1194). -/
def destructor (a : Nat) : M Unit :=
  noexceptIf true do
    reset cfg a
    dropSlot a

/-- `operator=(basic_any&&)` (anyany.hpp:1219-1251). -/
def moveAssign (a o : Nat) : M Unit :=
  noexceptIf (movableAlloc cfg) do
    if a = o then pure ()
    else if cfg.alwaysEq then
      reset cfg a
      moveValueFrom cfg true a o
    else if cfg.pocma then
      reset cfg a
      let s ← getAny a
      let t ← getAny o
      if s.al ≠ t.al then modifyAny a (fun s => { s with al := t.al }) else pure ()
      moveValueFrom cfg true a o
    else
      destroyValue cfg a
      let s ← getAny a
      let t ← getAny o
      if s.al ≠ t.al then
        let canReuse ←
          if t.vt.isSome && memAlloc o t && memAlloc a s then do
            let n ← readSize a
            let k ← readSize o
            pure (decide (n ≥ k))
          else pure false
        if canReuse then
          let ty ← getMoveFn t
          relocate cfg ty t.vp s.vp
          modifyAny a (fun s => { s with vt := t.vt })
          modifyAny o (fun t => { t with vt := none })
        else
          if memAlloc a s then deallocateMemory cfg a else pure ()
          moveValueFrom cfg false a o
      else
        reset cfg a
        moveValueFrom cfg true a o

/-- `operator=(const basic_any&)` (anyany.hpp:1253-1264); `tmp` is the address of the local
`value`. -/
def copyAssign (a o tmp : Nat) : M Unit := do
  let t ← getAny o
  copyCtor cfg tmp t.ms o
  finallyDo (do
      if !cfg.alwaysEq && cfg.pocca then
        let s ← getAny a
        let t ← getAny o
        if s.al ≠ t.al then
          reset cfg a
          modifyAny a (fun s => { s with al := t.al })
        else pure ()
      else pure ()
      moveAssign cfg a tmp)
    (destructor cfg tmp)

/-- `std::swap(a, b)` instantiated for a movable type: `T tmp(move(a)); a = move(b); b = move(tmp);`
(not part of the library; it uses the library's move operations). They are at anyany.hpp:1215-1251. -/
def swapAny (a b tmp : Nat) : M Unit := do
  moveCtor cfg tmp a
  finallyDo (do
      moveAssign cfg a b
      moveAssign cfg b tmp)
    (destructor cfg tmp)

/-- `const_poly_ref<ms...>` / `poly_ref<ms...>` to the value of the any at `o`: `*(&any)`
(anyany.hpp:832-845, 705-707), converted to fewer methods (587-600): vtable pointer and address. Dereferencing
the null pointer obtained from an empty any is `ub`. -/
def refTo (o : Nat) (ms : List Method) : M (VtPtr × Ptr) := do
  let t ← getAny o
  match t.vt with
  | none => ub
  | some v =>
    let v' ← subtablePtr ms t.ms v
    pure (v', t.vp)

/-- `materialize(const_poly_ref<ms...>, alloc)` (anyany.hpp:1512-1527); `a` is the address of `result`.
The vtable pointer is set before the value is copied; if the copy throws, `~basic_any` of `result` runs.
The return by value is elided. (With a stateful allocator the C++ code does not compile, see Model/CopyCall.lean;
the model covers it as intended.) -/
def materialize (a : Nat) (ms : List Method) (al : Nat) (r : VtPtr × Ptr) : M Unit := do
  allocCtor a ms al
  onFail (do
      modifyAny a (fun s => { s with vt := some r.1 })
      let s ← getAny a
      let ty ← slotTy s (.copy 0)
      let p ← copyFn cfg ty r.2 a s.vp s.al
      modifyAny a (fun s => { s with vp := p }))
    (destructor cfg a)

/-! Observers -/

/-- `has_value()` (anyany.hpp:1418-1420). -/
def hasValue (a : Nat) : M Bool := do
  let s ← getAny a
  pure s.vt.isSome

/-- `is_stable_pointers()` (anyany.hpp:1414-1416). -/
def isStablePointers (a : Nat) : M Bool := do
  let s ← getAny a
  pure (memAlloc a s)

/-- `capacity()` (anyany.hpp:1401-1403). -/
def capacity (a : Nat) : M Nat := do
  let s ← getAny a
  if memAlloc a s then readSize a else pure cfg.soos

/-- `sizeof_now()` (anyany.hpp:1424-1428). -/
def sizeofNow (a : Nat) : M Nat := do
  let s ← getAny a
  if s.vt.isNone then pure 0
  else if memAlloc a s then readSize a else pure cfg.soos

/-- `get_allocator()` (anyany.hpp:1211-1213). -/
def getAllocator (a : Nat) : M Nat := do
  let s ← getAny a
  pure s.al

/-- The method whose vtable entry gives the type descriptor. The plugins of `aa::type_info`, `aa::equal_to`
and `aa::spaceship` all declare `type_descriptor()` (anyany.hpp:1769-1779, 1824, 1871); that of `equal_to`
inherits from that of `type_info` (1802) and that of `spaceship` from that of `equal_to` (1849), so
`inheritor_without_duplicates` keeps the most derived one (see C29), and name lookup finds it. -/
def descMethod (ms : List Method) : Option Method :=
  if ms.contains .spaceship then some .spaceship
  else if ms.contains .equalTo then some .equalTo
  else if ms.contains .typeInfo then some .typeInfo
  else none

/-- `invoke<type_info>(self)`, `invoke<equal_to>(self).desc` or `invoke<spaceship>(self).desc`
(anyany.hpp:1779, 1824, 1871). Without any of these methods there is no `type_descriptor()`; `ub` here. -/
def descTy (s : AnySt) : M Nat :=
  match descMethod s.ms with
  | none => ub
  | some m => slotTy s m

/-- `type_descriptor()` (anyany.hpp:1769-1779, 1824, 1871): `none` is the descriptor of `void`. Descriptors
are type identities here (see C42). -/
def typeDescriptor (a : Nat) : M (Option Nat) := do
  let s ← getAny a
  if s.vt.isNone then pure none
  else
    let t ← descTy s
    pure (some t)

/-- `any_cast<T>(any*)` (anyany.hpp:1579-1601): address of the value, or null. -/
def anyCastPtr (a t : Nat) : M (Option Ptr) := do
  let d ← typeDescriptor a
  if d = some t then do
    let s ← getAny a
    pure (some s.vp)
  else pure none

/-- Reading the object of type `t` at `p` (dereferencing a `T*`): `ub` if there is none. Semantics
    of C++ itself, no code of the library; reading the contained object through `value_ptr`
    (anyany.hpp:1116). -/
def readObj (p : Ptr) (t : Nat) : M Obj := fun w =>
  match cellAt w p with
  | some o => if o.ty = t then .ok o w else .ub
  | none => .ub

/-- Assigning through a `T&` obtained from `any_cast`. Semantics of C++ itself, no code of the
    library; writing the contained object through `value_ptr` (anyany.hpp:1116). -/
def writeObj (p : Ptr) (t v : Nat) : M Unit := do
  let o ← readObj p t
  setCell p (some { o with val := v })

/-- `any_cast<T>(any&)` (anyany.hpp:1602-1620), value form: copies the value or throws `bad_cast`. -/
def anyCastCopy (a t : Nat) : M Nat := do
  match ← anyCastPtr a t with
  | none => throwExn
  | some p =>
    let o ← readObj p t
    mayThrow cfg (cfg.ty t).nothrowCopy
    pure o.val

/-- `any_cast<T>(any&&)`, value form (anyany.hpp:1616-1617): moves the value out; the any still
contains the moved-from object. -/
def anyCastMove (a t : Nat) : M Nat := do
  match ← anyCastPtr a t with
  | none => throwExn
  | some p =>
    let o ← readObj p t
    mayThrow cfg (cfg.ty t).nothrowMove
    writeObj p t (cfg.movedFrom t o.val)
    pure o.val

/-- `invoke<Method>(any, args...)` (anyany.hpp:1013-1031) reaching `invoker_for<T, Method>::value`
(177-193). The implementation of the method is user code that may throw; the copy that a method with
`self` by value works on is a temporary object and not modelled further. -/
def invokeUser (a m arg : Nat) : M Nat := do
  let s ← getAny a
  let t ← slotTy s (.user m)
  let o ← readObj s.vp t
  match cfg.kind m with
  | .constRef =>
    mayThrow cfg (cfg.methodNothrow m t)
    pure (cfg.impl m t o.val arg).1
  | .mutRef =>
    onFail (mayThrow cfg (cfg.methodNothrow m t)) (writeObj s.vp t (cfg.partway m t o.val arg))
    writeObj s.vp t (cfg.impl m t o.val arg).2
    pure (cfg.impl m t o.val arg).1
  | .byValue =>
    mayThrow cfg (cfg.ty t).nothrowCopy
    mayThrow cfg (cfg.methodNothrow m t)
    pure (cfg.impl m t o.val arg).1

end AnyAny.Mem
