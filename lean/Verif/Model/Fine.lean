import Verif.Spec.AnyHist
/-
The functions of Model/AnyMem.lean, access by access: which memory locations they read and write, one after the other. This is the same code
(include/anyany/anyany.hpp:1103-1508), with the same simplifications; Lemmas/Fine.lean proves for every function that performing its accesses
in sequence is the function of Model/AnyMem.lean. It is needed for threads: between two accesses of one thread, other threads may
perform any number of theirs.

A location is an any object (with its buffer) or a memory block. An access to a part of it counts as an access to all of it, so that there are
at least the conflicts there are in the code. Object identities, numbers of destructor calls and so on are bookkeeping of the model, not
memory.
-/
namespace AnyAny.Fine
open AnyAny.TypeList (numberOfFirst findSubsequence)
open AnyAny.Mem (Method SelfKind TyInfo Cfg Obj Buf Ptr VtPtr AnySt Blk World Res M upd Arg Op ArgSrc cellAt cellFree allocEq fits movableAlloc memAlloc
  someCopyMethod)

/-- Memory that a thread can access. The members of a `basic_any` (anyany.hpp:1115-1122), or
    memory it allocated (1135, 1395, 1483). -/
inductive Loc where
  | any (a : Nat)
  | blk (b : Nat)
deriving DecidableEq, Repr

/-- The location that contains an address. `value_ptr` points to `data` or to allocated memory
    (anyany.hpp:1116-1121). -/
def locOf : Ptr → Loc
  | .data a => .any a
  | .blk b => .blk b

/-- What a thread does in one step. The accesses of the functions of anyany.hpp:1103-1508 to
    members, allocated memory and the allocator. -/
inductive Act : Type → Type where
  /-- read the members of an any object -/
  | getAny (a : Nat) : Act AnySt
  /-- initialise the members of a new any object -/
  | newAny (a : Nat) (s : AnySt) : Act Unit
  /-- write the members of an any object -/
  | setAny (a : Nat) (s : AnySt) : Act Unit
  /-- the storage of an any object disappears -/
  | dropSlot (a : Nat) : Act Unit
  /-- read `size_allocated` -/
  | readSize (a : Nat) : Act Nat
  /-- write `size_allocated` -/
  | writeSize (a n : Nat) : Act Unit
  /-- read the object at an address -/
  | readCell (p : Ptr) : Act Obj
  /-- begin the construction of a `t` -/
  | claim (p : Ptr) (t : Nat) : Act Unit
  /-- write the object at an address -/
  | setCell (p : Ptr) (c : Option Obj) : Act Unit
  /-- run the destructor of the `t` at an address -/
  | destroyAt (p : Ptr) (t : Nat) : Act Unit
  /-- get a new block from the allocator -/
  | newBlk (al n : Nat) : Act Nat
  /-- give a block back -/
  | deallocate (al : Nat) (p : Ptr) (n : Nat) : Act Unit
  /-- a call that may throw; the result says whether it does -/
  | call : Act Bool
  /-- a new object gets an identity (bookkeeping) -/
  | freshObj (t v : Nat) : Act Obj
  /-- a copy is counted (bookkeeping) -/
  | countCopy : Act Unit

/-- The location a step accesses, and whether it writes. A new block is a location that no one has accessed before; its name is not known
before the step, see `Act.accesses`. Language rule, no code of the library; used for the accesses
  of anyany.hpp:1103-1508. -/
def Act.loc {β : Type} : Act β → Option (Loc × Bool)
  | .getAny a | .readSize a => some (.any a, false)
  | .newAny a _ | .setAny a _ | .dropSlot a | .writeSize a _ => some (.any a, true)
  | .readCell p => some (locOf p, false)
  | .claim p _ | .setCell p _ | .destroyAt p _ | .deallocate _ p _ => some (locOf p, true)
  | .newBlk _ _ | .call | .freshObj _ _ | .countCopy => none

/-- The same for a step in a world: an allocation writes the new block. Language rule, no code of
    the library; used for the accesses of anyany.hpp:1103-1508. -/
def Act.accesses {β : Type} (A : Act β) (w : World) : Option (Loc × Bool) :=
  match A with
  | .newBlk _ _ => some (.blk w.nextBlk, true)
  | A => A.loc

/-- What a step does: the primitive functions of Model/AnyMem.lean. (anyany.hpp:1103-1508.) -/
def Act.exec (cfg : Cfg) {β : Type} : Act β → M β
  | .getAny a => Mem.getAny a
  | .newAny a s => fun w => if (w.anys a).isSome then .ub else Mem.setAny a s w
  | .setAny a s => Mem.setAny a s
  | .dropSlot a => Mem.dropSlot a
  | .readSize a => Mem.readSize a
  | .writeSize a n => Mem.writeSize cfg a n
  | .readCell p => fun w =>
    match cellAt w p with
    | some o => .ok o w
    | none => .ub
  | .claim p t => fun w => if Mem.storageOk cfg w p t then .ok () w else .ub
  | .setCell p c => Mem.setCell p c
  | .destroyAt p t => Mem.destroyAt p t
  | .newBlk al n => fun w => .ok w.nextBlk { w with
      nextBlk := w.nextBlk + 1
      blks := upd w.blks w.nextBlk (some ⟨n, al, none⟩) }
  | .deallocate al p n => Mem.deallocate cfg al p n
  | .call => fun w => .ok (cfg.faults w.tick) { w with tick := w.tick + 1 }
  | .freshObj t v => Mem.freshObj t v
  | .countCopy => Mem.countCopy

/-- A computation: its steps, each of which may depend on the results of those before. Language
    rule, no code of the library; a function of anyany.hpp:1103-1508 as the sequence of its
    accesses. -/
inductive Tree (α : Type) : Type 1 where
  | ret (a : α)
  | exn
  | ub
  | term
  | act {β : Type} (A : Act β) (k : β → Tree α)

variable {α β : Type}

/-- Sequencing. Language rule, no code of the library; for anyany.hpp:1103-1508. -/
def Tree.bind (t : Tree α) (f : α → Tree β) : Tree β :=
  match t with
  | .ret a => f a
  | .exn => .exn
  | .ub => .ub
  | .term => .term
  | .act A k => .act A fun b => (k b).bind f

instance : Monad Tree where
  pure := .ret
  bind := Tree.bind

/-- All steps in sequence. Language rule, no code of the library; for anyany.hpp:1103-1508. -/
def Tree.run (cfg : Cfg) (t : Tree α) (w : World) : Res α :=
  match t with
  | .ret a => .ok a w
  | .exn => .exn w
  | .ub => .ub
  | .term => .term
  | .act A k =>
    match A.exec cfg w with
    | .ok b w' => (k b).run cfg w'
    | .exn w' => .exn w'
    | .ub => .ub
    | .term => .term

/-- Language rule, no code of the library; an undefined operation, or a violated `assert`
    (anyany.hpp:1467, 1504). -/
def ub : Tree α := .ub
/-- Language rule, no code of the library; an exception that passes through anyany.hpp:1127-1150,
    1458-1498. -/
def throwExn : Tree α := .exn

/-- One step. Language rule, no code of the library; for the accesses of anyany.hpp:1103-1508. -/
def Act.do (A : Act β) : Tree β := .act A .ret

/-- `Mem.noexceptIf`. `noexcept` on the functions at anyany.hpp:1215, 1219, 1281, 1297, 1310,
    1346, 1376, 1440, 1466. -/
def noexceptIf (b : Bool) : Tree α → Tree α
  | .ret a => .ret a
  | .exn => if b then .term else .exn
  | .ub => .ub
  | .term => .term
  | .act A k => .act A fun x => noexceptIf b (k x)

/-- The cleanup after an exception, which then goes on. Language rule, no code of the library;
    unwinding through `scope_failure` (noexport/anyany_details.hpp:417-432) and locals
    (anyany.hpp:1254). -/
def rethrow : Tree Unit → Tree α
  | .ret _ => .exn
  | .exn => .term
  | .ub => .ub
  | .term => .term
  | .act A k => .act A fun x => rethrow (k x)

/-- `Mem.onFail`: `scope_failure` / `catch (...) { cleanup; throw; }` (noexport/anyany_details.hpp:417-432). -/
def onFail (t : Tree α) (cleanup : Tree Unit) : Tree α :=
  match t with
  | .ret a => .ret a
  | .exn => rethrow cleanup
  | .ub => .ub
  | .term => .term
  | .act A k => .act A fun x => onFail (k x) cleanup

/-- `Mem.finallyDo`: a destructor of a local, on normal and on exceptional exit. Language rule, no
    code of the library; the local `value` at anyany.hpp:1254. -/
def finallyDo (t : Tree α) (fin : Tree Unit) : Tree α :=
  match t with
  | .ret a => fin.bind fun _ => .ret a
  | .exn => rethrow fin
  | .ub => .ub
  | .term => .term
  | .act A k => .act A fun x => finallyDo (k x) fin

/-! ### primitive functions -/

/-- One access of the functions of anyany.hpp:1103-1508 to the members (1115-1122): read. -/
def getAny (a : Nat) : Tree AnySt := (Act.getAny a).do
/-- One access of the functions of anyany.hpp:1103-1508 to the members (1115-1122): write. -/
def setAny (a : Nat) (s : AnySt) : Tree Unit := (Act.setAny a s).do
/-- One access of the functions of anyany.hpp:1103-1508 to the members (1115-1122): initialise. -/
def newAny (a : Nat) (s : AnySt) : Tree Unit := (Act.newAny a s).do
/-- One access of the functions of anyany.hpp:1103-1508 to the members (1115-1122): the end of
    their lifetime. -/
def dropSlot (a : Nat) : Tree Unit := (Act.dropSlot a).do
/-- One access of the functions of anyany.hpp:1103-1508 to `size_allocated` (1120): read. -/
def readSize (a : Nat) : Tree Nat := (Act.readSize a).do
/-- One access of the functions of anyany.hpp:1103-1508 to `size_allocated` (1120): write. -/
def writeSize (a n : Nat) : Tree Unit := (Act.writeSize a n).do
/-- One access of the functions of anyany.hpp:1103-1508 to the contained object (1116): read. -/
def readCell (p : Ptr) : Tree Obj := (Act.readCell p).do
/-- One access of the functions of anyany.hpp:1103-1508 to the contained object (1116): begin or
    end its lifetime, or assign to it. -/
def setCell (p : Ptr) (c : Option Obj) : Tree Unit := (Act.setCell p c).do
/-- One access of the functions of anyany.hpp:1103-1508 to the contained object: its destructor
    (234-251). -/
def destroyAt (p : Ptr) (t : Nat) : Tree Unit := (Act.destroyAt p t).do
/-- One access of the functions of anyany.hpp:1103-1508 to allocated memory: give it back (1141,
    1486, 1505). -/
def deallocate (al : Nat) (p : Ptr) (n : Nat) : Tree Unit := (Act.deallocate al p n).do
/-- The identity of a new contained object (ghost; anyany.hpp:1460). -/
def freshObj (t v : Nat) : Tree Obj := (Act.freshObj t v).do
/-- A copy is counted (ghost; noexport/anyany_details.hpp:255-316). -/
def countCopy : Tree Unit := Act.countCopy.do

/-- Members are read, then written. (anyany.hpp:1115-1122.) -/
def modifyAny (a : Nat) (f : AnySt → AnySt) : Tree Unit := do
  let s ← getAny a
  setAny a (f s)

/-- `Mem.throwPoint`. A call of user code at anyany.hpp:1135, 1395, 1460, 1483. -/
def throwPoint : Tree Unit := do
  if ← Act.call.do then throwExn else pure ()

/-- `Mem.mayThrow`. A call of user code that may be `noexcept` (anyany.hpp:1137, 1460). -/
def mayThrow (nothrow : Bool) : Tree Unit := if nothrow then pure () else throwPoint

/-- `alloc.allocate(n)`. (anyany.hpp:1135, 1395, 1483.) -/
def allocate (al n : Nat) : Tree Nat := do
  throwPoint
  (Act.newBlk al n).do

/-- `Mem.evalArg`. `std::forward<Args>(args)...` (anyany.hpp:1460). -/
def evalArg : Arg → Tree Nat
  | .lit v => pure v
  | .ref p => do
    let o ← readCell p
    pure o.val

/-- `noexport::construct_at` (noexport/anyany_details.hpp:171-177) or `alloc_traits::construct` (anyany.hpp:1460). -/
def constructAt (p : Ptr) (t : Nat) (arg : Arg) (nothrow : Bool) : Tree Unit := do
  (Act.claim p t).do
  let v ← evalArg arg
  onFail (mayThrow nothrow) (setCell p none)
  let o ← freshObj t v
  setCell p (some o)

/-- Reading the object of type `t` at `p` (dereferencing a `T*`). (anyany.hpp:1116, 1585-1597.) -/
def readObj (p : Ptr) (t : Nat) : Tree Obj := do
  let o ← readCell p
  if o.ty = t then pure o else ub

variable (cfg : Cfg)

/-- `invoke<Method>(any)` on the vtable: `mate::get_vtable_ptr(any)->invoke<Method>()`
(anyany.hpp:387-403, 1059-1069). Returns the type whose function is stored in the entry; `ub` for a
null vtable (the assert at 1022/1066) or if the entry reached is not that of the method. A method that
is not in the list does not compile in C++ (`static_assert(has_method<Method>)`); it is `ub` here. -/
def slotTy (s : AnySt) (m : Method) : Tree Nat :=
  match s.vt with
  | none => ub
  | some v =>
    match numberOfFirst m s.ms with
    | none => ub
    | some i => if v.table[v.off + i]? = some m then pure v.ty else ub

/-- `destroy_value()` (anyany.hpp:1383-1388) with `aa::destroy` (232-253): the vtable stores a no-op
for trivially destructible types, so nothing happens to the object then. -/
def destroyValue (a : Nat) : Tree Unit := do
  let s ← getAny a
  if s.vt.isNone then pure ()
  else
    let t ← slotTy s .destroy
    if (cfg.ty t).trivDestr then pure () else destroyAt s.vp t
    modifyAny a (fun s => { s with vt := none })

/-- `deallocate_memory()` (anyany.hpp:1502-1507). -/
def deallocateMemory (a : Nat) : Tree Unit := do
  let s ← getAny a
  if s.vt.isSome || !memAlloc a s then ub
  else
    let n ← readSize a
    deallocate s.al s.vp n
    modifyAny a (fun s => { s with vp := .data a })

/-- `reset()` (anyany.hpp:1376-1380). -/
def reset (a : Nat) : Tree Unit := do
  destroyValue cfg a
  let s ← getAny a
  if memAlloc a s then deallocateMemory a else pure ()

/-- `construct_value<T>(args...)` (anyany.hpp:1456-1462). -/
def constructValue (a t : Nat) (arg : Arg) (nothrow : Bool) : Tree Unit := do
  let s ← getAny a
  constructAt s.vp t arg nothrow
  modifyAny a (fun s => { s with vt := some ⟨t, s.ms, 0⟩ })

/-- `emplace_in_empty<T, ForceAllocate>(args...)` (anyany.hpp:1127-1148). -/
def emplaceInEmpty (a t : Nat) (force : Bool) (arg : Arg) (nothrow : Bool) : Tree Unit := do
  if fits cfg t && !force then constructValue a t arg nothrow
  else
    let s ← getAny a
    let b ← allocate s.al (cfg.ty t).size
    modifyAny a (fun s => { s with vp := .blk b })
    writeSize a (cfg.ty t).size
    if nothrow then constructValue a t arg nothrow
    else
      onFail (constructValue a t arg nothrow) (do
        let s ← getAny a
        deallocate s.al s.vp (cfg.ty t).size
        modifyAny a (fun s => { s with vp := .data a }))

/-- `emplace_decayed<T>(args...)` (anyany.hpp:1438-1454), without its return value. -/
def emplaceDecayed (a t : Nat) (arg : Arg) (nothrow : Bool) : Tree Unit :=
  noexceptIf (nothrow && fits cfg t) do
    destroyValue cfg a
    let s ← getAny a
    if !memAlloc a s then emplaceInEmpty cfg a t false arg nothrow
    else
      let n ← readSize a
      if n < (cfg.ty t).size then
        deallocateMemory a
        emplaceInEmpty cfg a t false arg nothrow
      else constructValue a t arg nothrow

/-- `emplace<T>(args...)` (anyany.hpp:1280-1294) and `operator=(V&&)` (1271-1275). -/
def emplace (a t : Nat) (arg : Arg) (nothrow : Bool) : Tree Unit :=
  noexceptIf (nothrow && fits cfg t) (emplaceDecayed cfg a t arg nothrow)

/-- `replace_with_bytes(bytes)` (anyany.hpp:1391-1400). -/
def replaceWithBytes (a n : Nat) : Tree Unit := do
  destroyValue cfg a
  let s ← getAny a
  let cap ← if memAlloc a s then readSize a else pure cfg.soos
  if cap ≥ n then pure ()
  else
    let b ← allocate s.al n
    if memAlloc a s then deallocateMemory a else pure ()
    modifyAny a (fun s => { s with vp := .blk b })
    writeSize a n

/-- `noexport::relocate<T>` / `relocate_trivial<sizeof(T)>` as selected by `aa::move::do_value<T>`
(anyany.hpp:255-269, noexport/anyany_details.hpp:232-248). `noexcept`. -/
def relocate (t : Nat) (src dest : Ptr) : Tree Unit :=
  noexceptIf true do
    let o ← readCell src
    if o.ty = t then
      if (cfg.ty t).trivCopy && (cfg.ty t).trivDestr then
        constructAt dest t (.ref src) true
      else
        constructAt dest t (.ref src) (cfg.ty t).nothrowMove
        destroyAt src t
    else ub

/-- `get_move_fn()` (anyany.hpp:1431-1436): the type whose `relocate` is in the vtable. -/
def getMoveFn (s : AnySt) : Tree Nat :=
  if s.ms.contains .move then slotTy s .move
  else
    match someCopyMethod s.ms with
    | some m => slotTy s m
    | none => ub

/-- `subtable_ptr<ToMethods...>(ptr)` (anyany.hpp:417-442); a list without the sublist does not
compile in C++, `ub` here. -/
def subtablePtr (msTo msFrom : List Method) (v : VtPtr) : Tree VtPtr :=
  if msTo = msFrom then pure v
  else
    match findSubsequence msTo msFrom with
    | some i => pure { v with off := v.off + i }
    | none => ub

/-- `move_value_from<MemoryMaybeReused>(other)` (anyany.hpp:1464-1496); `a` is `this`, `o` is
`other`. -/
def moveValueFrom (reuse : Bool) (a o : Nat) : Tree Unit :=
  noexceptIf reuse do
    let s ← getAny a
    if s.vt.isSome || memAlloc a s then ub
    else
      let t ← getAny o
      match t.vt with
      | none => pure ()
      | some v =>
        if cfg.soos = 0 then
          modifyAny o (fun t => { t with vp := .data o })
          modifyAny a (fun s => { s with vp := t.vp })
          let n ← readSize o
          writeSize a n
        else if !memAlloc o t then
          let ty ← getMoveFn t
          relocate cfg ty t.vp s.vp
        else if reuse then
          modifyAny o (fun t => { t with vp := .data o })
          modifyAny a (fun s => { s with vp := t.vp })
          let n ← readSize o
          writeSize a n
        else
          let n ← readSize o
          let b ← allocate s.al n
          modifyAny a (fun s => { s with vp := .blk b })
          writeSize a n
          onFail (do
              let ty ← getMoveFn t
              relocate cfg ty t.vp (.blk b))
            (do
              let s ← getAny a
              let n ← readSize o
              deallocate s.al s.vp n
              modifyAny a (fun s => { s with vp := .data a }))
        let v' ← subtablePtr s.ms t.ms v
        modifyAny a (fun s => { s with vt := some v' })
        modifyAny o (fun t => { t with vt := none })

/-- A constructor: the members are initialised (anyany.hpp:1115-1122: null vtable, `value_ptr = data`),
then the body runs; if it throws the object never existed (its destructor does not run). `ub` if the
storage is occupied. -/
def construct (a : Nat) (ms : List Method) (al : Nat) (body : Tree Unit) : Tree Unit := do
  newAny a ⟨ms, none, .data a, .raw, al⟩
  onFail body (dropSlot a)

/-- `basic_any()` (anyany.hpp:1190) and `basic_any(allocator_arg, alloc)` (1314-1315). -/
def allocCtor (a : Nat) (ms : List Method) (al : Nat) : Tree Unit := construct a ms al (pure ())

/-- `basic_any(in_place_type<T>, args...)`, `basic_any(T&&)`, `basic_any(allocator_arg, alloc, T&&)`
(anyany.hpp:1295-1322). -/
def valueCtor (a : Nat) (ms : List Method) (al t : Nat) (arg : Arg) (nothrow : Bool) : Tree Unit :=
  noexceptIf (nothrow && fits cfg t)
    (construct a ms al (emplaceInEmpty cfg a t false arg nothrow))

/-- `basic_any(force_stable_pointers, ...)` (anyany.hpp:1352-1372). -/
def forceCtor (a : Nat) (ms : List Method) (t : Nat) (arg : Arg) (nothrow : Bool) : Tree Unit :=
  noexceptIf (nothrow && fits cfg t)
    (construct a ms cfg.defaultAlloc (emplaceInEmpty cfg a t true arg nothrow))

/-- The function stored by `copy_method<Alloc, SooS>::do_value<T>` (anyany.hpp:277-313):
`trivial_copy_small_fn`, `trivial_copy_big_fn` or `copy_fn` (noexport/anyany_details.hpp:255-316).
`dest` is the buffer of any `a`; returns the address of the copy. With an empty allocator a
default-constructed one is used. -/
def copyFn (t : Nat) (src : Ptr) (a : Nat) (dest : Ptr) (al : Nat) : Tree Ptr := do
  let al := if cfg.copyNeedsAlloc then al else cfg.defaultAlloc
  let o ← readCell src
  if o.ty = t then
    countCopy
    if (cfg.ty t).trivCopy && fits cfg t then
      constructAt dest t (.ref src) true
      pure dest
    else if (cfg.ty t).trivCopy then
      let b ← allocate al (cfg.ty t).size
      constructAt (.blk b) t (.ref src) true
      writeSize a (cfg.ty t).size
      pure (.blk b)
    else if fits cfg t then
      constructAt dest t (.ref src) (cfg.ty t).nothrowCopy
      pure dest
    else
      let b ← allocate al (cfg.ty t).size
      if (cfg.ty t).nothrowCopy then constructAt (.blk b) t (.ref src) true
      else
        onFail (constructAt (.blk b) t (.ref src) false)
          (deallocate al (.blk b) (cfg.ty t).size)
      writeSize a (cfg.ty t).size
      pure (.blk b)
  else ub

/-- Copy constructor (anyany.hpp:1198-1209) and transmutating copy constructor (1326-1341): they
differ only in `subtable_ptr`, which is the identity for equal method lists. -/
def copyCtor (a : Nat) (ms : List Method) (o : Nat) : Tree Unit := do
  let t ← getAny o
  construct a ms (cfg.soccc t.al) do
    match t.vt with
    | none => pure ()
    | some v =>
      let s ← getAny a
      let ty ← slotTy t (.copy 0)
      let p ← copyFn cfg ty t.vp a s.vp s.al
      modifyAny a (fun s => { s with vp := p })
      let v' ← subtablePtr ms t.ms v
      modifyAny a (fun s => { s with vt := some v' })

/-- Move constructor (anyany.hpp:1215-1218). -/
def moveCtor (a o : Nat) : Tree Unit :=
  noexceptIf (movableAlloc cfg) do
    let t ← getAny o
    construct a t.ms t.al (moveValueFrom cfg true a o)

/-- Transmutating move constructor (anyany.hpp:1342-1348): the allocator is default-constructed. -/
def transMoveCtor (a : Nat) (ms : List Method) (o : Nat) : Tree Unit :=
  noexceptIf (movableAlloc cfg)
    (construct a ms cfg.defaultAlloc (moveValueFrom cfg true a o))

/-- Destructor (anyany.hpp:1192-1194). -/
def destructor (a : Nat) : Tree Unit :=
  noexceptIf true do
    reset cfg a
    dropSlot a

/-- `operator=(basic_any&&)` (anyany.hpp:1219-1251). -/
def moveAssign (a o : Nat) : Tree Unit :=
  noexceptIf (movableAlloc cfg) do
    if a = o then pure ()
    else if cfg.alwaysEq then
      reset cfg a
      moveValueFrom cfg true a o
    else if cfg.pocma then
      reset cfg a
      let s ← getAny a
      let t ← getAny o
      if s.al ≠ t.al then modifyAny a (fun s => { s with al := t.al }) else pure ()
      moveValueFrom cfg true a o
    else
      destroyValue cfg a
      let s ← getAny a
      let t ← getAny o
      if s.al ≠ t.al then
        let canReuse ←
          if t.vt.isSome && memAlloc o t && memAlloc a s then do
            let n ← readSize a
            let k ← readSize o
            pure (decide (n ≥ k))
          else pure false
        if canReuse then
          let ty ← getMoveFn t
          relocate cfg ty t.vp s.vp
          modifyAny a (fun s => { s with vt := t.vt })
          modifyAny o (fun t => { t with vt := none })
        else
          if memAlloc a s then deallocateMemory a else pure ()
          moveValueFrom cfg false a o
      else
        reset cfg a
        moveValueFrom cfg true a o

/-- `operator=(const basic_any&)` (anyany.hpp:1253-1264); `tmp` is the address of the local
`value`. -/
def copyAssign (a o tmp : Nat) : Tree Unit := do
  let t ← getAny o
  copyCtor cfg tmp t.ms o
  finallyDo (do
      if !cfg.alwaysEq && cfg.pocca then
        let s ← getAny a
        let t ← getAny o
        if s.al ≠ t.al then
          reset cfg a
          modifyAny a (fun s => { s with al := t.al })
        else pure ()
      else pure ()
      moveAssign cfg a tmp)
    (destructor cfg tmp)

/-- `std::swap(a, b)` instantiated for a movable type: `T tmp(move(a)); a = move(b); b = move(tmp);`
(not part of the library; it uses the library's move operations). They are at
  anyany.hpp:1215-1251. -/
def swapAny (a b tmp : Nat) : Tree Unit := do
  moveCtor cfg tmp a
  finallyDo (do
      moveAssign cfg a b
      moveAssign cfg b tmp)
    (destructor cfg tmp)

/-- `const_poly_ref<ms...>` / `poly_ref<ms...>` to the value of the any at `o`: `*(&any)`
(anyany.hpp:832-845, 705-707), converted to fewer methods (587-600): vtable pointer and address. Dereferencing
the null pointer obtained from an empty any is `ub`. -/
def refTo (o : Nat) (ms : List Method) : Tree (VtPtr × Ptr) := do
  let t ← getAny o
  match t.vt with
  | none => ub
  | some v =>
    let v' ← subtablePtr ms t.ms v
    pure (v', t.vp)

/-- `materialize(const_poly_ref<ms...>, alloc)` (anyany.hpp:1512-1527); `a` is the address of `result`.
The vtable pointer is set before the value is copied; if the copy throws, `~basic_any` of `result` runs.
The return by value is elided. (With a stateful allocator the C++ code does not compile, see DESIGN.md;
the model covers it as intended.) -/
def materialize (a : Nat) (ms : List Method) (al : Nat) (r : VtPtr × Ptr) : Tree Unit := do
  allocCtor a ms al
  onFail (do
      modifyAny a (fun s => { s with vt := some r.1 })
      let s ← getAny a
      let ty ← slotTy s (.copy 0)
      let p ← copyFn cfg ty r.2 a s.vp s.al
      modifyAny a (fun s => { s with vp := p }))
    (destructor cfg a)

/-! Observers -/

/-- `has_value()` (anyany.hpp:1418-1420). -/
def hasValue (a : Nat) : Tree Bool := do
  let s ← getAny a
  pure s.vt.isSome

/-- `is_stable_pointers()` (anyany.hpp:1414-1416). -/
def isStablePointers (a : Nat) : Tree Bool := do
  let s ← getAny a
  pure (memAlloc a s)

/-- `capacity()` (anyany.hpp:1401-1403). -/
def capacity (a : Nat) : Tree Nat := do
  let s ← getAny a
  if memAlloc a s then readSize a else pure cfg.soos

/-- `sizeof_now()` (anyany.hpp:1424-1428). -/
def sizeofNow (a : Nat) : Tree Nat := do
  let s ← getAny a
  if s.vt.isNone then pure 0
  else if memAlloc a s then readSize a else pure cfg.soos

/-- `get_allocator()` (anyany.hpp:1211-1213). -/
def getAllocator (a : Nat) : Tree Nat := do
  let s ← getAny a
  pure s.al

/-- The vtable entry that gives the type descriptor (anyany.hpp:1779, 1824, 1871; see `Mem.descMethod`). -/
def descTy (s : AnySt) : Tree Nat :=
  match Mem.descMethod s.ms with
  | none => ub
  | some m => slotTy s m

/-- `type_descriptor()` (anyany.hpp:1769-1779, 1824, 1871): `none` is the descriptor of `void`. Descriptors
are type identities here (see C42). -/
def typeDescriptor (a : Nat) : Tree (Option Nat) := do
  let s ← getAny a
  if s.vt.isNone then pure none
  else
    let t ← descTy s
    pure (some t)

/-- `any_cast<T>(any*)` (anyany.hpp:1579-1601): address of the value, or null. -/
def anyCastPtr (a t : Nat) : Tree (Option Ptr) := do
  let d ← typeDescriptor a
  if d = some t then do
    let s ← getAny a
    pure (some s.vp)
  else pure none

/-- Assigning through a `T&` obtained from `any_cast`. (anyany.hpp:1609-1625.) -/
def writeObj (p : Ptr) (t v : Nat) : Tree Unit := do
  let o ← readObj p t
  setCell p (some { o with val := v })

/-- `any_cast<T>(any&)` (anyany.hpp:1602-1620), value form: copies the value or throws `bad_cast`. -/
def anyCastCopy (a t : Nat) : Tree Nat := do
  match ← anyCastPtr a t with
  | none => throwExn
  | some p =>
    let o ← readObj p t
    mayThrow (cfg.ty t).nothrowCopy
    pure o.val

/-- `any_cast<T>(any&&)`, value form (anyany.hpp:1616-1617): moves the value out; the any still
contains the moved-from object. -/
def anyCastMove (a t : Nat) : Tree Nat := do
  match ← anyCastPtr a t with
  | none => throwExn
  | some p =>
    let o ← readObj p t
    mayThrow (cfg.ty t).nothrowMove
    writeObj p t (cfg.movedFrom t o.val)
    pure o.val

/-- `invoke<Method>(any, args...)` (anyany.hpp:1013-1031) reaching `invoker_for<T, Method>::value`
(177-193). The implementation of the method is user code that may throw; the copy that a method with
`self` by value works on is a temporary object and not modelled further. -/
def invokeUser (a m arg : Nat) : Tree Nat := do
  let s ← getAny a
  let t ← slotTy s (.user m)
  let o ← readObj s.vp t
  match cfg.kind m with
  | .constRef =>
    mayThrow (cfg.methodNothrow m t)
    pure (cfg.impl m t o.val arg).1
  | .mutRef =>
    onFail (mayThrow (cfg.methodNothrow m t)) (writeObj s.vp t (cfg.partway m t o.val arg))
    writeObj s.vp t (cfg.impl m t o.val arg).2
    pure (cfg.impl m t o.val arg).1
  | .byValue =>
    mayThrow (cfg.ty t).nothrowCopy
    mayThrow (cfg.methodNothrow m t)
    pure (cfg.impl m t o.val arg).1

/-- The reference passed by the client. `args` of anyany.hpp:1281-1373; it may refer to the value
    of an any. -/
def argOf : ArgSrc → Tree Arg
  | .lit v => pure (.lit v)
  | .valueOf c => do
    let s ← getAny c
    pure (.ref s.vp)

/-- Execute one statement with the functions above (Spec/AnyHist.lean: `Mem.exec`).
    (anyany.hpp:1103-1508.) -/
def exec : Op → Tree Unit
  | .allocCtor a ms al => allocCtor a ms al
  | .valueCtor a ms al t arg n => do valueCtor cfg a ms al t (← argOf arg) n
  | .forceCtor a ms t arg n => do forceCtor cfg a ms t (← argOf arg) n
  | .copyCtor a ms o => copyCtor cfg a ms o
  | .moveCtor a o => moveCtor cfg a o
  | .transMoveCtor a ms o => transMoveCtor cfg a ms o
  | .dtor a => destructor cfg a
  | .copyAssign a o tmp => copyAssign cfg a o tmp
  | .moveAssign a o => moveAssign cfg a o
  | .emplace a t arg n => do emplace cfg a t (← argOf arg) n
  | .reset a => reset cfg a
  | .destroyValue a => destroyValue cfg a
  | .replaceWithBytes a n => replaceWithBytes cfg a n
  | .mutate a t v => do
    match ← anyCastPtr a t with
    | none => pure ()
    | some p => writeObj p t v
  | .castCopy a t => do let _ ← anyCastCopy cfg a t; pure ()
  | .castMove a t => do let _ ← anyCastMove cfg a t; pure ()
  | .invoke a m x => do let _ ← invokeUser cfg a m x; pure ()
  | .swap a b tmp => swapAny cfg a b tmp
  | .materialize a ms al o => do materialize cfg a ms al (← refTo o ms)

end AnyAny.Fine
