import Verif.Spec.AnyMem
/-
Client programs over any objects: finite histories of operations, what a client must respect
(`Legal`), and the reference behaviour (`specStep`): a family of independent optional typed values.
`specStep` mentions neither memory nor vtables.
-/
namespace AnyAny.Mem
open AnyAny.TypeList

/-- Constructor arguments a client passes: a value, or a reference to the object contained in any
`c` (e.g. obtained by `any_cast<T&>(c)`). -/
inductive ArgSrc where
  | lit (v : Nat)
  | valueOf (c : Nat)
deriving DecidableEq, Repr

/-- One statement of a client program. `a` is the address of the target, `o` of the other operand,
`tmp` the address of a local variable inside the operation. -/
inductive Op where
  | allocCtor (a : Nat) (ms : List Method) (al : Nat)
  | valueCtor (a : Nat) (ms : List Method) (al t : Nat) (arg : ArgSrc) (nothrow : Bool)
  | forceCtor (a : Nat) (ms : List Method) (t : Nat) (arg : ArgSrc) (nothrow : Bool)
  | copyCtor (a : Nat) (ms : List Method) (o : Nat)
  | moveCtor (a o : Nat)
  | transMoveCtor (a : Nat) (ms : List Method) (o : Nat)
  | dtor (a : Nat)
  | copyAssign (a o tmp : Nat)
  | moveAssign (a o : Nat)
  | emplace (a t : Nat) (arg : ArgSrc) (nothrow : Bool)
  | reset (a : Nat)
  | destroyValue (a : Nat)
  | replaceWithBytes (a n : Nat)
  | mutate (a t v : Nat)
  | castCopy (a t : Nat)
  | castMove (a t : Nat)
  | invoke (a m x : Nat)
  | swap (a b tmp : Nat)
  | materialize (a : Nat) (ms : List Method) (al o : Nat)
deriving DecidableEq, Repr

/-- The reference passed by the client. -/
def argOf : ArgSrc → M Arg
  | .lit v => pure (.lit v)
  | .valueOf c => do
    let s ← getAny c
    pure (.ref s.vp)

variable (cfg : Cfg)

/-- Execute one statement with the model of the library. -/
def exec : Op → M Unit
  | .allocCtor a ms al => allocCtor a ms al
  | .valueCtor a ms al t arg n => do valueCtor cfg a ms al t (← argOf arg) n
  | .forceCtor a ms t arg n => do forceCtor cfg a ms t (← argOf arg) n
  | .copyCtor a ms o => copyCtor cfg a ms o
  | .moveCtor a o => moveCtor cfg a o
  | .transMoveCtor a ms o => transMoveCtor cfg a ms o
  | .dtor a => destructor cfg a
  | .copyAssign a o tmp => copyAssign cfg a o tmp
  | .moveAssign a o => moveAssign cfg a o
  | .emplace a t arg n => do emplace cfg a t (← argOf arg) n
  | .reset a => reset cfg a
  | .destroyValue a => destroyValue cfg a
  | .replaceWithBytes a n => replaceWithBytes cfg a n
  | .mutate a t v => do
    match ← anyCastPtr a t with
    | none => pure ()
    | some p => writeObj p t v
  | .castCopy a t => do let _ ← anyCastCopy cfg a t; pure ()
  | .castMove a t => do let _ ← anyCastMove cfg a t; pure ()
  | .invoke a m x => do let _ ← invokeUser cfg a m x; pure ()
  | .swap a b tmp => swapAny cfg a b tmp
  | .materialize a ms al o => do materialize cfg a ms al (← refTo o ms)

/-- The types used can be stored in the memory the allocator returns, and an allocator for which the
copy function default-constructs its own is one whose instances are all equal. The first condition is
needed (see `C61`). -/
structure CfgOk : Prop where
  align : ∀ t, (cfg.ty t).align ≤ cfg.allocAlign
  copyAlloc : cfg.copyNeedsAlloc = false → cfg.alwaysEq = true

/-- The allocators are really different and not exchanged by move assignment. -/
def AllocsDiffer (x y : Nat) : Prop := cfg.alwaysEq = false ∧ cfg.pocma = false ∧ x ≠ y

instance (x y) : Decidable (AllocsDiffer cfg x y) := by unfold AllocsDiffer; infer_instance

/-- Allocator of the target of a copy assignment after propagation. -/
def propagatedAl (x y : Nat) : Nat := if !cfg.alwaysEq && cfg.pocca then y else x

/-- `noexport::has_move<Methods...>` (anyany.hpp:329-332): the class has a move or copy method. -/
def HasMoveFn (ms : List Method) : Prop := .move ∈ ms ∨ ∃ k, .copy k ∈ ms

/-- Classes whose move constructor exists, `has_move` (anyany.hpp:1165, 1215): they have a move or copy
method, or no buffer (then a move passes on the memory and needs no method). -/
def Movable (ms : List Method) : Prop := HasMoveFn ms ∨ cfg.soos = 0

/-- Classes whose move assignment compiles (anyany.hpp:1219-1251): a class without move and copy method
needs an allocator that moves with the value, otherwise `get_move_fn` (1431-1436) does not compile. -/
def MoveAssignable (ms : List Method) : Prop :=
  HasMoveFn ms ∨ (cfg.soos = 0 ∧ movableAlloc cfg = true)

/-- The argument of an operation on `a` is a value or refers to the value of another any. -/
def ArgSrc.Valid (w : World) (a : Nat) : ArgSrc → Prop
  | .lit _ => True
  | .valueOf c => c ≠ a ∧ (content w c).isSome

/-- Does copying a value of type `t` throw, starting at call number `k`? A type that does not fit the
buffer needs an allocation first. -/
def copyThrows (k t : Nat) : Bool :=
  if fits cfg t then !(cfg.ty t).trivCopy && !(cfg.ty t).nothrowCopy && cfg.faults k
  else cfg.faults k || (!(cfg.ty t).trivCopy && !(cfg.ty t).nothrowCopy && cfg.faults (k + 1))

/-- What the client must respect: objects are constructed at unoccupied addresses, other operations
act on existing objects, operations that do not compile are not used, constructor arguments do not
refer into the target, methods are not invoked on an empty any. The two conditions on allocators
exclude the known defects of the library (`C63_steal_fails`, `C63_transmove_fails`); so does the
condition of `materialize` that the copy does not throw or the type needs no destruction
(`C22_throwing_copy_fails`). -/
def Legal (w : World) : Op → Prop
  | .allocCtor a ms _ => snap w a = none ∧ .destroy ∈ ms
  | .valueCtor a ms _ _ arg _ => snap w a = none ∧ .destroy ∈ ms ∧ arg.Valid w a
  | .forceCtor a ms _ arg _ => snap w a = none ∧ .destroy ∈ ms ∧ arg.Valid w a
  | .copyCtor a ms o => snap w a = none ∧ .destroy ∈ ms ∧
      ∃ t, snap w o = some t ∧ .copy 0 ∈ t.ms ∧ ms <:+: t.ms
  | .moveCtor a o => snap w a = none ∧ ∃ t, snap w o = some t ∧ Movable cfg t.ms
  | .transMoveCtor a ms o => snap w a = none ∧ .destroy ∈ ms ∧
      ∃ t, snap w o = some t ∧ HasMoveFn t.ms ∧ ms <:+: t.ms ∧
        (t.mem.isSome → allocEq cfg t.al cfg.defaultAlloc = true)
  | .dtor a => (snap w a).isSome
  | .copyAssign a o tmp => snap w tmp = none ∧
      ∃ s, snap w a = some s ∧ ∃ t, snap w o = some t ∧ s.ms = t.ms ∧ .copy 0 ∈ t.ms ∧
        (cfg.soos = 0 → ¬ AllocsDiffer cfg (propagatedAl cfg s.al t.al) (cfg.soccc t.al))
  | .moveAssign a o => ∃ s, snap w a = some s ∧ ∃ t, snap w o = some t ∧ s.ms = t.ms ∧ MoveAssignable cfg t.ms ∧
      (cfg.soos = 0 → ¬ AllocsDiffer cfg s.al t.al)
  | .emplace a _ arg _ => (snap w a).isSome ∧ arg.Valid w a
  | .reset a | .destroyValue a | .replaceWithBytes a _ => (snap w a).isSome
  | .mutate a _ _ | .castCopy a _ | .castMove a _ => ∃ s, snap w a = some s ∧ HasDesc s.ms
  | .invoke a m _ => ∃ s, snap w a = some s ∧ .user m ∈ s.ms ∧ s.obj.isSome
  | .swap a b tmp => snap w tmp = none ∧
      ∃ s, snap w a = some s ∧ ∃ t, snap w b = some t ∧ s.ms = t.ms ∧ MoveAssignable cfg t.ms ∧
        (cfg.soos = 0 → ¬ AllocsDiffer cfg s.al t.al)
  | .materialize a ms _ o => snap w a = none ∧ .destroy ∈ ms ∧ .copy 0 ∈ ms ∧
      ∃ t, snap w o = some t ∧ ms <:+: t.ms ∧
        ∃ ob, t.obj = some ob ∧ ((cfg.ty ob.ty).trivDestr = true ∨ copyThrows cfg w.tick ob.ty = false)

/-- What the client must respect when all instances of the allocator are equal (`std::allocator`, the
default): no condition mentions allocators. -/
def LegalStd (w : World) : Op → Prop
  | .transMoveCtor a ms o => snap w a = none ∧ .destroy ∈ ms ∧
      ∃ t, snap w o = some t ∧ HasMoveFn t.ms ∧ ms <:+: t.ms
  | .copyAssign a o tmp => snap w tmp = none ∧
      ∃ s, snap w a = some s ∧ ∃ t, snap w o = some t ∧ s.ms = t.ms ∧ .copy 0 ∈ t.ms
  | .moveAssign a o => ∃ s, snap w a = some s ∧ ∃ t, snap w o = some t ∧ s.ms = t.ms ∧ MoveAssignable cfg t.ms
  | .swap a b tmp => snap w tmp = none ∧
      ∃ s, snap w a = some s ∧ ∃ t, snap w b = some t ∧ s.ms = t.ms ∧ MoveAssignable cfg t.ms
  | op => Legal cfg w op

/-- Worlds that a client program can reach, whatever calls throw: a history is a finite sequence of
legal operations, each of which returned or threw. -/
inductive Reachable : World → Prop
  | init : Reachable World.init
  | ok {w w' : World} {op : Op} : Reachable w → Legal cfg w op → exec cfg op w = .ok () w' → Reachable w'
  | exn {w w' : World} {op : Op} : Reachable w → Legal cfg w op → exec cfg op w = .exn w' → Reachable w'

/-! ### Reference behaviour -/

/-- A family of optional typed values: `none`: no such object; `some none`: an object without value;
`some (some (t, v))`: an object holding the value `v` of type `t`. -/
abbrev Vals := Nat → Option (Option (Nat × Nat))

/-- What a client sees of all any objects. -/
def vals (w : World) : Vals := fun a => (w.anys a).map fun _ => view w a

/-- Value of an argument. -/
def ArgSrc.value (V : Vals) : ArgSrc → Nat
  | .lit v => v
  | .valueOf c => match V c with
    | some (some (_, v)) => v
    | _ => 0

/-- The value after method `m` was called with argument `x` on a `t` with value `v`: changed only by
methods taking `self` by mutable reference. -/
def afterInvoke (m x : Nat) (c : Option (Option (Nat × Nat))) : Option (Option (Nat × Nat)) :=
  match c with
  | some (some (t, v)) =>
    match cfg.kind m with
    | .mutRef => some (some (t, (cfg.impl m t v x).2))
    | _ => some (some (t, v))
  | c => c

/-- Effect of a successful operation on the family of values. -/
def specStep (V : Vals) : Op → Vals
  | .allocCtor a _ _ => upd V a (some none)
  | .valueCtor a _ _ t arg _ | .forceCtor a _ t arg _ | .emplace a t arg _ =>
      upd V a (some (some (t, arg.value V)))
  | .copyCtor a _ o | .materialize a _ _ o => upd V a (V o)
  | .moveCtor a o | .transMoveCtor a _ o => upd (upd V o (some none)) a (V o)
  | .dtor a => upd V a none
  | .copyAssign a o _ => upd V a (V o)
  | .moveAssign a o => if a = o then V else upd (upd V o (some none)) a (V o)
  | .reset a | .destroyValue a | .replaceWithBytes a _ => upd V a (some none)
  | .mutate a t v => match V a with
    | some (some (t', _)) => if t' = t then upd V a (some (some (t, v))) else V
    | _ => V
  | .castCopy _ _ => V
  | .castMove a t => match V a with
    | some (some (t', v)) => if t' = t then upd V a (some (some (t, cfg.movedFrom t v))) else V
    | _ => V
  | .invoke a m x => upd V a (afterInvoke cfg m x (V a))
  | .swap a b _ => upd (upd V a (V b)) b (V a)

/-- Class (method list) and allocator of every any object. -/
abbrev Metas := Nat → Option (List Method × Nat)

def metas (w : World) : Metas := fun a => (w.anys a).map fun s => (s.ms, s.al)

/-- Allocator of the target after a move assignment from an any with allocator `y`. -/
def moveAssignAl (x y : Nat) : Nat := if cfg.alwaysEq then x else if cfg.pocma then y else x

/-- Effect of a successful operation on classes and allocators. -/
def specMeta (Q : Metas) : Op → Metas
  | .allocCtor a ms al | .valueCtor a ms al _ _ _ | .materialize a ms al _ => upd Q a (some (ms, al))
  | .forceCtor a ms _ _ _ | .transMoveCtor a ms _ => upd Q a (some (ms, cfg.defaultAlloc))
  | .copyCtor a ms o => upd Q a ((Q o).map fun q => (ms, cfg.soccc q.2))
  | .moveCtor a o => upd Q a (Q o)
  | .dtor a => upd Q a none
  | .copyAssign a o _ => upd Q a ((Q a).bind fun p => (Q o).map fun q =>
      (p.1, moveAssignAl cfg (propagatedAl cfg p.2 q.2) (cfg.soccc q.2)))
  | .moveAssign a o => upd Q a ((Q a).bind fun p => (Q o).map fun q => (p.1, moveAssignAl cfg p.2 q.2))
  | .swap a b _ => fun c =>
      if c = a then (Q a).bind fun p => (Q b).map fun q => (p.1, moveAssignAl cfg p.2 q.2)
      else if c = b then (Q a).bind fun p => (Q b).map fun q => (q.1, moveAssignAl cfg q.2 p.2)
      else Q c
  | _ => Q

/-- The any objects whose value an operation may lose when it throws: the target of `emplace` and
`replace_with_bytes`; the operands of an assignment or swap between really different allocators; the
object on which a throwing method with mutable `self` is invoked (the method decides, see `C62_invoke`). -/
def mayLose (w : World) : Op → Nat → Prop
  | .emplace a _ _ _, c | .replaceWithBytes a _, c => c = a
  | .moveAssign a o, c => c = a ∧ ∃ s t, snap w a = some s ∧ snap w o = some t ∧ AllocsDiffer cfg s.al t.al
  | .copyAssign a o _, c => c = a ∧ ∃ s t, snap w a = some s ∧ snap w o = some t ∧
      AllocsDiffer cfg (propagatedAl cfg s.al t.al) (cfg.soccc t.al)
  | .swap a b _, c => (c = a ∨ c = b) ∧ ∃ s t, snap w a = some s ∧ snap w b = some t ∧ AllocsDiffer cfg s.al t.al
  | .invoke a m _, c => c = a ∧ cfg.kind m = .mutRef ∧ ∃ t v, view w a = some (t, v) ∧ cfg.methodNothrow m t = false
  | _, _ => False

/-- The any objects an operation may change at all. -/
def touches : Op → Nat → Prop
  | .allocCtor a _ _, c | .valueCtor a _ _ _ _ _, c | .forceCtor a _ _ _ _, c | .copyCtor a _ _, c
  | .dtor a, c | .copyAssign a _ _, c | .emplace a _ _ _, c | .reset a, c | .destroyValue a, c
  | .replaceWithBytes a _, c | .mutate a _ _, c | .castMove a _, c | .invoke a _ _, c
  | .materialize a _ _ _, c => c = a
  | .moveCtor a o, c | .transMoveCtor a _ o, c | .moveAssign a o, c | .swap a o _, c => c = a ∨ c = o
  | .castCopy _ _, _ => False

/-- Relocating an object of this type cannot throw: it is moved bytewise or its move constructor is
`noexcept` (anyany.hpp:255-269). -/
def TyInfo.nothrowReloc (i : TyInfo) : Bool := (i.trivCopy && i.trivDestr) || i.nothrowMove

/-- Operations that may call `std::terminate`: construction with `force_stable_pointers` of a small
type from arguments that do not throw (declared `noexcept` but allocates), and assignments between
really different allocators of a value whose move constructor throws. -/
def mayTerminate (w : World) : Op → Prop
  | .forceCtor _ _ t _ n => (n && fits cfg t) = true
  | .moveAssign a o => ∃ s t, snap w a = some s ∧ snap w o = some t ∧ AllocsDiffer cfg s.al t.al ∧
      t.mem.isSome ∧ ∃ ob, t.obj = some ob ∧ (cfg.ty ob.ty).nothrowReloc = false
  | .copyAssign a o _ => ∃ s t, snap w a = some s ∧ snap w o = some t ∧
      AllocsDiffer cfg (propagatedAl cfg s.al t.al) (cfg.soccc t.al) ∧
      ∃ ob, t.obj = some ob ∧ (cfg.ty ob.ty).nothrowReloc = false
  | .swap a b _ => ∃ s t, snap w a = some s ∧ snap w b = some t ∧ AllocsDiffer cfg s.al t.al ∧
      ∃ ob, (s.obj = some ob ∨ t.obj = some ob) ∧ (cfg.ty ob.ty).nothrowReloc = false
  | _ => False

end AnyAny.Mem
