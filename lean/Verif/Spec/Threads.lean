import Verif.Spec.AnyRun
/-
Which any objects an operation uses, the part of the memory that belongs to some any objects, and programs of several threads.
-/
namespace AnyAny.Mem

/-- Addresses of the any objects an operation is applied to, and of the local variable inside it. -/
def Op.addrs : Op → List Nat
  | .allocCtor a _ _ | .dtor a | .reset a | .destroyValue a | .replaceWithBytes a _ | .mutate a _ _ | .castCopy a _ | .castMove a _
  | .invoke a _ _ => [a]
  | .valueCtor a _ _ _ arg _ | .forceCtor a _ _ arg _ | .emplace a _ arg _ => match arg with
    | .lit _ => [a]
    | .valueOf c => [a, c]
  | .copyCtor a _ o | .moveCtor a o | .transMoveCtor a _ o | .moveAssign a o | .materialize a _ _ o => [a, o]
  | .copyAssign a o tmp | .swap a o tmp => [a, o, tmp]

/-- Those that are passed as non-const objects (or are constructed or destroyed): the others are only read. Methods with a mutable
`self` need a non-const object. -/
def Op.writes (cfg : Cfg) : Op → List Nat
  | .allocCtor a _ _ | .dtor a | .reset a | .destroyValue a | .replaceWithBytes a _ | .mutate a _ _ | .castMove a _
  | .valueCtor a _ _ _ _ _ | .forceCtor a _ _ _ _ | .emplace a _ _ _ | .copyCtor a _ _ | .materialize a _ _ _ => [a]
  | .castCopy _ _ => []
  | .invoke a m _ => match cfg.kind m with
    | .mutRef => [a]
    | _ => []
  | .moveCtor a o | .transMoveCtor a _ o | .moveAssign a o => [a, o]
  | .copyAssign a _ tmp => [a, tmp]
  | .swap a o tmp => [a, o, tmp]

/-- The memory block with number `b` belongs to an any whose address satisfies `F`. -/
def OwnedBy (F : Nat → Bool) (w : World) (b : Nat) : Prop := ∃ a n, F a = true ∧ memOf w a = some (b, n)

open Classical in
/-- The world in which there are only the any objects at the addresses `F`, and the memory that belongs to them. -/
noncomputable def only (F : Nat → Bool) (w : World) : World :=
  { w with
    anys := fun a => if F a then w.anys a else none
    blks := fun b => if OwnedBy F w b then w.blks b else none }

/-- A schedule: which thread executes which operation, in the order of execution. -/
abbrev Schedule := List (Nat × Op)

/-- The program of thread `i`. -/
def Schedule.prog (s : Schedule) (i : Nat) : List Op := (s.filter fun x => x.1 == i).map (·.2)

/-- The threads use different objects: `owner a = some i`: the object at address `a` is used only by thread `i`; `owner a = none`: it
is shared, and no thread modifies it. -/
def Separate (cfg : Cfg) (owner : Nat → Option Nat) (s : Schedule) : Prop :=
  ∀ i op, (i, op) ∈ s → (∀ a ∈ op.writes cfg, owner a = some i) ∧ ∀ a ∈ op.addrs, owner a = some i ∨ owner a = none

/-! ### Threads whose operations may throw -/

/-- Time passes: memory was allocated, objects were created and functions were called elsewhere. Nothing happened to the objects and the
memory there are. -/
structure Elapse (v v' : World) : Prop where
  anys : v'.anys = v.anys
  blks : v'.blks = v.blks
  nextBlk : v.nextBlk ≤ v'.nextBlk
  nextObj : v.nextObj ≤ v'.nextObj
  tick : v.tick ≤ v'.tick
  born : ∀ i, i < v.nextObj → v'.born i = v.born i

/-- The program of a thread. What it does after an operation may depend on whether the operation returned (`true`) or threw. -/
inductive Prog where
  | done
  | step (op : Op) (next : Bool → Prog)

/-- The operation returned (`r = true`) or threw, and the world is then `v'`. -/
def Ends (cfg : Cfg) (op : Op) (v : World) (r : Bool) (v' : World) : Prop := exec cfg op v = if r then .ok () v' else .exn v'

/-- Runs of one thread alone, in a world that only this thread changes: what it did, and what it has yet to do. -/
inductive Alone (cfg : Cfg) : World → Prog → List (Op × Bool) → World → Prog → Prop
  | nil {v p} : Alone cfg v p [] v p
  | elapse {v v1 p t v' p'} : Elapse v v1 → Alone cfg v1 p t v' p' → Alone cfg v p t v' p'
  | step {v op next r v1 t v' p'} : Legal cfg v op → Ends cfg op v r v1 → Alone cfg v1 (next r) t v' p' →
      Alone cfg v (.step op next) ((op, r) :: t) v' p'

/-- The thread alone never executes an operation that is not legal. -/
def SafeAlone (cfg : Cfg) (v : World) (p : Prog) : Prop := ∀ t v' op next, Alone cfg v p t v' (.step op next) → Legal cfg v' op

/-- Runs of several threads in one world: which thread did what. -/
inductive Interleaved (cfg : Cfg) : World → (Nat → Prog) → List (Nat × Op × Bool) → World → (Nat → Prog) → Prop
  | nil {w P} : Interleaved cfg w P [] w P
  | step {w P i op next r w1 s w' P'} : P i = .step op next → Ends cfg op w r w1 →
      Interleaved cfg w1 (fun j => if j = i then next r else P j) s w' P' → Interleaved cfg w P ((i, op, r) :: s) w' P'

/-- What thread `i` did. -/
def traceOf (s : List (Nat × Op × Bool)) (i : Nat) : List (Op × Bool) := (s.filter fun x => x.1 == i).map (·.2)

/-- The program uses only objects of thread `i` (`owner a = some i`) and shared ones (`owner a = none`), and modifies only the former. -/
def Prog.Uses (cfg : Cfg) (owner : Nat → Option Nat) (i : Nat) : Prog → Prop
  | .done => True
  | .step op next => (∀ a ∈ op.writes cfg, owner a = some i) ∧ (∀ a ∈ op.addrs, owner a = some i ∨ owner a = none) ∧
      ∀ r, (next r).Uses cfg owner i

/-- The objects that thread `i` uses. -/
def sees (owner : Nat → Option Nat) (i a : Nat) : Bool := owner a == some i || owner a == none

end AnyAny.Mem
