import Verif.Model.Fine
import Verif.Spec.Threads
/-
Threads whose operations run at the same time: each of them performs one access after the other, and between two accesses of one thread
the others perform any number of theirs. The threads have one memory (any objects and blocks). Each thread has its own numbers for bookkeeping
(identities of objects, numbers of calls), and which of its calls throw is a matter of its own: `faults i n` for the `n`th call of thread `i`.
An allocator never returns a block that is in use; in the model the names of blocks are never used twice, and thread `i` gets the names
`N + i * B`, ..., `N + (i + 1) * B - 1`, where `N` is the first unused name at the beginning and `B` is any number of allocations that suffices;
the same for the identities of objects.
-/
namespace AnyAny.Fine
open AnyAny.Mem (Cfg AnySt Blk World Op Prog)

/-- The configuration with which thread `i` runs. -/
def cfgOf (cfg : Cfg) (faults : Nat → Nat → Bool) (i : Nat) : Cfg := { cfg with faults := faults i }

/-- What a thread is doing: it is between two operations of its program, or it is executing one. -/
inductive ThreadState : Type 1 where
  | idle (p : Prog)
  | busy (op : Op) (next : Bool → Prog) (t : Tree Unit)

/-- What the thread has yet to do, beginning with the operation it is executing. -/
def ThreadState.prog : ThreadState → Prog
  | .idle p => p
  | .busy op next _ => .step op next

structure Machine : Type 1 where
  anys : Nat → Option AnySt
  blks : Nat → Option Blk
  thread : Nat → ThreadState
  /-- the bookkeeping of each thread (fields `anys` and `blks` are not used) -/
  priv : Nat → World

/-- What a step of thread `i` acts on: the memory of all, and its own bookkeeping. -/
def Machine.world (m : Machine) (i : Nat) : World := { m.priv i with anys := m.anys, blks := m.blks }

inductive Event where
  /-- thread `i` accesses a location -/
  | access (i : Nat) (l : Loc) (write : Bool)
  /-- an operation of thread `i` returns (`r = true`) or throws -/
  | ends (i : Nat) (op : Op) (r : Bool)

/-- The event of a step. -/
def accessEvent (i : Nat) : Option (Loc × Bool) → List Event
  | none => []
  | some (l, wr) => [.access i l wr]

def Machine.setThread (m : Machine) (i : Nat) (s : ThreadState) : Machine :=
  { m with thread := fun j => if j = i then s else m.thread j }

/-- After a step of thread `i`. -/
def Machine.put (m : Machine) (i : Nat) (v : World) (s : ThreadState) : Machine where
  anys := v.anys
  blks := v.blks
  thread j := if j = i then s else m.thread j
  priv j := if j = i then v else m.priv j

/-- Thread `i` used no more than its names for blocks and objects. -/
def Room (w : World) (B i : Nat) (v : World) : Prop := v.nextBlk ≤ w.nextBlk + (i + 1) * B ∧ v.nextObj ≤ w.nextObj + (i + 1) * B

/-- One step of one thread. The threads began in the world `w`. -/
inductive Step (cfg : Cfg) (faults : Nat → Nat → Bool) (w : World) (B : Nat) : Machine → List Event → Machine → Prop
  /-- an operation begins -/
  | start {m : Machine} {i : Nat} {op : Op} {next : Bool → Prog} : m.thread i = .idle (.step op next) →
      Step cfg faults w B m [] (m.setThread i (.busy op next (exec (cfgOf cfg faults i) op)))
  /-- an access -/
  | act {m : Machine} {i : Nat} {op : Op} {next : Bool → Prog} {β : Type} {A : Act β} {k : β → Tree Unit} {b : β} {v : World} :
      m.thread i = .busy op next (.act A k) → A.exec (cfgOf cfg faults i) (m.world i) = .ok b v → Room w B i v →
      Step cfg faults w B m (accessEvent i (A.accesses (m.world i)))
        (m.put i v (.busy op next (k b)))
  /-- the operation returns -/
  | ret {m : Machine} {i : Nat} {op : Op} {next : Bool → Prog} : m.thread i = .busy op next (.ret ()) →
      Step cfg faults w B m [.ends i op true] (m.setThread i (.idle (next true)))
  /-- the operation throws -/
  | exn {m : Machine} {i : Nat} {op : Op} {next : Bool → Prog} : m.thread i = .busy op next .exn →
      Step cfg faults w B m [.ends i op false] (m.setThread i (.idle (next false)))

/-- The threads `P` begin in the world `w`. -/
def Machine.init (w : World) (P : Nat → Prog) (B : Nat) : Machine where
  anys := w.anys
  blks := w.blks
  thread i := .idle (P i)
  priv i := { w with nextBlk := w.nextBlk + i * B, nextObj := w.nextObj + i * B }

/-- The executions of the threads `P` from `w`: what happened so far, and the state. -/
inductive Exec (cfg : Cfg) (faults : Nat → Nat → Bool) (w : World) (P : Nat → Prog) (B : Nat) : List Event → Machine → Prop
  | init : Exec cfg faults w P B [] (.init w P B)
  | step {tr : List Event} {m : Machine} {es : List Event} {m' : Machine} : Exec cfg faults w P B tr m →
      Step cfg faults w B m es m' → Exec cfg faults w P B (tr ++ es) m'

/-- The behaviour of the next step of thread `i` is undefined. -/
def Machine.Undefined (cfg : Cfg) (faults : Nat → Nat → Bool) (m : Machine) (i : Nat) : Prop :=
  ∃ op next t, m.thread i = .busy op next t ∧
    (t = .ub ∨ ∃ (β : Type) (A : Act β) (k : β → Tree Unit), t = .act A k ∧ A.exec (cfgOf cfg faults i) (m.world i) = .ub)

/-- A data race: two threads access the same location, and at least one of them writes. (The threads do not synchronise, so that no such
accesses are ordered.) -/
def Race (tr : List Event) : Prop :=
  ∃ i j l x y, i ≠ j ∧ .access i l x ∈ tr ∧ .access j l y ∈ tr ∧ (x = true ∨ y = true)

/-- What thread `i` did. -/
def opsOf : List Event → Nat → List (Op × Bool)
  | [], _ => []
  | .access _ _ _ :: tr, i => opsOf tr i
  | .ends j op r :: tr, i => if j = i then (op, r) :: opsOf tr i else opsOf tr i

end AnyAny.Fine
