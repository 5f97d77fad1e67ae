import Verif.Spec.FineJoin
/-
Threads that hand objects over to each other and take turns with them: by locks, queues, atomic flags or any other means. The threads are arbitrary
code: whenever a thread is not executing an operation, it may begin any operation, on any objects, if

* the operation is legal in the state in which the objects are at that moment, and
* no other thread is executing an operation that modifies an object this one uses, or that uses an object this one modifies.

This is what locks are for; how a program achieves it is not part of the model. An operation performs one access after the other, and between two
accesses the other threads perform any number of theirs.

Numbers for bookkeeping (names of new blocks and objects, numbers of calls) are set aside when an operation begins: any number that suffices. Which of its
calls throw is arbitrary, `cfg.faults`.
-/
namespace AnyAny.Sync
open AnyAny.Fine
open AnyAny.Mem (Cfg World Op Legal Ends)

/-- What a thread is doing: no operation, or `op`, of which `t` has yet to be performed. `book` is the bookkeeping of the operation (its fields `anys` and
`blks` are not used), counted from the beginning of the operation. It may use the names from `base` on and below `top`. -/
inductive Doing : Type 1 where
  | nothing
  | busy (op : Op) (t : Tree Unit) (base top : Names) (book : World)

structure Machine : Type 1 where
  /-- the memory, and the bookkeeping of the operations that have ended -/
  mem : World
  thread : Nat → Doing

/-- What a step of an operation acts on. -/
def Machine.world (m : Machine) (book : World) : World := { book with anys := m.mem.anys, blks := m.mem.blks }

def Machine.set (m : Machine) (i : Nat) (d : Doing) : Machine := { m with thread := fun j => if j = i then d else m.thread j }

/-- Thread `j` is executing an operation that modifies an object that `op` uses, or that uses an object that `op` modifies. -/
def Machine.Conflict (cfg : Cfg) (m : Machine) (op : Op) (j : Nat) : Prop :=
  ∃ op' t base top book, m.thread j = .busy op' t base top book ∧
    ((∃ a, a ∈ op'.writes cfg ∧ a ∈ op.addrs) ∨ ∃ a, a ∈ op'.addrs ∧ a ∈ op.writes cfg)

/-- The bookkeeping of an operation at its beginning. -/
def fresh (w : World) : World := { w with dtors := fun _ => 0, frees := fun _ => 0, copies := 0 }

/-- An operation has ended: its bookkeeping becomes part of that of all, and the names it has not used are given up. -/
def settle (base top : Names) (book w : World) : World :=
  { w with
    born := fun id => if base.obj ≤ id ∧ id < top.obj then book.born id else w.born id
    dtors := fun id => w.dtors id + (book.dtors id + if book.nextObj ≤ id ∧ id < top.obj then 1 else 0)
    frees := fun b => w.frees b + (book.frees b + if book.nextBlk ≤ b ∧ b < top.blk then 1 else 0)
    copies := w.copies + book.copies }

inductive Event where
  /-- thread `i` begins an operation -/
  | starts (i : Nat) (op : Op)
  /-- thread `i` accesses a location -/
  | access (i : Nat) (l : Loc) (write : Bool)
  /-- an operation of thread `i` returns (`r = true`) or throws -/
  | ends (i : Nat) (op : Op) (r : Bool)

/-- The event of an access. -/
def accessEvent (i : Nat) : Option (Loc × Bool) → List Event
  | none => []
  | some (l, wr) => [.access i l wr]

/-- One step of one thread. -/
inductive Step (cfg : Cfg) : Machine → List Event → Machine → Prop
  /-- an operation begins -/
  | start {m : Machine} {i : Nat} {op : Op} {top : Names} : m.thread i = .nothing → Legal cfg m.mem op → (∀ j, ¬ m.Conflict cfg op j) →
      (namesOf m.mem).Le top → Step cfg m [.starts i op]
        { mem := { m.mem with nextBlk := top.blk, nextObj := top.obj, tick := top.tick }
          thread := fun j => if j = i then .busy op (exec cfg op) (namesOf m.mem) top (fresh m.mem) else m.thread j }
  /-- an access -/
  | act {m : Machine} {i : Nat} {op : Op} {base top : Names} {book : World} {β : Type} {A : Act β} {k : β → Tree Unit} {b : β} {v : World} :
      m.thread i = .busy op (.act A k) base top book → A.exec cfg (m.world book) = .ok b v → (namesOf v).Le top →
      Step cfg m (accessEvent i (A.accesses (m.world book)))
        { mem := { m.mem with anys := v.anys, blks := v.blks }
          thread := fun j => if j = i then .busy op (k b) base top v else m.thread j }
  /-- the operation returns -/
  | ret {m : Machine} {i : Nat} {op : Op} {base top : Names} {book : World} : m.thread i = .busy op (.ret ()) base top book →
      Step cfg m [.ends i op true]
        { mem := settle base top book m.mem
          thread := fun j => if j = i then .nothing else m.thread j }
  /-- the operation throws -/
  | exn {m : Machine} {i : Nat} {op : Op} {base top : Names} {book : World} : m.thread i = .busy op .exn base top book →
      Step cfg m [.ends i op false]
        { mem := settle base top book m.mem
          thread := fun j => if j = i then .nothing else m.thread j }

/-- Executions that begin in `w`: what happened so far, and the state. -/
inductive Exec (cfg : Cfg) (w : World) : List Event → Machine → Prop
  | init : Exec cfg w [] ⟨w, fun _ => .nothing⟩
  | step {tr : List Event} {m : Machine} {es : List Event} {m' : Machine} : Exec cfg w tr m → Step cfg m es m' → Exec cfg w (tr ++ es) m'

/-- The behaviour of the next step of thread `i` is undefined. -/
def Machine.Undefined (cfg : Cfg) (m : Machine) (i : Nat) : Prop :=
  ∃ op t base top book, m.thread i = .busy op t base top book ∧
    (t = .ub ∨ ∃ (β : Type) (A : Act β) (k : β → Tree Unit), t = .act A k ∧ A.exec cfg (m.world book) = .ub)

/-- Between two accesses, what happened in between being `tr`, an operation of `i` ended and then one of `j` began. The program can have synchronised the two
threads there. -/
def Ordered (i j : Nat) (tr : List Event) : Prop :=
  ∃ t1 op r t2 op' t3, tr = t1 ++ Event.ends i op r :: t2 ++ Event.starts j op' :: t3

/-- A data race: two threads access the same location, at least one of them writes, and the operation to which the second access belongs began before that
of the first access ended. -/
def Race (tr : List Event) : Prop :=
  ∃ t1 i l x t2 j y t3, tr = t1 ++ Event.access i l x :: t2 ++ Event.access j l y :: t3 ∧ i ≠ j ∧ (x = true ∨ y = true) ∧ ¬ Ordered i j t2

/-- The operations that have ended of thread `i`. -/
def opsOf : List Event → Nat → List (Op × Bool)
  | [], _ => []
  | .ends j op r :: tr, i => if j = i then (op, r) :: opsOf tr i else opsOf tr i
  | _ :: tr, i => opsOf tr i

/-- The operations in the order in which they began. -/
def starts : List Event → List (Nat × Op)
  | [] => []
  | .starts i op :: tr => (i, op) :: starts tr
  | _ :: tr => starts tr

/-- Operations one after the other: which thread did what, and what came out of it. -/
inductive Seq (cfg : Cfg) : World → List (Nat × Op × Bool) → World → Prop
  | nil {w : World} : Seq cfg w [] w
  | op {w w1 w2 : World} {h : List (Nat × Op × Bool)} {i : Nat} {op : Op} {r : Bool} : Seq cfg w h w1 → Legal cfg w1 op → Ends cfg op w1 r w2 →
      Seq cfg w (h ++ [(i, op, r)]) w2
  | skip {w w1 : World} {h : List (Nat × Op × Bool)} {top : Names} : Seq cfg w h w1 → (namesOf w1).Le top → Seq cfg w h (skip top w1)

/-- What thread `i` did in such a sequence. -/
def doneBy (i : Nat) (h : List (Nat × Op × Bool)) : List (Op × Bool) := (h.filter fun x => x.1 == i).map (·.2)

/-- No operation that is in progress modifies the object at `a`. -/
def Machine.Still (cfg : Cfg) (m : Machine) (a : Nat) : Prop :=
  ∀ i op t base top book, m.thread i = .busy op t base top book → a ∉ op.writes cfg

end AnyAny.Sync
