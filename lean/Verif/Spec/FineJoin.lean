import Verif.Spec.Fine
/-
Threads are started and joined: a program executes operations one after the other and, in between, runs threads at the same time and waits for all
of them to end.
-/
namespace AnyAny.Fine
open AnyAny.Mem (Cfg World Op Prog Legal Ends SafeAlone only sees)

/-- How often the threads `0`, ..., `N - 1`, all that happened before included, have destroyed the object `id`. Each thread counts from the number at
the beginning. -/
def Machine.dtorsOf (w : World) (N : Nat) (m : Machine) (id : Nat) : Nat :=
  w.dtors id + ((List.range N).map fun i => (m.priv i).dtors id - w.dtors id).sum

/-- How often the block `b` was given back. -/
def Machine.freesOf (w : World) (N : Nat) (m : Machine) (b : Nat) : Nat :=
  w.frees b + ((List.range N).map fun i => (m.priv i).frees b - w.frees b).sum

/-- The object `id` was made: before the threads began or by one of them. -/
def Machine.Made (w : World) (N B : Nat) (m : Machine) (id : Nat) : Prop :=
  id < w.nextObj ∨ ∃ i, i < N ∧ w.nextObj + i * B ≤ id ∧ id < (m.priv i).nextObj

/-- The block `b` was allocated: before the threads began or by one of them. -/
def Machine.Allocated (w : World) (N B : Nat) (m : Machine) (b : Nat) : Prop :=
  b < w.nextBlk ∨ ∃ i, i < N ∧ w.nextBlk + i * B ≤ b ∧ b < (m.priv i).nextBlk

/-- The type of the object `id`. -/
def Machine.typeOf (w : World) (B : Nat) (m : Machine) (id : Nat) : Nat :=
  if id < w.nextObj then w.born id else (m.priv ((id - w.nextObj) / B)).born id

open Classical in
/-- The world after the threads `0`, ..., `N - 1` that began in `w` were joined. Names that no thread used are not used later either: they count as
those of objects and blocks that are gone. -/
noncomputable def Machine.joined (w : World) (N B : Nat) (m : Machine) : World where
  anys := m.anys
  blks := m.blks
  nextBlk := w.nextBlk + N * B
  nextObj := w.nextObj + N * B
  born := m.typeOf w B
  dtors id := if m.Made w N B id then m.dtorsOf w N id else if id < w.nextObj + N * B then 1 else 0
  frees b := if m.Allocated w N B b then m.freesOf w N b else if b < w.nextBlk + N * B then 1 else 0
  copies := w.copies + ((List.range N).map fun i => (m.priv i).copies - w.copies).sum
  tick := w.tick + ((List.range N).map fun i => (m.priv i).tick - w.tick).sum

/-- Threads `0`, ..., `N - 1` that use different objects, apart from objects that all of them only read, and would each never break a rule if they
were alone with the objects they use. -/
structure Fork (cfg : Cfg) (faults : Nat → Nat → Bool) (w : World) (owner : Nat → Option Nat) (P : Nat → Prog) (N : Nat) : Prop where
  uses : ∀ i, (P i).Uses cfg owner i
  safe : ∀ i, SafeAlone (cfgOf cfg faults i) (only (sees owner i) w) (P i)
  owners : ∀ a i, owner a = some i → i < N
  threads : ∀ i, N ≤ i → P i = .done

/-- First numbers not used yet: of blocks, of objects, of calls. -/
structure Names where
  blk : Nat
  obj : Nat
  tick : Nat

/-- Those of a world. -/
def namesOf (w : World) : Names := ⟨w.nextBlk, w.nextObj, w.tick⟩

def Names.Le (x y : Names) : Prop := x.blk ≤ y.blk ∧ x.obj ≤ y.obj ∧ x.tick ≤ y.tick

/-- The names up to `top` are not used: they count as those of objects and blocks that are gone. -/
def skip (top : Names) (w : World) : World :=
  { w with
    nextBlk := top.blk
    nextObj := top.obj
    tick := top.tick
    dtors := fun id => w.dtors id + if w.nextObj ≤ id ∧ id < top.obj then 1 else 0
    frees := fun b => w.frees b + if w.nextBlk ≤ b ∧ b < top.blk then 1 else 0 }

/-- Worlds in the course of a program that executes operations and runs threads. -/
inductive Session (cfg : Cfg) : World → Prop
  | init : Session cfg .init
  | op {w w' : World} {op : Op} {r : Bool} : Session cfg w → Legal cfg w op → Ends cfg op w r w' → Session cfg w'
  | skip {w : World} {top : Names} : Session cfg w → (namesOf w).Le top → Session cfg (skip top w)
  | join {w : World} {faults : Nat → Nat → Bool} {owner : Nat → Option Nat} {P : Nat → Prog} {N B : Nat} {tr : List Event} {m : Machine} :
      Session cfg w → Fork cfg faults w owner P N → Exec cfg faults w P B tr m → (∀ i, m.thread i = .idle .done) → Session cfg (m.joined w N B)

end AnyAny.Fine
