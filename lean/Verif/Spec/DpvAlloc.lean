import Verif.Model.DpvAlloc
/-
The allocator of a `std::vector<T, Alloc>` after a history of operations, and histories of `data_parallel_vector`.
-/
namespace AnyAny.DpvAlloc

variable {n : Nat}

inductive Op where
  /-- `v d` -/
  | make (d : Nat)
  /-- `v d(alloc)` -/
  | makeAlloc (d a : Nat)
  /-- `v d(count, value, alloc)`, `v d(count, alloc)` -/
  | count (d a : Nat)
  /-- `v d(first, last, alloc)`, `v d({...}, alloc)` -/
  | range (d a : Nat)
  /-- `v d(s)` -/
  | copy (d s : Nat)
  /-- `v d(s, alloc)` -/
  | copyAlloc (d s a : Nat)
  /-- `v d(std::move(s))` -/
  | move (d s : Nat)
  /-- `v d(std::move(s), alloc)` -/
  | moveAlloc (d s a : Nat)
  | destroy (d : Nat)
  /-- `d = s` -/
  | copyAssign (d s : Nat)
  /-- `d = std::move(s)` -/
  | moveAssign (d s : Nat)
  /-- `d.assign(...)`, `d = {...}` -/
  | assign (d : Nat)
  /-- any other member that changes elements or capacity -/
  | modify (d : Nat)
  /-- `swap(d, e)` -/
  | swap (d e : Nat)

/-- The allocators of `std::vector`s after an operation (C++ standard, [container.alloc.reqmts]). -/
def vectorStep (T : Traits) (S : Nat → Option Nat) : Op → Nat → Option Nat
  | .make d => upd S d (some T.dflt)
  | .makeAlloc d a | .count d a | .range d a | .copyAlloc d _ a | .moveAlloc d _ a => upd S d (some a)
  | .copy d s => upd S d ((S s).map T.select)
  | .move d s => upd S d (S s)
  | .destroy d => upd S d none
  | .copyAssign d s => if T.pocca then upd S d (S s) else S
  | .moveAssign d s => if T.pocma then upd S d (S s) else S
  | .assign _ | .modify _ => S
  | .swap d e => if T.pocs then upd (upd S d (S e)) e (S d) else S

/-- Preconditions: objects exist or do not exist yet; `swap` requires equal allocators if they are not swapped. -/
def Legal (T : Traits) (S : Nat → Option Nat) : Op → Prop
  | .make d | .makeAlloc d _ | .count d _ | .range d _ => S d = none
  | .copy d s | .copyAlloc d s _ | .move d s | .moveAlloc d s _ => S d = none ∧ (S s).isSome
  | .destroy d | .assign d | .modify d => (S d).isSome
  | .copyAssign d s | .moveAssign d s => d ≠ s ∧ (S d).isSome ∧ (S s).isSome
  | .swap d e => d ≠ e ∧ ∃ a b, S d = some a ∧ S e = some b ∧ (T.pocs = true ∨ T.eq a b = true)

/-- The code. `o1` is used by operations that make a temporary. `none`: undefined behaviour; the Boolean: an exception. -/
def exec (T : Traits) (o1 o : Oracle n) (w : World n) : Op → Option (World n × Bool)
  | .make d => some (defaultCtor T o w d)
  | .makeAlloc d a => some (allocCtor o w d a)
  | .count d a => some (countCtor o w d a)
  | .range d a => rangeCtor T o w d a
  | .copy d s => copyCtor T o w d s
  | .copyAlloc d s a => copyCtorAlloc o w d s a
  | .move d s => moveCtor w d s
  | .moveAlloc d s a => moveCtorAlloc T o w d s a
  | .destroy d => dtor T w d
  | .copyAssign d s => copyAssign T o w d s
  | .moveAssign d s => moveAssign T o w d s
  | .assign d => assign T o o1 w d
  | .modify d => modify T o w d
  | .swap d e => swap T w d e

/-- Histories of containers and of `std::vector`s with the same operations; a `std::vector` keeps its allocator if an operation throws, and
an object whose constructor throws does not exist. Excluded: `assign` if allocators are propagated on move assignment, and exceptions in copy assignment if they are
propagated on copy assignment. -/
inductive Reach (T : Traits) : World n → (Nat → Option Nat) → Prop
  | init : Reach T (fun _ => none) fun _ => none
  | step {w S op o1 o w'} (h : Reach T w S) (L : Legal T S op) (hp : ∀ d, op = .assign d → T.pocma = false)
      (he : exec T o1 o w op = some (w', false)) : Reach T w' (vectorStep T S op)
  | throws {w S op o1 o w'} (h : Reach T w S) (L : Legal T S op) (hp : ∀ d, op = .assign d → T.pocma = false)
      (hc : ∀ d s, op = .copyAssign d s → T.pocca = false)
      (he : exec T o1 o w op = some (w', true)) : Reach T w' S

/-- The operands exist or do not exist yet. -/
def Fits (w : World n) : Op → Prop
  | .make d | .makeAlloc d _ | .count d _ | .range d _ => w d = none
  | .copy d s | .copyAlloc d s _ | .move d s | .moveAlloc d s _ => w d = none ∧ (w s).isSome
  | .destroy d | .assign d | .modify d => (w d).isSome
  | .copyAssign d s | .moveAssign d s | .swap d s => d ≠ s ∧ (w d).isSome ∧ (w s).isSome

/-- Any history, with any exceptions. -/
inductive Any (T : Traits) : World n → Prop
  | init : Any T fun _ => none
  | step {w op o1 o w' x} (h : Any T w) (L : Fits w op) (he : exec T o1 o w op = some (w', x)) : Any T w'

end AnyAny.DpvAlloc
