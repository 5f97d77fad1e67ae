import Verif.Spec.AnyRun
/-
What happens to the contained objects in one operation: the analogue of the tables of iterator invalidation of
the standard library. A pointer or reference to the value of an any (from `any_cast<T>(&a)`, `*&a`, `this` inside
of a method...) is a pointer to the object, so it is usable afterwards just if the object still exists and still
is where it was.
-/
namespace AnyAny.Mem

/-- `a.is_stable_pointers()`: the value is in allocated memory, not in the buffer. -/
def stablePtrs (w : World) (a : Nat) : Bool := (memOf w a).isSome

/-- The allocators of the two anys are really different and not exchanged by move assignment. -/
def diffAlloc (cfg : Cfg) (w : World) (a b : Nat) : Bool :=
  match allocOf w a, allocOf w b with
  | some x, some y => decide (AllocsDiffer cfg x y)
  | _, _ => false

/-- The any that contains the object of the any `a` after the successful operation `op`, without that the object
has changed its address; `none`: the object was destroyed.
* `c.reset()`, `c.~any()`, `c.emplace<T>(…)`, … and copy assignment to `c` (also from `c` itself) destroy the object of `c`;
* a move takes the object along if it is in allocated memory and the allocator allows it, otherwise a new object
  is constructed and the old one destroyed; the object of the target of an assignment is destroyed;
* self move assignment and everything else leave all objects where they are. -/
def fate (cfg : Cfg) (w : World) (a : Nat) : Op → Option Nat
  | .dtor c | .reset c | .destroyValue c | .replaceWithBytes c _ | .emplace c _ _ _ | .copyAssign c _ _ =>
    if a = c then none else some a
  | .moveCtor c o | .transMoveCtor c _ o =>
    if a = o then (if stablePtrs w o then some c else none) else some a
  | .moveAssign c o =>
    if c = o then some a
    else if a = c then none
    else if a = o then (if stablePtrs w o && !diffAlloc cfg w c o then some c else none)
    else some a
  | .swap c d _ =>
    if a = c then (if stablePtrs w c && !diffAlloc cfg w c d then some d else none)
    else if a = d then (if stablePtrs w d && !diffAlloc cfg w c d then some c else none)
    else some a
  | _ => some a

/-- The object `o` (its identity and type) is contained in the any `b` and is at the address `p`. -/
def Contains (w : World) (b : Nat) (o : Obj) (p : Ptr) : Prop :=
  ∃ o', content w b = some o' ∧ o'.id = o.id ∧ o'.ty = o.ty ∧ addrOf w b = some p

/-- The object `o` is not contained in any any. -/
def Gone (w : World) (o : Obj) : Prop := ∀ c o', content w c = some o' → o'.id ≠ o.id

end AnyAny.Mem
