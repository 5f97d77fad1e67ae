/-
Destructors that use anys (include/anyany/anyany.hpp:1191-1194, 1219-1251, 1374-1388, 1438-1454, 1464-1496): `destroy_value` runs the destructor of the contained value
and sets `vtable_ptr` to null afterwards (1386-1387), so that the any still looks as if it had the value while the destructor runs. Destructors are
programs; values and anys are numbers. Memory, exceptions and allocators are left out (C01-C19 have them, with destructors that do not use anys).
-/
namespace AnyAny.Reentry

/-- What a destructor (or a caller) does with anys, in the order it does it. What it does next can
    depend on `has_value()`. Code of the user, called at anyany.hpp:1386. -/
inductive Prog where
  | done
  | reset (a : Nat) (k : Prog)
  | emplace (a v : Nat) (k : Prog)
  | moveAssign (a b : Nat) (k : Prog)
  | hasValue (a : Nat) (k : Bool → Prog)

/-- The contents of the anys (`some`: `vtable_ptr` is not null); the anys whose value is being
    destroyed. (anyany.hpp:1115, 1386-1387.) -/
structure St where
  vals : Nat → Option Nat
  dying : Nat → Bool

/-- Language rule, no code of the library; the ways a call of anyany.hpp:1219-1251, 1376-1388,
    1438-1454 can end. -/
inductive Out where
  | ok (s : St)
  /-- a destroyed object is destroyed again or moved from -/
  | ub
  /-- not finished within the given number of calls -/
  | timeout

/-- No code of the library: update of the state of the anys (anyany.hpp:1115). -/
def upd {α : Type} (f : Nat → α) (a : Nat) (x : α) : Nat → α := fun b => if b = a then x else f b

/-- Language rule, no code of the library; sequencing, for anyany.hpp:1219-1251, 1376-1388,
    1438-1454. -/
def Out.bind (o : Out) (f : St → Out) : Out :=
  match o with
  | .ok s => f s
  | .ub => .ub
  | .timeout => .timeout

/-- `destroy_value()` (1383-1388), and `reset()` and `~basic_any()`, which call it (1376-1380, 1191-1194); `run` runs a destructor. -/
def destroyValue (D : Nat → Prog) (run : Prog → St → Out) (a : Nat) (s : St) : Out :=
  match s.vals a with
  | none => .ok s
  | some v =>
    if s.dying a then .ub
    else (run (D v) { s with dying := upd s.dying a true }).bind fun s =>
      .ok { vals := upd s.vals a none, dying := upd s.dying a false }

/-- `move_value_from(other)` (1464-1496). Simplified: to take along the memory of an object that is being destroyed is undefined behaviour here; with
storage (Model/CtorReentry.lean, C116_dtor_moved_fails) the any then has a destroyed object. -/
def moveValueFrom (a b : Nat) (s : St) : Out :=
  match s.vals b with
  | none => .ok s
  | some v =>
    if s.dying b then .ub
    else .ok { s with vals := upd (upd s.vals b none) a (some v) }

/-- Runs a program; `fuel` bounds the number of nested calls. `emplace` (`emplace_decayed`, 1438-1454) and move assignment (1219-1251) begin with
`destroy_value`. -/
def run (D : Nat → Prog) : Nat → Prog → St → Out
  | 0, _, _ => .timeout
  | _ + 1, .done, s => .ok s
  | n + 1, .reset a k, s => (destroyValue D (run D n) a s).bind (run D n k)
  | n + 1, .emplace a v k, s => (destroyValue D (run D n) a s).bind fun s => run D n k { s with vals := upd s.vals a (some v) }
  | n + 1, .moveAssign a b k, s =>
    if a = b then run D n k s
    else (destroyValue D (run D n) a s).bind fun s => (moveValueFrom a b s).bind (run D n k)
  | n + 1, .hasValue a k, s => run D n (k (s.vals a).isSome) s

end AnyAny.Reentry
