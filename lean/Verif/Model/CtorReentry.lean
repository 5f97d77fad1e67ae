/-
Constructors, copy constructors, destructors and methods that use anys (include/anyany/anyany.hpp:177-193, 1013-1032, 1128-1150, 1199-1209, 1219-1225, 1250-1261, 1376-1388, 1438-1462, 1466-1511,
include/anyany/noexport/anyany_details.hpp:264-286): `emplace` runs the
constructor of the new value when the old one is destroyed and the memory is there, and sets `vtable_ptr` afterwards (1460-1461), so that the any is
empty while the constructor runs. If the constructor throws, memory that was allocated for it is released (1138-1145). `destroy_value` runs the
destructor and then sets `vtable_ptr` to null (1386-1387), so that the any still looks as if it had the value. Copying runs the copy constructor and then
reads `vtable_ptr` of the any that is copied (1203-1208). A method is called through `vtable_ptr`, with the object under `value_ptr` (1013-1032), and nothing is done
after it. All of these are programs;
values and anys are numbers. Allocations succeed; move constructors (1482), the destructors of objects moved from, and allocators that differ are left
out (C01-C19 have them, with constructors and destructors that do not use anys).
-/
namespace AnyAny.CtorReentry

/-- What a constructor, destructor or method (or a caller) does with anys, in the order it does it. What it does next can depend on `has_value()`, and on whether the
constructor that `emplace` or a copy calls, or the method, threw an exception (`true`: it did, and the exception is caught; followed by `raise`, it is not). Code of the
user, called at anyany.hpp:177-193, 1386 and 1460, anyany_details.hpp:268-277. What methods do with their own object is left out (C119 has it). -/
inductive Prog where
  | done
  | raise
  | reset (a : Nat) (k : Prog)
  | emplace (a v : Nat) (k : Bool → Prog)
  | moveAssign (a b : Nat) (k : Prog)
  | copyAssign (a b : Nat) (k : Bool → Prog)
  | hasValue (a : Nat) (k : Bool → Prog)
  | call (a m : Nat) (k : Bool → Prog)

/-- An any: a variable of the user, or the local variable `value` of a copy assignment (anyany.hpp:1251), which the user cannot name. -/
inductive Id where
  | var (a : Nat)
  | tmp (n : Nat)
  deriving DecidableEq, Repr

/-- Storage: the member `data` of an any (anyany.hpp:1119), or allocated memory (1134). -/
inductive Loc where
  | data (a : Id)
  | blk (b : Nat)
  deriving DecidableEq, Repr

/-- An any: the value that `vtable_ptr` belongs to, `value_ptr`, `size_allocated` (anyany.hpp:1115-1121). -/
structure AnySt where
  vt : Option Nat
  ptr : Loc
  size : Nat
  deriving DecidableEq, Repr

/-- An object whose constructor is running, one between constructor and destructor, and one whose destructor is running. Language rule
([basic.life]), for anyany.hpp:1386, 1460. -/
inductive Phase where
  | building
  | alive
  | dying
  deriving DecidableEq, Repr

/-- The anys, the objects in storage, the memory that was released, the sizes it was allocated with, and the
number of the next memory allocated, and of the next local variable. Language rule: lifetime of objects; for anyany.hpp:1115-1134. -/
structure St where
  any : Id → AnySt
  obj : Loc → Option (Nat × Phase)
  freed : Nat → Bool
  sizes : Nat → Nat
  next : Nat
  tmps : Nat

/-- Language rule, no code of the library; the ways a call of anyany.hpp:1219-1225, 1376-1388, 1438-1454 can end. -/
inductive Out where
  | ok (s : St)
  /-- an exception leaves it -/
  | exn (s : St)
  /-- `std::terminate`: an exception in a destructor or in a constructor that is `noexcept` -/
  | term
  /-- storage of an object is released or used for another object, an object that is not alive is used or destroyed -/
  | ub
  /-- not finished within the given number of calls -/
  | timeout

/-- Language rule, no code of the library; sequencing, for anyany.hpp:1438-1454. -/
def Out.bind (o : Out) (f : St → Out) : Out :=
  match o with
  | .ok s => f s
  | .exn s => .exn s
  | .term => .term
  | .ub => .ub
  | .timeout => .timeout

/-- What is done when an exception passes: a `scope_failure` (anyany.hpp:1139-1142) or the end of the lifetime of a half-built object (1460). -/
def Out.onExn (o : Out) (f : St → Out) : Out :=
  match o with
  | .ok s => .ok s
  | .exn s => f s
  | .term => .term
  | .ub => .ub
  | .timeout => .timeout

/-- No code of the library: update of a function (anyany.hpp:1115). -/
def upd {κ α : Type} [DecidableEq κ] (f : κ → α) (a : κ) (x : α) : κ → α := fun b => if b = a then x else f b

/-- What is asked of a value: does its type fit in the buffer (`any_is_small_for`, anyany.hpp:1126), `sizeof`, is the constructor `noexcept`
(1136), the constructor, the destructor, the same of the copy constructor (anyany_details.hpp:272), and its methods (177-193), which are not `noexcept`. -/
structure Ty where
  small : Bool
  size : Nat
  nothrow : Bool
  ctor : Prog
  dtor : Prog
  copyNothrow : Bool
  copy : Prog
  meth : Nat → Prog

/-- `destroy_value()` (anyany.hpp:1383-1388); `run` runs the destructor. -/
def destroyValue (T : Nat → Ty) (run : Prog → St → Out) (a : Id) (s : St) : Out :=
  match (s.any a).vt with
  | none => .ok s
  | some v =>
    let l := (s.any a).ptr
    if s.obj l = some (v, .alive) then
      match run (T v).dtor { s with obj := upd s.obj l (some (v, .dying)) } with
      | .ok s =>
        if s.obj l = some (v, .dying) then .ok { s with any := upd s.any a { s.any a with vt := none }, obj := upd s.obj l none }
        else .ub
      | .exn _ => .term
      | o => o
    else .ub

/-- `alloc.deallocate(value_ptr, size); value_ptr = data` (anyany.hpp:1140-1141, 1508-1509): it has to be memory that was allocated with this size, and
nothing may live in it. -/
def release (a : Id) (size : Nat) (s : St) : Option St :=
  match (s.any a).ptr with
  | .data _ => none
  | .blk b =>
    if s.freed b = false ∧ s.obj (.blk b) = none ∧ s.sizes b = size then
      some { s with any := upd s.any a { s.any a with ptr := .data a }, freed := upd s.freed b true }
    else none

/-- `deallocate_memory()` (anyany.hpp:1506-1510). -/
def deallocate (a : Id) (s : St) : Out :=
  if (s.any a).vt = none then
    match release a (s.any a).size s with
    | some s => .ok s
    | none => .ub
  else .ub

/-- `reset()` (anyany.hpp:1376-1380). -/
def reset (T : Nat → Ty) (run : Prog → St → Out) (a : Id) (s : St) : Out :=
  (destroyValue T run a s).bind fun s => if (s.any a).ptr ≠ .data a then deallocate a s else .ok s

/-- `construct_value` (anyany.hpp:1456-1462), and the reference that `emplace_decayed` returns (1453), which has to be to the new value; also the
construction of a copy (anyany_details.hpp:268, 273-280, anyany.hpp:1203-1208). `run` runs the constructor `c`, and `vtable_ptr` becomes `vt`. The object
needs room in the storage. If the constructor throws there is no object, and `vtable_ptr` is not set. -/
def construct (T : Nat → Ty) (run : Prog → St → Out) (nothrow : Bool) (c : Prog) (vt : St → Option Nat) (a : Id) (v : Nat) (s : St) : Out :=
  let l := (s.any a).ptr
  if s.obj l = none ∧ (if l = .data a then (T v).small = true else (T v).size ≤ (s.any a).size) then
    match run c { s with obj := upd s.obj l (some (v, .building)) } with
    | .ok s =>
      if (s.any a).ptr = l ∧ s.obj l = some (v, .building) then
        .ok { s with any := upd s.any a { s.any a with vt := vt s }, obj := upd s.obj l (some (v, .alive)) }
      else .ub
    | .exn s =>
      if nothrow then .term
      else if s.obj l = some (v, .building) then .exn { s with obj := upd s.obj l none }
      else .ub
    | o => o
  else .ub

/-- `emplace_in_empty` (anyany.hpp:1128-1150), and `copy_fn` (anyany_details.hpp:264-286). Simplified for the latter: `value_ptr` and `size_allocated` are
set (anyany_details.hpp:283, anyany.hpp:1203) before the constructor runs; no one sees this any before. -/
def inEmpty (T : Nat → Ty) (run : Prog → St → Out) (nothrow : Bool) (c : Prog) (vt : St → Option Nat) (a : Id) (v : Nat) (s : St) : Out :=
  if (T v).small then construct T run nothrow c vt a v s
  else
    let s := { s with any := upd s.any a { s.any a with ptr := .blk s.next, size := (T v).size },
                      sizes := upd s.sizes s.next (T v).size, next := s.next + 1 }
    if nothrow then construct T run nothrow c vt a v s
    else (construct T run nothrow c vt a v s).onExn fun s =>
      match release a (T v).size s with
      | some s => .exn s
      | none => .ub

/-- `emplace_decayed` (anyany.hpp:1438-1454), for `emplace` and assignment of a value (1274-1285). -/
def emplace (T : Nat → Ty) (run : Prog → St → Out) (a : Id) (v : Nat) (s : St) : Out :=
  (destroyValue T run a s).bind fun s =>
    if (s.any a).ptr = .data a then inEmpty T run (T v).nothrow (T v).ctor (fun _ => some v) a v s
    else if (s.any a).size < (T v).size then (deallocate a s).bind (inEmpty T run (T v).nothrow (T v).ctor (fun _ => some v) a v)
    else construct T run (T v).nothrow (T v).ctor (fun _ => some v) a v s

/-- `move_value_from` (anyany.hpp:1466-1498): values in the buffer are moved, memory changes its owner. The assertion is the first line. -/
def moveValueFrom (a b : Id) (s : St) : Out :=
  if (s.any a).vt = none ∧ (s.any a).ptr = .data a then
    match (s.any b).vt with
    | none => .ok s
    | some v =>
      if (s.any b).ptr = .data b then
        if s.obj (.data b) = some (v, .alive) ∧ s.obj (.data a) = none then
          .ok { s with any := upd (upd s.any a { s.any a with vt := some v }) b { s.any b with vt := none },
                       obj := upd (upd s.obj (.data b) none) (.data a) (some (v, .alive)) }
        else .ub
      else .ok { s with any := upd (upd s.any a ⟨some v, (s.any b).ptr, (s.any b).size⟩) b ⟨none, .data b, (s.any b).size⟩ }
  else .ub

/-- Move assignment (anyany.hpp:1219-1225), for allocators that are always equal. -/
def moveAssign (T : Nat → Ty) (run : Prog → St → Out) (a b : Id) (s : St) : Out :=
  if a = b then .ok s else (reset T run a s).bind (moveValueFrom a b)

/-- The copy constructor of anys (anyany.hpp:1199-1209), for a new any `t`. The object that is copied has to be alive. -/
def copyCtor (T : Nat → Ty) (run : Prog → St → Out) (t b : Id) (s : St) : Out :=
  match (s.any b).vt with
  | none => .ok s
  | some v =>
    if s.obj (s.any b).ptr = some (v, .alive) then inEmpty T run (T v).copyNothrow (T v).copy (fun s => (s.any b).vt) t v s
    else .ub

/-- Copy assignment (anyany.hpp:1250-1261), for allocators that are always equal: a copy in a local variable, which is moved, and destroyed at the end. -/
def copyAssign (T : Nat → Ty) (run : Prog → St → Out) (a b : Id) (s : St) : Out :=
  let t := .tmp s.tmps
  (copyCtor T run t b { s with tmps := s.tmps + 1 }).bind fun s => (moveAssign T run a t s).bind (reset T run t)

/-- `invoke<Method>(any)` (anyany.hpp:1013-1032): the function in the vtable (177-193) is called with the object. An empty any has no vtable, and the object has to be alive. -/
def call (T : Nat → Ty) (run : Prog → St → Out) (a : Id) (m : Nat) (s : St) : Out :=
  match (s.any a).vt with
  | none => .ub
  | some v => if s.obj (s.any a).ptr = some (v, .alive) then run ((T v).meth m) s else .ub

/-- Runs a program; `fuel` bounds the number of nested calls (anyany.hpp:1013-1032, 1219-1225, 1250-1261, 1376-1380, 1418-1420, 1438-1454). -/
def run (T : Nat → Ty) : Nat → Prog → St → Out
  | 0, _, _ => .timeout
  | _ + 1, .done, s => .ok s
  | _ + 1, .raise, s => .exn s
  | n + 1, .reset a k, s => (reset T (run T n) (.var a) s).bind (run T n k)
  | n + 1, .emplace a v k, s =>
    match emplace T (run T n) (.var a) v s with
    | .ok s => run T n (k false) s
    | .exn s => run T n (k true) s
    | o => o
  | n + 1, .moveAssign a b k, s => (moveAssign T (run T n) (.var a) (.var b) s).bind (run T n k)
  | n + 1, .copyAssign a b k, s =>
    match copyAssign T (run T n) (.var a) (.var b) s with
    | .ok s => run T n (k false) s
    | .exn s => run T n (k true) s
    | o => o
  | n + 1, .hasValue a k, s => run T n (k (s.any (.var a)).vt.isSome) s
  | n + 1, .call a m k, s =>
    match call T (run T n) (.var a) m s with
    | .ok s => run T n (k false) s
    | .exn s => run T n (k true) s
    | o => o

end AnyAny.CtorReentry
