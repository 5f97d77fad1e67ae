import Verif.Spec.AnyRun
/-
Methods that are programs: a method of a contained type may itself use the anys of the program, also the very any it
was called on (a state machine that replaces its own state, a callback that removes itself, ...), and the program may
keep typed pointers (`any_cast<T>(&a)`) and `poly_ref`s in variables.

`invoke_fn::operator()` (anyany.hpp:1013-1053) reads the function pointer from the vtable, calls it with `value_ptr`
and returns what it returns: nothing of the library runs after the user's code.
-/
namespace AnyAny.Mem.MProg
open AnyAny.Mem AnyAny.TypeList

/-- Bodies of methods and programs. Simplifications: parameters of methods are numbers, they return nothing but
may write to their object or to other anys. The cited lines are those of the library that the action uses
(anyany.hpp).
* `ret`, `raise`: return, or throw;
* `op o k`: an operation on anys; `k true` is the continuation if it threw (and the exception was caught);
* `call a m x k`: `invoke<M>(a, x)` (1020-1024), the method runs in between; `k true` if it threw;
* `take i a t k`: `p_i = any_cast<T>(&a)` (1579-1601); `k true` if the pointer is not null;
* `bind i a ms k`: `r_i` is made a `poly_ref<ms...>` to the value of `a` (832-845, 587-600);
* `callRef i m x k`: `invoke<M>(r_i, x)` (1036-1043);
* `self f k`: in a method: replace the value `v` of the own object by `f v`; `k v`;
* `use i f k`: the same through the pointer `p_i`. -/
inductive Prog where
  | ret
  | raise
  | op (o : Op) (k : Bool → Prog)
  | call (a m x : Nat) (k : Bool → Prog)
  | take (i a t : Nat) (k : Bool → Prog)
  | bind (i a : Nat) (ms : List Method) (k : Prog)
  | callRef (i m x : Nat) (k : Bool → Prog)
  | self (f : Nat → Nat) (k : Nat → Prog)
  | use (i : Nat) (f : Nat → Nat) (k : Nat → Prog)

/-- A typed pointer or reference, also the `self` of a running method (anyany.hpp:177-193). -/
structure Typed where
  ptr : Ptr
  ty : Nat

/-- A `poly_ref<ms...>` (anyany.hpp:557-600): vtable pointer and address. -/
structure PRef where
  vt : VtPtr
  ptr : Ptr
  ms : List Method

/-- State of a running program: `self` of the running method, what is left of it, the methods that wait for it (their
`self` and their continuation), the variables and the world. `H`, `R`: what pointers and references are. -/
structure State (H R : Type) where
  me : Option H
  prog : Prog
  stack : List (Option H × (Bool → Prog))
  ptrs : Nat → Option H
  refs : Nat → Option R
  w : World

/-- The begin of a program outside of all methods. -/
def State.start {H R : Type} (p : Prog) (w : World) : State H R := ⟨none, p, [], fun _ => none, fun _ => none, w⟩

/-- Result of a step: the next state; or the program has finished (`true`: with an exception); or undefined behaviour;
or `std::terminate`. -/
inductive Next (H R : Type) where
  | next (s : State H R)
  | fin (threw : Bool) (w : World)
  | ub
  | term

/-- Continue with a result. -/
def Next.of {H R α : Type} (r : Res α) (ok : α → World → Next H R) (exn : World → Next H R) : Next H R :=
  match r with
  | .ok v w => ok v w
  | .exn w => exn w
  | .ub => .ub
  | .term => .term

/-- `invoke_fn` before the user's code (anyany.hpp:1020-1024 with 177-193): the vtable entry of the method has the type
it was instantiated for; `value_ptr` becomes `self`. -/
def enter (a m : Nat) : M Typed := do
  let s ← getAny a
  let t ← slotTy s (.user m)
  pure ⟨s.vp, t⟩

/-- The same for a `poly_ref` (anyany.hpp:1036-1039). -/
def enterRef (r : PRef) (m : Nat) : M Typed :=
  match numberOfFirst (.user m) r.ms with
  | none => ub
  | some i => if r.vt.table[r.vt.off + i]? = some (.user m) then pure ⟨r.ptr, r.vt.ty⟩ else ub

/-- Semantics of C++ itself, no code of the library: using the object a pointer or reference (as passed in
anyany.hpp:177-193) points to; `ub` if there is no object of the type at the address. -/
def poke (h : Typed) (f : Nat → Nat) : M Nat := do
  let o ← readObj h.ptr h.ty
  writeObj h.ptr h.ty (f o.val)
  pure o.val

/-- The running method returns to the one that called it, or the program ends (anyany.hpp:1020-1024: the result of
the function is returned at once; an exception passes through). -/
def leave {H R : Type} (threw : Bool) (s : State H R) : Next H R :=
  match s.stack with
  | [] => .fin threw s.w
  | (me, k) :: st => .next { s with me, prog := k threw, stack := st }

/-- One step. `body m t x` is the method `m` of the type `t` with the argument `x` (what the vtable entry calls,
anyany.hpp:177-193). -/
def step (cfg : Cfg) (body : Nat → Nat → Nat → Prog) (s : State Typed PRef) : Next Typed PRef :=
  match s.prog with
  | .ret => leave false s
  | .raise => leave true s
  | .op o k => .of (exec cfg o s.w) (fun _ w => .next { s with prog := k false, w }) fun w => .next { s with prog := k true, w }
  | .call a m x k =>
    .of (enter a m s.w) (fun h w => .next { s with me := some h, prog := body m h.ty x, stack := (s.me, k) :: s.stack, w })
      fun _ => .ub
  | .take i a t k =>
    .of (anyCastPtr a t s.w)
      (fun p w => .next { s with prog := k p.isSome, ptrs := upd s.ptrs i (p.map (⟨·, t⟩)), w }) fun _ => .ub
  | .bind i a ms k =>
    .of (refTo a ms s.w) (fun r w => .next { s with prog := k, refs := upd s.refs i (some ⟨r.1, r.2, ms⟩), w }) fun _ => .ub
  | .callRef i m x k =>
    match s.refs i with
    | none => .ub
    | some r =>
      .of (enterRef r m s.w)
        (fun h w => .next { s with me := some h, prog := body m h.ty x, stack := (s.me, k) :: s.stack, w }) fun _ => .ub
  | .self f k =>
    match s.me with
    | none => .ub
    | some h => .of (poke h f s.w) (fun v w => .next { s with prog := k v, w }) fun _ => .ub
  | .use i f k =>
    match s.ptrs i with
    | none => .ub
    | some h => .of (poke h f s.w) (fun v w => .next { s with prog := k v, w }) fun _ => .ub

/-- `n` steps; what has ended stays (the semantics of C++ itself; cf. anyany.hpp:1020-1024). -/
def runN (cfg : Cfg) (body : Nat → Nat → Nat → Prog) : Nat → State Typed PRef → Next Typed PRef
  | 0, s => .next s
  | n + 1, s =>
    match step cfg body s with
    | .next s' => runN cfg body n s'
    | r => r

end AnyAny.Mem.MProg
