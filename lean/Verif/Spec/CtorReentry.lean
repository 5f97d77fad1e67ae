import Verif.Model.CtorReentry
/-
What constructors, destructors and methods may expect: an any is empty until the constructor of its new value is finished; if the constructor throws an
exception it stays empty; an any is emptied before the destructor of its value runs; a copy is made before the target is emptied.
-/
namespace AnyAny.CtorReentry

abbrev Vals := Nat → Option Nat

/-- How a program ends: normally, by an exception, or by `std::terminate`, as an exception leaves a destructor or a constructor that is `noexcept`. -/
inductive How where
  | returned
  | threw
  | terminated
  deriving DecidableEq

/-- The contents after a program, whether a constructor changed (reset, emplaced in, assigned to) the any that it was called for, or one whose
construction it is part of, or a copy constructor changed the any that it copies from (or one whose value is being copied), or a destructor used the any it was called for, or one whose destruction it is part of, or a method was called on an any without a value; and how the program ended. -/
structure Fin where
  vals : Vals
  touched : Bool
  how : How

/-- The program begins by using the any `a`, while it may not use the anys `busy`. -/
def using_ (a : Nat) (busy : List Nat) (r : Option Fin) : Option Fin := r.map fun y => { y with touched := busy.contains a || y.touched }

/-- What remains of the program after a part that ended with `x`. -/
def after (x : Fin) (r : Option Fin) : Option Fin := r.map fun y => { y with touched := x.touched || y.touched }

/-- First one, then the other, if the first one ends normally. -/
def andThen (r : Option Fin) (f : Vals → Option Fin) : Option Fin :=
  r.bind fun x =>
    match x.how with
    | .returned => after x (f x.vals)
    | _ => some x

/-- After a constructor (or a method) that ended with `r`: the one or the other, according to whether it threw. -/
def constructing (nothrow : Bool) (r : Option Fin) (ok exn : Vals → Option Fin) : Option Fin :=
  r.bind fun x =>
    match x.how, nothrow with
    | .returned, _ => after x (ok x.vals)
    | .threw, false => after x (exn x.vals)
    | .threw, true => some { x with how := .terminated }
    | .terminated, _ => some x

/-- Empties `a`, and destroys the value it had. -/
def empty (T : Nat → Ty) (rec : Prog → List Nat → Vals → Option Fin) (dying : List Nat) (a : Nat) (s : Vals) : Option Fin :=
  match s a with
  | none => some ⟨s, false, .returned⟩
  | some v => (rec (T v).dtor (a :: dying) (upd s a none)).map fun y =>
    ⟨upd y.vals a none, y.touched, match y.how with | .returned => .returned | _ => .terminated⟩

/-- Runs a program on the contents, while values for the anys `bld` are constructed, those of the anys `dy` destroyed, and those of the anys `src` copied;
`none`: not finished. -/
def spec (T : Nat → Ty) : Nat → Prog → (bld dy src : List Nat) → Vals → Option Fin
  | 0, _, _, _, _, _ => none
  | _ + 1, .done, _, _, _, s => some ⟨s, false, .returned⟩
  | _ + 1, .raise, _, _, _, s => some ⟨s, false, .threw⟩
  | n + 1, .reset a k, bld, dy, src, s =>
    using_ a (bld ++ dy ++ src) (andThen (empty T (fun p dy => spec T n p bld dy src) dy a s) (spec T n k bld dy src))
  | n + 1, .emplace a v k, bld, dy, src, s =>
    using_ a (bld ++ dy ++ src) (andThen (empty T (fun p dy => spec T n p bld dy src) dy a s) fun s =>
      constructing (T v).nothrow (spec T n (T v).ctor (a :: bld) dy src s)
        (fun s => spec T n (k false) bld dy src (upd s a (some v))) (fun s => spec T n (k true) bld dy src (upd s a none)))
  | n + 1, .moveAssign a b k, bld, dy, src, s =>
    if a = b then spec T n k bld dy src s
    else using_ a (bld ++ dy ++ src) (using_ b (dy ++ src) (andThen (empty T (fun p dy => spec T n p bld dy src) dy a s) fun s =>
      spec T n k bld dy src (upd (upd s b none) a (s b))))
  | n + 1, .copyAssign a b k, bld, dy, src, s =>
    using_ b dy
      (match s b with
      | none => using_ a (bld ++ dy ++ src) (andThen (empty T (fun p dy => spec T n p bld dy src) dy a s) (spec T n (k false) bld dy src))
      | some v =>
        constructing (T v).copyNothrow (spec T n (T v).copy bld dy (b :: src) s)
          (fun s => using_ a (bld ++ dy ++ src) (andThen (empty T (fun p dy => spec T n p bld dy src) dy a s) fun s =>
            spec T n (k false) bld dy src (upd s a (some v))))
          (spec T n (k true) bld dy src))
  | n + 1, .hasValue a k, bld, dy, src, s => using_ a dy (spec T n (k (s a).isSome) bld dy src s)
  | n + 1, .call a m k, bld, dy, src, s =>
    using_ a dy
      (match s a with
      | none => some ⟨s, true, .returned⟩
      | some v => constructing false (spec T n ((T v).meth m) bld dy src s) (spec T n (k false) bld dy src) (spec T n (k true) bld dy src))

/-- The contents of the anys. -/
def St.vals (s : St) : Vals := fun a => (s.any (.var a)).vt

/-- States between operations: each any has its own storage, and in it the value it says it has; memory that is not released is that of an any; of local
variables nothing is left. -/
structure Rest (s : St) : Prop where
  own : ∀ a, (s.any a).ptr = .data a ∨ ∃ b, (s.any a).ptr = .blk b ∧ b < s.next ∧ s.freed b = false ∧ s.sizes b = (s.any a).size
  inj : ∀ a c, (s.any a).ptr = (s.any c).ptr → a = c
  cov : ∀ l, s.obj l ≠ none → ∃ a, (s.any a).ptr = l
  has : ∀ a, s.obj (s.any a).ptr = (s.any a).vt.map fun v => (v, .alive)
  new : ∀ b, s.next ≤ b → s.freed b = false
  leak : ∀ b, b < s.next → s.freed b = false → ∃ a, (s.any a).ptr = .blk b
  tmp : ∀ n, (s.any (.tmp n)).vt = none ∧ (s.any (.tmp n)).ptr = .data (.tmp n)

/-- Empty anys. -/
def start : St := ⟨fun a => ⟨none, .data a, 0⟩, fun _ => none, fun _ => false, fun _ => 0, 0, 0⟩

end AnyAny.CtorReentry
