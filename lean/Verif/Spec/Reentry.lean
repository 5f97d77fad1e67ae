import Verif.Model.Reentry
/-
What a destructor may expect of an owner such as `std::unique_ptr` ([unique.ptr.single.modifiers]): `reset` first empties the owner, then destroys the value.
-/
namespace AnyAny.Reentry

abbrev Vals := Nat → Option Nat

/-- The contents after a program, and whether a destructor used the any that it was called for (or one whose destruction it is part of). -/
structure Fin where
  vals : Vals
  touched : Bool

/-- First one, then the other. -/
def seq (r : Option Fin) (f : Vals → Option Fin) : Option Fin :=
  r.bind fun x => (f x.vals).map fun y => ⟨y.vals, x.touched || y.touched⟩

/-- The program begins by using the anys `xs`, while the values of the anys `busy` are being destroyed. -/
def using_ (xs busy : List Nat) (r : Option Fin) : Option Fin := r.map fun y => ⟨y.vals, xs.any busy.contains || y.touched⟩

/-- Empties `a`, then destroys the value it had. -/
def empty (D : Nat → Prog) (rec : Prog → List Nat → Vals → Option Fin) (busy : List Nat) (a : Nat) (s : Vals) : Option Fin :=
  match s a with
  | none => some ⟨s, false⟩
  | some v => rec (D v) (a :: busy) (upd s a none)

/-- Runs a program, where every any is empty before the destructor of its value runs; `none`: not finished. -/
def spec (D : Nat → Prog) : Nat → Prog → List Nat → Vals → Option Fin
  | 0, _, _, _ => none
  | _ + 1, .done, _, s => some ⟨s, false⟩
  | n + 1, .reset a k, busy, s => using_ [a] busy (seq (empty D (spec D n) busy a s) (spec D n k busy))
  | n + 1, .emplace a v k, busy, s =>
    using_ [a] busy (seq (empty D (spec D n) busy a s) fun s => spec D n k busy (upd s a (some v)))
  | n + 1, .moveAssign a b k, busy, s =>
    using_ [a, b] busy
      (if a = b then spec D n k busy s
       else seq (empty D (spec D n) busy a s) fun s =>
        match s b with
        | none => spec D n k busy s
        | some v => spec D n k busy (upd (upd s b none) a (some v)))
  | n + 1, .hasValue a k, busy, s => using_ [a] busy (spec D n (k (s a).isSome) busy s)

/-- The program only changes anys: it does not ask `has_value()`, and does not assign an any to itself. -/
def Prog.Acts : Prog → Prop
  | .done => True
  | .reset _ k => k.Acts
  | .emplace _ _ k => k.Acts
  | .moveAssign a b k => a ≠ b ∧ k.Acts
  | .hasValue _ _ => False

/-- No value is being destroyed. -/
def St.start (s : Vals) : St := ⟨s, fun _ => false⟩

end AnyAny.Reentry
