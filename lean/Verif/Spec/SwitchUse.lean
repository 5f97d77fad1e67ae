import Verif.Model.SwitchUse
/-
What a user expects of a switch that is written call by call: the specification for C113.
-/
namespace AnyAny.SwitchUse.Spec

/-- The function returns a result: it does not throw, and returns no empty `std::optional`. `v` is what it returns, as a `Result`. -/
def Gives (W : World) : Option Nat → Fn → Nat → Prop
  | none, f, v => f.out ≠ .throws ∧ v = 0
  | some t, ⟨.obj (.user u), .ret x⟩, v => v = if u = t then x else W.conv t u x
  | some _, ⟨.opt, .ret x⟩, v => v = x
  | _, _, _ => False

/-- The call is a case for the type of the value, with a function that returns the result `v`. -/
def Yields (W : World) (r : Option Nat) (d : Nat) : Call → Nat → Prop
  | .cases ts f, v => d ∈ ts ∧ Gives W r f v
  | _, _ => False

/-- None of the calls is a case for the type of the value with a function that returns a result. -/
def Undecided (W : World) (r : Option Nat) (d : Nat) (cs : List Call) : Prop :=
  ∀ c ∈ cs, ∀ v, ¬ Yields W r d c v

/-- `v` is the result of the first such case among the calls; `after` are the calls after it. -/
def Decided (W : World) (r : Option Nat) (d : Nat) (cs : List Call) (v : Nat) (after : List Call) : Prop :=
  ∃ before c, cs = before ++ c :: after ∧ Undecided W r d before ∧ Yields W r d c v

/-- Calls that end a switch. -/
def Finishing : Call → Bool
  | .cases _ _ => false
  | _ => true

/-- How many of the calls end a switch. -/
def endings (cs : List Call) : Nat := cs.countP Finishing

/-- An object of type `u` and value `x` as a `Result`. -/
def asResult (W : World) : Option Nat → Ty → Nat → Nat
  | some t, .user u, x => if u = t then x else W.conv t u x
  | _, _, x => x

/-- The call, which ends a switch, gives its caller the value `v`. -/
def Delivers (c : Call) (v : Nat) (s : Step) : Prop :=
  s.called = false ∧ s.ans = match c with
    | .noDefault => .opt (some v)
    | _ => .value v

/-- A value after `n` moves from it. -/
def movedFrom (W : World) : Option Nat → Nat → Nat → Nat
  | _, 0, v => v
  | none, _ + 1, v => v
  | some t, n + 1, v => movedFrom W (some t) n (W.moved t v)

/-- The outcome fits the type: only functions that return `std::nullopt` or a `std::optional` return an empty one. -/
def FnOk (f : Fn) : Prop :=
  match f.ty with
  | .void | .obj _ => f.out ≠ .empty
  | .nullopt => ∀ v, f.out ≠ .ret v
  | .opt => True

/-- The outcomes of the functions fit their types. -/
def CallOk : Call → Prop
  | .cases _ f => FnOk f
  | .dflt a => ∀ f, a.fn = some f → FnOk f
  | .noDefault => True

/-- A `U` is implicitly convertible to a `T`, or is one. -/
def Becomes (W : World) (t : Nat) (u : Ty) : Prop :=
  u = .user t ∨ ∃ n, u = .user n ∧ W.implicit t n = true

/-- The calls a switch for results of type `t` accepts. -/
def AcceptsT (W : World) (t : Nat) : Call → Prop
  | .cases _ f =>
    f.ty = .nullopt ∨
    (W.movable t = true ∧ W.moveAssign t = true ∧ (f.ty = .opt ∨ ∃ u, f.ty = .obj u ∧ Becomes W t u)) ∨
    (∃ u, f.ty = .obj (.user u) ∧ u ≠ t ∧ (W.implicit t u = true ∨ W.explicit t u = true) ∧ W.assign t u = true)
  | .noDefault => W.movable t = true
  | .dflt a =>
    W.movable t = true ∧
    ((a.ty ≠ .user t ∧ ∃ f u, a.fn = some f ∧ f.ty = .obj u ∧ Becomes W t u) ∨
     (a.ty ≠ .user t ∧ a.fn = none ∧ Becomes W t a.ty) ∨
     (a.ty = .user t ∧ (a.cat = .lvalue → W.copyable t = true)))

end AnyAny.SwitchUse.Spec
