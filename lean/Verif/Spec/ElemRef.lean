import Verif.Model.ElemRef
/-
What can be done with elements of a `std::vector<T>`, where `v[i]` is an lvalue of type `T` and a reference is a `T&` or `const T&`: the
specification for C107.
-/
namespace AnyAny.ElemRef.Spec

/-- An expression of type `T`. -/
structure Expr where
  const : Bool
  cat : Cat

/-- What the operand would be for a `std::vector<T>`: a name of a reference and a call returning one are lvalues of type `T`, or
`const T`, and `std::move` of them is an xvalue. Values are themselves. -/
def denotes (a : Arg) : Expr :=
  match a.ty with
  | .val => ⟨a.const, a.cat⟩
  | .ref => ⟨false, if a.cat = .xvalue then .xvalue else .lvalue⟩
  | .cref => ⟨true, if a.cat = .xvalue then .xvalue else .lvalue⟩

/-- `T x = e;`: a prvalue needs nothing, another rvalue that is not const a move, everything else a copy. -/
def CanRead (e : Elem) (x : Expr) : Prop :=
  x.cat = .prvalue ∨ (x.cat = .xvalue ∧ x.const = false) ∨ e.copyable = true

/-- `l = r`. A prvalue that is const must be copied. -/
def CanAssign (e : Elem) (l r : Expr) : Prop :=
  l.const = false ∧ ((r.cat ≠ .lvalue ∧ r.const = false) ∨ e.copyable = true)

/-- How `T x = a` makes the value. -/
def ReadsBy (a : Arg) : Init :=
  match a.ty with
  | .ref => .conv .refToVal
  | .cref => .conv .crefToVal
  | .val => match a.cat with
    | .prvalue => .elide
    | .xvalue => if a.const then .copyT else .moveT
    | .lvalue => .copyT

/-- How `l = r` assigns: the operand may be moved from if it is an rvalue that is not const; a value read through a reference is such. -/
def AssignsBy (l r : Arg) : Option Assign :=
  let mayMove := r.cat ≠ .lvalue ∧ r.const = false
  match l.ty, r.ty with
  | .cref, _ => none
  | .val, .val => some (if mayMove then .moveT else .copyT)
  | .val, _ => some .moveT
  | .ref, .val => some (if mayMove then .moveVal else .copyVal)
  | .ref, .ref => some (if mayMove then .moveRef else .copyRef)
  | .ref, .cref => some .moveVal

/-- `T& x = e;` -/
def CanBind (x : Expr) : Prop := x.const = false ∧ x.cat = .lvalue

/-- `swap(l, r)` exchanges two lvalues. -/
def CanSwap (l r : Expr) : Prop := CanBind l ∧ CanBind r

end AnyAny.ElemRef.Spec
