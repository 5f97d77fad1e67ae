import Verif.Model.TypeSwitch
import Verif.Model.VisitInvoke
/-
Model of `visit_invoke_fn::resolve` for polymorphic arguments: `anyany_poly_traits`
(include/anyany/type_descriptor.hpp:92-121). The descriptor of a type is its number; `none` is `void`.
-/
namespace AnyAny.Poly
open AnyAny.Mem (Method)
open AnyAny.Visit (Arg Overload Outcome resolve)

/-- An argument: an any, a reference or pointer object, or a variable of a non-polymorphic type.
    (type_descriptor.hpp:93-121.) -/
inductive VArg where
  | any (a : Nat) (cst : Bool)
  | ref (n : Nat)
  | var (x : Nat) (cst : Bool)

/-- `get_type_descriptor` (type_descriptor.hpp:95-101). -/
def getTypeDescriptor : VArg → PM (Option Nat)
  | .any a _ => liftMem (Mem.typeDescriptor a)
  | .ref n => typeDescriptor (.var n)
  | .var x _ => fun w => match w.vars x with
    | some (t, _) => .ok (some t) w
    | none => .ub

/-- `to_address` (type_descriptor.hpp:107-120): the address, and whether it is a `const void*`. For an any
and for references `(&v).raw()`. -/
def toAddress : VArg → PM (Option Addr × Bool)
  | .any a cst => do
    let o ← switchPtr cst (.any a)
    let p ← withTemp o raw
    pure (p, cst)
  | .ref n => do
    let o ← getRef (.var n)
    if o.kind.isPtr then do
      let p ← raw (.var n)
      pure (p, o.kind.isConst)
    else do
      let q ← addrOfRef (.var n)
      let p ← withTemp q raw
      pure (p, o.kind.isConst)
  | .var x cst => pure (some (.var x), cst)

/-- The descriptors and addresses of all arguments. (visit_invoke.hpp:137-158.) -/
def visitArgs : List VArg → PM (List (Arg (Option Nat) Addr))
  | [] => pure []
  | x :: xs => do
    let d ← getTypeDescriptor x
    let p ← toAddress x
    let as ← visitArgs xs
    pure (⟨d, p.2, p.1⟩ :: as)

/-- `resolve<Unsafe>(args...)` (visit_invoke.hpp:137-160). Simplification: the descriptors and addresses are
computed first; in the code the addresses only after a successful lookup. -/
def visitResolve (lt : Option Nat → Option Nat → Bool) (sort : List (List (Option Nat) × Nat) → List (List (Option Nat) × Nat))
    (safe : Bool) (fs : List (Overload (Option Nat))) (xs : List VArg) : PM (Outcome Addr) := do
  let args ← visitArgs xs
  pure (resolve none lt sort safe fs args)

end AnyAny.Poly
