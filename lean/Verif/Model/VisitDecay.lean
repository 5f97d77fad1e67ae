import Verif.Model.VisitInvoke
/-
Decay in `visit_invoke_fn`: arguments and parameters are compared by descriptors of decayed types (include/anyany/type_descriptor.hpp:70-72,
visit_invoke.hpp:118-124, 146), but the object at the address of an argument is accessed with the type of the parameter as it is declared
(visit_invoke.hpp:107-116).
-/
namespace AnyAny.Visit

/-- Object types without `const` at the top: `other k` stands for a type that is neither an array nor a pointer; an array of
`const` elements is an array of an element type that is `const`. Language rule, for the arguments of
visit_invoke.hpp:137-160. -/
inductive OTy where
  | other (k : Nat)
  | ptr (t : OTy)
  | arr (t : OTy) (n : Nat)
deriving DecidableEq, Repr

/-- `std::decay_t`: an array becomes a pointer to its first element. Not part of the library; used for `descriptor_v` (type_descriptor.hpp:70-72). -/
def OTy.decay : OTy → OTy
  | .arr t _ => .ptr t
  | t => t

/-- A parameter as it is declared. (noexport/visit_invoke_details.hpp:18-37.) -/
structure TParam where
  ty : OTy
  pass : Pass
deriving DecidableEq, Repr

/-- The keys of the overloads are made of `descriptor_v<Ts>`, descriptors of decayed types (visit_invoke.hpp:118-124). Descriptors are the types, `none` is `void`. Overloads are
lambdas without captures. -/
def keyOverload (ps : List TParam) : Overload (Option OTy) := ⟨ps.map fun p => ⟨some p.ty.decay, p.pass⟩, .lambda⟩

/-- An argument with a value: for an expression of a type that is not polymorphic the object it denotes; for a polymorphic one the object it refers to.
(type_descriptor.hpp:92-121.) -/
structure TArg (A : Type) where
  ty : OTy
  isConst : Bool
  addr : A
deriving DecidableEq, Repr

/-- `get_type_descriptor` is `descriptor_v<T>`, `to_address` is `std::addressof(v)` (type_descriptor.hpp:95-101, 107-120). -/
def TArg.key {A : Type} (a : TArg A) : Arg (Option OTy) A := ⟨some a.ty.decay, a.isConst, some a.addr⟩

/-- `reinterpret_cast<std::add_pointer_t<Ts>>(void_ptrs)` and the access (visit_invoke.hpp:107-116): the objects must have the types of the parameters.
Language rule. -/
def typesAgree {A : Type} : List TParam → List (TArg A) → Bool
  | [], _ => true
  | p :: ps, a :: as => p.ty == a.ty && typesAgree ps as
  | _ :: _, [] => false

/-- `resolve<Unsafe>(args...)` (visit_invoke.hpp:137-160), with the access to the arguments. -/
def resolveTyped {A : Type} (lt : Option OTy → Option OTy → Bool) (sort : List (List (Option OTy) × Nat) → List (List (Option OTy) × Nat)) (safe : Bool)
    (fs : List (List TParam)) (args : List (TArg A)) : Outcome A :=
  match resolve none lt sort safe (fs.map keyOverload) (args.map TArg.key) with
  | .call i out =>
    match fs[i]? with
    | some ps => if typesAgree ps args then .call i out else .ub
    | none => .ub
  | r => r

end AnyAny.Visit
