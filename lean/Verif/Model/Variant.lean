import Verif.Model.VisitInvoke
/-
Model of `std_variant_poly_traits` (include/anyany/utility.hpp:110-149) with `any_cast`
(anyany.hpp:1546-1561) and `visit_invoke` (visit_invoke.hpp:137-160).

Types are represented by their descriptors `D` (of the decayed type). Variants with alternatives of mixed constness are
not supported by the library (utility.hpp:135) and not modelled: constness belongs to the variant.
-/
namespace AnyAny.Variant
open AnyAny.Visit (Arg Overload Outcome resolve)

variable {D A : Type} [DecidableEq D]

/-- An lvalue argument: a `std::variant`, with the descriptors of its alternatives, the index (`none`: valueless by
exception) and the address of the storage of the alternative; or an object of another type.
  (utility.hpp:110-149.) -/
inductive Val (D A : Type) where
  | variant (alts : List D) (index : Option Nat) (addr : A) (isConst : Bool)
  | other (desc : D) (addr : A) (isConst : Bool)

/-- Result of a `noexcept` function. Language rule, no code of the library; for
    utility.hpp:117-149. -/
inductive Res (α : Type) where
  | ok (a : α)
  | terminate
deriving DecidableEq, Repr

/-- Sequencing. Language rule, no code of the library; for utility.hpp:117-149. -/
def Res.bind {α β} : Res α → (α → Res β) → Res β
  | .ok a, f => f a
  | .terminate, _ => .terminate

/-- `std::visit(f, v)` in a `noexcept` function: the alternative at the index; `bad_variant_access`, hence `std::terminate`, if
there is none. (An index beyond the list cannot occur and is treated alike.) Not part of the
  library; called at utility.hpp:117-149. -/
def stdVisit {α} (alts : List D) (index : Option Nat) (addr : A) (f : D → A → α) : Res α :=
  match index with
  | none => .terminate
  | some i => match alts[i]? with
    | some d => .ok (f d addr)
    | none => .terminate

/-- `get_type_descriptor` (utility.hpp:114-129). -/
def getTypeDescriptor : Val D A → Res D
  | .variant alts i a _ => stdVisit alts i a fun d _ => d
  | .other d _ _ => .ok d

/-- `to_address` (utility.hpp:130-148): the address, and whether it is a `const void*`. -/
def toAddress : Val D A → Res (A × Bool)
  | .variant alts i a c => stdVisit alts i a fun _ p => (p, c)
  | .other _ a c => .ok (a, c)

/-- `any_cast<T, std_variant_poly_traits>(val)` (anyany.hpp:1546-1561); the result, and whether it is a pointer to
const (decided by the type of `to_address(val)`). -/
def anyCast (t : D) (v : Val D A) : Res (Option A) :=
  (getTypeDescriptor v).bind fun d => if d ≠ t then .ok none else (toAddress v).bind fun p => .ok (some p.1)

/-- Whether `any_cast<T, std_variant_poly_traits>(val)` has type `const T*`.
    (anyany.hpp:1553-1556.) -/
def anyCastConst : Val D A → Bool
  | .variant _ _ _ c => c
  | .other _ _ c => c

/-- The arguments as `resolve` sees them (visit_invoke.hpp:139-158). -/
def visitArgs : List (Val D A) → Res (List (Arg D A))
  | [] => .ok []
  | v :: vs => (getTypeDescriptor v).bind fun d => (toAddress v).bind fun p => (visitArgs vs).bind fun as =>
    .ok (⟨d, p.2, some p.1⟩ :: as)

/-- `visit_invoke<std_variant_poly_traits>(fs...).resolve(vs...)` (visit_invoke.hpp:137-160). -/
def visitResolve (void : D) (lt : D → D → Bool) (sort : List (List D × Nat) → List (List D × Nat))
    (safe : Bool) (fs : List (Overload D)) (vs : List (Val D A)) : Res (Outcome A) :=
  (visitArgs vs).bind fun as => .ok (resolve void lt sort safe fs as)

end AnyAny.Variant
