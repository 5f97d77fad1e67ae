import Verif.Model.Matcher
/-
What `aa::matcher` should call: the specification for C128.
-/
namespace AnyAny.Matcher.Spec

/-- A conversion relation: no type is converted to itself, and only to itself none is needed. -/
def Sane (conv : Conv) : Prop := ∀ t u, conv t u = some 0 ↔ t = u

/-- The function takes arguments of these types without converting any: each parameter is of the type of the argument or `auto`. -/
def Takes (ps : List Param) (ts : List Ty) : Prop := ps.length = ts.length ∧ ∀ (i : Nat) p t, ps[i]? = some p → ts[i]? = some t → p = .auto ∨ p = .ty t

/-- The function can be called with arguments of these types, which are converted if necessary. -/
def Callable (conv : Conv) (ps : List Param) (ts : List Ty) : Prop :=
  ps.length = ts.length ∧ ∀ (i : Nat) t u, ps[i]? = some (.ty u) → ts[i]? = some t → (conv t u).isSome = true

/-- The function has, where the other has a parameter that is not `auto`, the same. -/
def AsSpecial (ps qs : List Param) : Prop := ∀ (i : Nat) p q, ps[i]? = some p → qs[i]? = some q → q = .auto ∨ p = q

/-- The function has parameters of exactly these types. -/
def Exactly (ps : List Param) (ts : List Ty) : Prop := ps = ts.map Param.ty

/-- The function takes any arguments. -/
def Generic (ps : List Param) (n : Nat) : Prop := ps = List.replicate n Param.auto

/-- Function `i` of the matcher has these parameters. -/
def At (fs : List Fn) (i : Nat) (ps : List Param) : Prop := ∃ f, fs[i]? = some f ∧ f.params = ps

/-- The function objects can be bases, and no two have the same parameters. -/
def Distinct (fs : List Fn) : Prop := (∀ f ∈ fs, f.base = true) ∧ ∀ i j ps, At fs i ps → At fs j ps → i = j

end AnyAny.Matcher.Spec
