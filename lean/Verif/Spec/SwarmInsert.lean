import Verif.Model.SwarmInsert
/-
What `insert(x)` should do, and what `std::variant<Ts...>` does ("behaves as `Container<std::variant<Types...>>`", README.md).
-/
namespace AnyAny.SwarmInsert

/-- Rules of C++: only the type itself has an identity conversion; a derived class converts to its bases by a standard conversion, and to nothing else. -/
structure Lang.Ok (L : Lang) : Prop where
  identity : ∀ t u, L.conv t u = some (.std 0) → u = t
  derived : ∀ t u, L.base t u = true → ∃ r, L.conv t u = some (.std r)
  classes : ∀ t u v r, L.base t u = true → L.conv t v = some (.std r) → L.base t v = true ∨ v = t

/-- The conversion of `x` to type number `i`, the identity included. -/
def convTo (L : Lang) (x : Arg) (ts : List Nat) (i : Nat) : Option Ics :=
  ts[i]?.bind fun u => if u = x.ty then some (.std 0) else L.conv x.ty u

/-- Among the types that satisfy `P`, number `i` is the one with the best conversion. -/
def Best (L : Lang) (P : Nat → Prop) (x : Arg) (ts : List Nat) (i : Nat) : Prop :=
  P i ∧ ∃ c, convTo L x ts i = some c ∧ ∀ j c', j ≠ i → P j → convTo L x ts j = some c' → c.better c' = true

/-- The alternative that `std::variant<Ts...>` chooses for `x` ([variant.ctor] 14): the best among those `T_i` for which `T_i y[] = {x};` is well-formed, that is, the
conversion is not narrowing. -/
def VariantPicks (L : Lang) (narrow : Nat → Nat → Bool) (x : Arg) (ts : List Nat) (i : Nat) : Prop :=
  Best L (fun j => ∀ u, ts[j]? = some u → narrow x.ty u = false) x ts i

end AnyAny.SwarmInsert
