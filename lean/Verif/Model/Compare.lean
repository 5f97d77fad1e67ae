import Verif.Model.Poly
/-
Model of comparison and hashing of polymorphic values (include/anyany/anyany.hpp:1784-1870, 1978-2013):
the plugins of `aa::equal_to` and `aa::spaceship`, `std::hash` of any objects and references.

Simplifications: comparing and hashing contained values does not throw and does not change them; type
descriptors of different types differ (see C42).
-/
namespace AnyAny.Poly
open AnyAny.Mem (Method)

/-- `std::partial_ordering`. The result of `spaceship` (anyany.hpp:1831-1870). -/
inductive PO where
  | less
  | equivalent
  | greater
  | unordered
deriving DecidableEq, Repr

/-- Comparison and hash of contained values, for each type: `fn<T>` (anyany.hpp:1787-1789, 1834-1837),
`std::hash<T>` (347-349). -/
structure CmpFns where
  eq : Nat → Nat → Nat → Bool
  cmp : Nat → Nat → Nat → PO
  hash : Nat → Nat → Nat

/-- The object whose plugin is used (`CRTP`): an any, or a reference object.
    (anyany.hpp:1784-1870: `plugin<CRTP>`.) -/
inductive Opd where
  | any (a : Nat)
  | ref (n : Nat)
deriving DecidableEq, Repr

/-- `invoke<Method>(x)` for a pseudomethod (anyany.hpp:1059-1070): the vtable entry of `x`, here the type
for which it was made. The parameter is a reference, so no copy of `x` is made. -/
def entryTy (x : Opd) (m : Method) : PM Nat :=
  match x with
  | .any a => do
    let s ← liftMem (Mem.getAny a)
    liftMem (Mem.slotTy s m)
  | .ref n => do
    let d ← dispatchAt (.var n) m
    pure d.1

/-- `mate::get_value_ptr(x)` (anyany.hpp:472-479). -/
def valuePtr (x : Opd) : PM Addr :=
  match x with
  | .any a => do
    let s ← liftMem (Mem.getAny a)
    pure (.mem s.vp)
  | .ref n => do
    let o ← getRef (.var n)
    nonNull o.val

/-- `x.has_value()` of an any (anyany.hpp:1403-1405). References do not have it: the tests in the plugins
are inside `if constexpr (has_has_value<CRTP>)`. -/
def opdHasValue (x : Opd) : PM Bool :=
  match x with
  | .any a => do
    let s ← liftMem (Mem.getAny a)
    pure s.vt.isSome
  | .ref _ => pure true

variable (F : CmpFns)

/-- `equal_to::plugin::operator==` (anyany.hpp:1806-1817). -/
def eqOp (l r : Opd) : PM Bool := do
  let hl ← opdHasValue l
  let hr ← opdHasValue r
  if !hl || !hr then pure (hl == hr)
  else do
    let desc ← entryTy l .equalTo
    let rightDesc ← entryTy r .equalTo
    if desc = rightDesc then do
      let p ← valuePtr l
      let q ← valuePtr r
      let x ← readAddr p desc
      let y ← readAddr q desc
      pure (F.eq desc x y)
    else pure false

/-- `spaceship::plugin::operator<=>` (anyany.hpp:1856-1869). Only the left operand is tested for
emptiness. -/
def spaceOp (l r : Opd) : PM PO := do
  let hl ← opdHasValue l
  if !hl then do
    let hr ← opdHasValue r
    pure (if hr then .unordered else .equivalent)
  else do
    let desc ← entryTy l .spaceship
    let rightDesc ← entryTy r .spaceship
    if desc ≠ rightDesc then pure .unordered
    else do
      let p ← valuePtr l
      let q ← valuePtr r
      let x ← readAddr p desc
      let y ← readAddr q desc
      pure (F.cmp desc x y)

/-- `spaceship::plugin::operator==` (anyany.hpp:1852-1855). -/
def spaceEqOp (l r : Opd) : PM Bool := do
  let c ← spaceOp F l r
  pure (c == .equivalent)

/-- `std::hash` of an any (anyany.hpp:1979-1985) and of a reference (1986-2013), with `aa::hash`
(344-350). -/
def hashOp (x : Opd) : PM Nat :=
  match x with
  | .any a => do
    let h ← opdHasValue x
    if h then do
      let s ← liftMem (Mem.getAny a)
      let t ← liftMem (Mem.slotTy s .hash)
      let v ← readAddr (.mem s.vp) t
      pure (F.hash t v)
    else pure 0
  | .ref n => do
    let d ← dispatch (.var n) .hash
    let p ← nonNull d.2
    let v ← readAddr p d.1
    pure (F.hash d.1 v)

end AnyAny.Poly
