import Verif.Model.Nested
/-
What assignment of anys should do, wherever they are.
-/
namespace AnyAny.Nested

/-- `s` is a part of the value of `l` (of its parts, ...). -/
def Inside (s l : Loc) : Prop := s.var = l.var ∧ ∃ i p, s.path = l.path ++ i :: p

/-- Neither is in the other. -/
def Apart (l s : Loc) : Prop := l ≠ s ∧ ¬ Inside s l ∧ ¬ Inside l s

/-- `std::any`: `operator=(any&& rhs)` is `any(std::move(rhs)).swap(*this)` ([any.assign]): the value is taken out before the old value of the target is
destroyed. -/
def stdMoveAssign (w : World) (l s : Loc) : Option World := do
  let v ← w.get s
  let w := w.set s none
  let _ ← w.get l
  pure (w.set l v)

/-- `std::any`: `operator=(const any& rhs)` is `any(rhs).swap(*this)`. -/
def stdCopyAssign (w : World) (l s : Loc) : Option World := do
  let v ← w.get s
  let _ ← w.get l
  pure (w.set l v)

end AnyAny.Nested
