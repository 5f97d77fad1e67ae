import Verif.Model.AllocReq
/-
Which allocators an any works with: the specification for C126.
-/
namespace AnyAny.AllocReq.Spec

/-- What the standard requires of allocators ([allocator.requirements]) as far as it depends on the type: those that are propagated by
assignments can be assigned. Nothing is required of default constructors, copy constructors need not be declared `noexcept` (but must not
throw), and `pointer` may be a class. -/
def Conforming (al : Al) : Prop := (al.pocca = true → al.copyAssign = true) ∧ (al.pocma = true → al.moveAssign = true)

/-- What the methods of an any enable (README.md; anyany.hpp:337-339): copies with `copy_with`; moves with `move` or `copy_with`, and
always without a buffer; conversions from anys with more methods likewise; values of types that have the methods, constructed from the
arguments. -/
def Enabled (a : An) : Op → Prop
  | .copyCtor | .copyAssign | .materializeAlloc | .materialize => a.copy = true
  | .moveCtor | .moveAssign => a.copy = true ∨ a.otherCopy = true ∨ a.move = true ∨ a.soo0 = true
  | .fromMoreCopy b => b.copy = true
  | .fromMoreMove b => b.copy = true ∨ b.otherCopy = true ∨ b.move = true
  | .valueCtor v | .stableCtor v | .allocValueCtor v | .emplace v => v.exist = true ∧ v.makes = true
  | _ => True

/-- Operations that get neither an allocator nor an any have to make an allocator, as those of standard containers do. -/
def MakesAllocator : Op → Prop
  | .defaultCtor | .valueCtor _ | .stableCtor _ | .materialize => True
  | _ => False

/-- The operation should compile. -/
def Should (al : Al) (a : An) (o : Op) : Prop := Enabled a o ∧ (MakesAllocator o → al.dflt = true)

/-- The exceptions: operations that do not compile although they should. -/
inductive Exception (al : Al) (a : An) : Op → Prop
  /-- allocators with pointers that are classes: always -/
  | fancy (o) : al.fancy = true → Exception al a o
  /-- allocators whose copy constructor is not declared `noexcept`: always -/
  | unmarked (o) : al.noexceptCopy = false → Exception al a o
  /-- moves from anys with more methods, if the allocator cannot be default-constructed -/
  | fromMore (b) : al.dflt = false → Exception al a (.fromMoreMove b)
  /-- move assignment of anys without buffer and without methods that move, if the allocator may stay behind -/
  | stays : a.soo0 = true → a.copy = false → a.otherCopy = false → a.move = false → al.alwaysEqual = false → al.pocma = false →
      Exception al a .moveAssign

end AnyAny.AllocReq.Spec
