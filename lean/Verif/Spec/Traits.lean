import Verif.Spec.AllocReq
/-
When checks such as `std::is_constructible` say yes to operations of anys that do not compile: the specification for C127.
-/
namespace AnyAny.AllocReq.Spec

/-- Operations that construct a value of this type. -/
def Constructs (v : Val) (o : Op) : Prop := o = .valueCtor v ∨ o = .stableCtor v ∨ o = .allocValueCtor v ∨ o = .emplace v

/-- Anys of this type have methods that move values. -/
def MovesValues (a : An) : Prop := a.copy = true ∨ a.otherCopy = true ∨ a.move = true

/-- The operations to which checks say yes although they do not compile. -/
inductive Lies (cpp20 : Bool) (al : Al) (a : An) : Op → Prop
  /-- the type has the methods but cannot be constructed from the arguments -/
  | arguments (v o) : Constructs v o → v.exist = true → v.makes = false → Lies cpp20 al a o
  /-- the operation has to make an allocator, which cannot be default-constructed -/
  | value (v) : v.exist = true → al.dflt = false → Lies cpp20 al a (.valueCtor v)
  | stable (v) : v.exist = true → al.dflt = false → Lies cpp20 al a (.stableCtor v)
  | materialize : a.copy = true → al.dflt = false → Lies cpp20 al a .materialize
  | fromMore (b) : MovesValues b → al.dflt = false → Lies cpp20 al a (.fromMoreMove b)
  /-- move assignment without methods that move, if the allocator may stay behind -/
  | stays : a.soo0 = true → ¬ MovesValues a → al.alwaysEqual = false → al.pocma = false → Lies cpp20 al a .moveAssign
  /-- in C++17: copies and moves of anys that cannot be copied or moved -/
  | copies (o) : o = .copyCtor ∨ o = .copyAssign → cpp20 = false → a.copy = false → Lies cpp20 al a o
  | moves (o) : o = .moveCtor ∨ o = .moveAssign → cpp20 = false → ¬ MovesValues a → a.soo0 = false → Lies cpp20 al a o

end AnyAny.AllocReq.Spec
