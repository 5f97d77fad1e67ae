import Verif.Model.DpvReq
/-
What `std::vector<T>` needs of `T` for the operations of a `data_parallel_vector<T>`: the specification for C114.
-/
namespace AnyAny.DpvReq.Spec

/-- A class with these fields: it can be copied, moved, assigned if all fields can; it can be default-constructed if each field can or has
a default member initialiser. -/
def whole (fs : List Field) : Caps where
  copyC := fs.all (·.caps.copyC)
  moveC := fs.all (·.caps.moveC)
  copyA := fs.all (·.caps.copyA)
  moveA := fs.all (·.caps.moveA)
  dflt := fs.all fun f => f.init || f.caps.dflt

/-- The operation of `std::vector<T>` with the same arguments; `none` for those that access elements, which need nothing of the type,
and for reading and writing elements. -/
def vectorOp : Op → Option VOp
  | .ctorCount => some .ctorCount
  | .ctorCountValue => some .ctorCountValue
  | .ctorRange rv => some (.ctorRange rv)
  | .ctorList => some (.ctorRange false)
  | .copyCtor => some .copyCtor
  | .moveCtor => some .moveCtor
  | .copyCtorAlloc => some .copyCtorAlloc
  | .moveCtorAlloc => some .moveCtorAlloc
  | .copyAssign => some .copyAssign
  | .moveAssign => some .moveAssign
  | .listAssign => some (.assignRange false)
  | .swap => some .swap
  | .assignCount => some .assignCount
  | .assignRange rv => some (.assignRange rv)
  | .assignList => some (.assignRange false)
  | .emplaceBack rv => some (.emplaceBack rv)
  | .pushBack rv => some (.pushBack rv)
  | .emplace rv => some (.emplace rv)
  | .insert rv => some (.insert rv)
  | .insertCount => some .insertCount
  | .insertRange rv => some (.insertRange rv)
  | .insertList => some (.insertRange false)
  | .erase => some .erase
  | .eraseRange => some .eraseRange
  | .clear => some .clear
  | .popBack => some .popBack
  | .reserve => some .reserve
  | .resize => some .resize
  | .resizeValue => some .resizeValue
  | .shrink => some .shrink
  | _ => none

/-- The operation compiles for `std::vector<T>`. -/
def VectorCompiles (a : Al) (fs : List Field) (o : Op) : Prop :=
  match o with
  | .read => (whole fs).copyC = true
  | .moveOut => (whole fs).moveC = true
  | .write true => (whole fs).moveA = true
  | .write false => (whole fs).copyA = true
  | o => ∀ v, vectorOp o = some v → v.needs a (whole fs) = true

/-- Types that can be copied can be moved, and those that can be assigned lvalues can be assigned rvalues: true unless the move operations
are deleted explicitly. -/
def Sane (fs : List Field) : Prop :=
  ∀ f ∈ fs, (f.caps.copyC = true → f.caps.moveC = true) ∧ (f.caps.copyA = true → f.caps.moveA = true)

/-- Operations that get their elements as rvalues. -/
def FromRvalues : Op → Prop
  | .ctorRange rv | .assignRange rv | .emplaceBack rv | .pushBack rv | .emplace rv | .insert rv | .insertRange rv => rv = true
  | _ => False

/-- Operations that replace all elements by others that are not in a container. -/
def Assigns : Op → Prop
  | .listAssign | .assignCount | .assignRange _ | .assignList => True
  | _ => False

/-- Constructors from given elements. -/
def FromElements : Op → Prop
  | .ctorRange _ | .ctorList => True
  | _ => False

/-- Operations that add default elements. -/
def AddsDefaults : Op → Prop
  | .ctorCount | .resize => True
  | _ => False

/-- The exceptions: operations that do not compile for a `data_parallel_vector` although they do for a `std::vector`. -/
inductive Exception (a : Al) (fs : List Field) : Op → Prop
  /-- `back()` of a const container: always -/
  | back : Exception a fs (.back true)
  /-- `erase(first, last)`: always -/
  | erase : Exception a fs .eraseRange
  /-- rvalues, if a field cannot be copied -/
  | rvalue (o f) : FromRvalues o → f ∈ fs → f.caps.copyC = false → Exception a fs o
  /-- construction from elements, if a field cannot be move-assigned -/
  | elements (o f) : FromElements o → f ∈ fs → f.caps.moveA = false → Exception a fs o
  /-- assignments, if the allocator cannot be default-constructed -/
  | assigns (o) : Assigns o → a.dflt = false → Exception a fs o
  /-- default elements, if a field has a default member initialiser but no default constructor -/
  | defaults (o f) : AddsDefaults o → f ∈ fs → f.caps.dflt = false → Exception a fs o

end AnyAny.DpvReq.Spec
