/-
Anys inside of the values of other anys (a list node that has an any as a member, an any of a vector of anys, ...). What an any holds is
abstracted to its contents, which C04 justifies for anys that are not part of each other: here the value of an any is a tree. The order in which the
assignments destroy and read is that of the code (include/anyany/anyany.hpp:1214-1264). Memory, exceptions and the rest of the allocators are left out.
-/
namespace AnyAny.Nested

/-- A contained value: its type, the data in it, and the anys that are parts of it (`none`:
    empty). The object under `value_ptr` (anyany.hpp:1116), as a tree. -/
inductive Val where
  | mk (ty data : Nat) (subs : List (Option Val))

/-- Where an any is: a variable, or a part of the value of another any, of the value of a part of
    it, ... No code of the library: names of `basic_any` objects (anyany.hpp:1103) inside of
    values. -/
abbrev Path := List Nat

/-- What the any at this path holds; `none` if there is no such any. `vtable_ptr` and the object
    under `value_ptr` (anyany.hpp:1115-1116) of the any at a path. -/
def lookup : Option Val → Path → Option (Option Val)
  | c, [] => some c
  | none, _ :: _ => none
  | some (.mk _ _ subs), i :: p =>
    match subs[i]? with
    | none => none
    | some c => lookup c p

/-- The any at this path gets new contents. Writing the same (anyany.hpp:1115-1116). -/
def put : Option Val → Path → Option Val → Option Val
  | _, [], v => v
  | none, _ :: _, _ => none
  | some (.mk t d subs), i :: p, v =>
    match subs[i]? with
    | none => some (.mk t d subs)
    | some c => some (.mk t d (subs.set i (put c p v)))

/-- The variables. The `basic_any` objects (anyany.hpp:1103-1122) that are not part of values. -/
abbrev World := Nat → Option Val

/-- An any: a variable and a path. A `basic_any` object (anyany.hpp:1103-1122). -/
structure Loc where
  var : Nat
  path : Path
deriving DecidableEq

/-- What the any at a place holds (anyany.hpp:1115-1116). -/
def World.get (w : World) (l : Loc) : Option (Option Val) := lookup (w l.var) l.path

/-- The any at a place gets new contents (anyany.hpp:1115-1116). -/
def World.set (w : World) (l : Loc) (v : Option Val) : World := fun x => if x = l.var then put (w x) l.path v else w x

/-- Accessing an any that does not exist (any more) is undefined (`none`). Language rule, no code
    of the library; the assignments at anyany.hpp:1219-1264. -/
abbrev M := Option

/-- Properties of the allocator (`std::allocator_traits`). Read at anyany.hpp:1223-1226,
    1255-1256. -/
structure Cfg where
  alwaysEqual : Bool
  pocca : Bool
  pocma : Bool
deriving DecidableEq, Repr

/-- `reset()` and `destroy_value()` (1376-1388): the value is destroyed, with all anys in it. -/
def destroyValue (w : World) (l : Loc) : M World := do
  let _ ← w.get l
  pure (w.set l none)

/-- `move_value_from(other)` (1464-1496). If the target is in the value of `other` the result is undefined or a cycle that owns itself; it is not
distinguished. -/
def moveValueFrom (w : World) (l s : Loc) : M World := do
  let c ← w.get s
  match c with
  | none => pure w
  | some v => do
    let w := w.set s none
    let _ ← w.get l
    pure (w.set l (some v))

/-- `operator=(basic_any&&)` (1219-1251). `unequal`: the allocators of the two anys differ. Whether memory is reused makes no difference for the
contents. -/
def moveAssign (cfg : Cfg) (unequal : Bool) (w : World) (l s : Loc) : M World :=
  if l = s then pure w
  else if cfg.alwaysEqual then do
    let w ← destroyValue w l
    moveValueFrom w l s
  else if cfg.pocma then do
    let w ← destroyValue w l
    let _ ← w.get s
    moveValueFrom w l s
  else do
    let w ← destroyValue w l
    let c ← w.get s
    match unequal, c with
    | true, some v => do
      let w := w.set s none
      let _ ← w.get l
      pure (w.set l (some v))
    | _, _ => moveValueFrom w l s

/-- `*this = std::move(value)` for a local variable `value` (1263). -/
def moveAssignLocal (w : World) (l : Loc) (value : Option Val) : M World := do
  let w ← destroyValue w l
  pure (w.set l value)

/-- `operator=(const basic_any&)` (1253-1264): the copy first; `other.alloc` is read after `reset()` if the allocator has to be replaced. -/
def copyAssign (cfg : Cfg) (unequal : Bool) (w : World) (l s : Loc) : M World := do
  let value ← w.get s
  if cfg.alwaysEqual = false ∧ cfg.pocca = true ∧ unequal = true then do
    let w ← destroyValue w l
    let _ ← w.get s
    moveAssignLocal w l value
  else moveAssignLocal w l value

/-- `l = Any(std::move(s))`: a move constructor (1214-1218), then the move assignment from the temporary. -/
def moveAssignTemporary (w : World) (l s : Loc) : M World := do
  let value ← w.get s
  moveAssignLocal (w.set s none) l value

end AnyAny.Nested
