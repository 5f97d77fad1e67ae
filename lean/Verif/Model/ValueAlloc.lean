/-
The allocators of the values in anys. `basic_any` constructs values with `allocator_traits::construct` (include/anyany/anyany.hpp:1457-1462): `std::pmr::polymorphic_allocator` and
`std::scoped_allocator_adaptor` then give themselves to values that use allocators (`std::pmr::string`). Copies and moves of values are made without the allocator
(`relocate`, `copy_fn`: noexport/anyany_details.hpp:233-239, 263-286).

Only what matters for this is modelled: the allocator of each any, the allocator of its value, and which memory resources still exist; memory blocks are in Model/AnyMem.lean.
Allocators are numbers, and stand for the memory resources they refer to; `is_always_equal` allocators have no state and are left out. A value in a class with a stateful
allocator that does not use allocators itself has `res = none`.
-/
namespace AnyAny.ValueAlloc

/-- The traits of the allocator. `constructs`: it has a member `construct` that makes values with itself. (anyany.hpp:1199, 1226-1233, 1255-1260, 1460.) -/
structure Cfg where
  /-- `propagate_on_container_move_assignment` -/
  pocma : Bool
  /-- `propagate_on_container_copy_assignment` -/
  pocca : Bool
  /-- `select_on_container_copy_construction`, for the any and for containers in it -/
  soccc : Nat → Nat
  /-- a default-constructed allocator -/
  dflt : Nat
  constructs : Bool

/-- A value: what it is, and the allocator it uses. The object under `value_ptr` (anyany.hpp:1116). -/
structure Val where
  val : Nat
  res : Option Nat
deriving DecidableEq, Repr

/-- An any: its allocator (anyany.hpp:1122) and its value. -/
structure AnySt where
  al : Nat
  val : Option Val
deriving DecidableEq, Repr

/-- All anys of a program, and the memory resources that do not exist any more. State of the program; no code of its own (anyany.hpp:1103-1122). -/
structure W where
  any : Nat → Option AnySt
  dead : Nat → Bool

/-- Outcomes of an operation. Language rule, for anyany.hpp:1190-1460. -/
inductive Res where
  | ok (w : W)
  | exn (w : W)
  | ub
  | term

/-- Change of one any. State of the program; no code of its own (anyany.hpp:1115-1122). -/
def W.set (w : W) (a : Nat) (s : Option AnySt) : W := { w with any := fun b => if b = a then s else w.any b }

/-- A value is usable (or destructible) while the resource of its allocator exists. Language rule, for the accesses through anyany.hpp:1116. -/
def W.usable (w : W) : Option Val → Bool
  | some ⟨_, some r⟩ => !w.dead r
  | _ => true

/-- A type as far as its construction matters: does it use allocators (`std::uses_allocator`), is it nothrow constructible from the arguments (`is_nothrow_constructible_v<T, Args&&...>`)
and from the arguments and the allocator, does it fit in the buffer. (anyany.hpp:1128-1148, 1281-1283, 1457-1462.) -/
structure Ty where
  aware : Bool
  nothrow : Bool
  nothrowAlloc : Bool
  small : Bool

/-- `alloc_traits::construct(alloc, ptr, args...)` (anyany.hpp:1460): the new value. -/
def made (c : Cfg) (t : Ty) (al v : Nat) : Val := ⟨v, if c.constructs && t.aware then some al else none⟩

/-- May the construction throw? Without `construct` in the allocator it is construction from the arguments, with it from the arguments and the allocator. (anyany.hpp:1460.) -/
def mayThrow (c : Cfg) (t : Ty) : Bool := if c.constructs && t.aware then !t.nothrowAlloc else !t.nothrow

/-- Allocation, for a type that does not fit in the buffer, and construction (`emplace_in_empty`, anyany.hpp:1127-1148; `construct_value`, 1457-1462). `fault = some 0`: the allocation throws.
`fault = some 1`: the construction throws, if it may, in `construct_value`, which is `noexcept(std::is_nothrow_constructible_v<T, Args&&...>)`. An allocator whose resource does not exist any more
cannot be used. `done`, `left`: the state after success and after an exception. -/
def construct (c : Cfg) (t : Ty) (al : Nat) (fault : Option Nat) (done left : W) : Res :=
  if left.dead al then .ub
  else if fault = some 0 ∧ t.small = false then .exn left
  else if fault = some 1 ∧ mayThrow c t = true then (if t.nothrow then .term else .exn left)
  else .ok done

/-- `emplace<T>(args...)` (anyany.hpp:1279-1286, 1438-1454) and assignment of a value (1271-1275). The value is destroyed first. -/
def emplace (c : Cfg) (a : Nat) (t : Ty) (v : Nat) (fault : Option Nat) (w : W) : Res :=
  match w.any a with
  | none => .ub
  | some s =>
    if w.usable s.val then construct c t s.al fault (w.set a (some ⟨s.al, some (made c t s.al v)⟩)) (w.set a (some ⟨s.al, none⟩))
    else .ub

/-- `basic_any(std::allocator_arg, alloc, x)` (anyany.hpp:1316-1322); with `al = c.dflt` also `basic_any(x)`, `basic_any(std::in_place_type<T>, args...)` (1295-1313) and, for the allocator, the
constructors with `force_stable_pointers` (1352-1372). -/
def valueCtor (c : Cfg) (a al : Nat) (t : Ty) (v : Nat) (fault : Option Nat) (w : W) : Res :=
  match w.any a with
  | some _ => .ub
  | none => construct c t al fault (w.set a (some ⟨al, some (made c t al v)⟩)) w

/-- `basic_any()`, `basic_any(std::allocator_arg, alloc)` (anyany.hpp:1190, 1314-1315). -/
def emptyCtor (a al : Nat) (w : W) : Res :=
  match w.any a with
  | some _ => .ub
  | none => .ok (w.set a (some ⟨al, none⟩))

/-- `copy_fn` (noexport/anyany_details.hpp:263-286): the copy constructor of the value, without the allocator; a container takes `select_on_container_copy_construction` of
the allocator of the original. -/
def copied (c : Cfg) (v : Val) : Val := ⟨v.val, v.res.map c.soccc⟩

/-- The copy constructor and the transmutating copy constructor (anyany.hpp:1198-1209, 1326-1341). -/
def copyCtor (c : Cfg) (a o : Nat) (fault : Bool) (w : W) : Res :=
  match w.any a, w.any o with
  | none, some s =>
    if w.usable s.val then
      if fault && s.val.isSome then .exn w
      else if w.usable (s.val.map (copied c)) then .ok (w.set a (some ⟨c.soccc s.al, s.val.map (copied c)⟩)) else .ub
    else .ub
  | _, _ => .ub

/-- The move constructor (anyany.hpp:1215-1218): the value, relocated or with its memory, keeps its allocator. -/
def moveCtor (a o : Nat) (w : W) : Res :=
  match w.any a, w.any o with
  | none, some s => if w.usable s.val then .ok ((w.set o (some ⟨s.al, none⟩)).set a (some ⟨s.al, s.val⟩)) else .ub
  | _, _ => .ub

/-- The transmutating move constructor (anyany.hpp:1342-1348): the allocator is default-constructed. -/
def transCtor (c : Cfg) (a o : Nat) (w : W) : Res :=
  match w.any a, w.any o with
  | none, some s => if w.usable s.val then .ok ((w.set o (some ⟨s.al, none⟩)).set a (some ⟨c.dflt, s.val⟩)) else .ub
  | _, _ => .ub

/-- Move assignment (anyany.hpp:1219-1251). With `pocma` the allocator is assigned; otherwise, if the allocators differ, the value is relocated to memory that may have to be allocated
(`fault`: the allocation throws; the value of `a` is destroyed before). -/
def moveAssign (c : Cfg) (a o : Nat) (fault : Bool) (w : W) : Res :=
  match w.any a, w.any o with
  | some s, some p =>
    if a = o then .ok w
    else if w.usable s.val && w.usable p.val then
      if c.pocma then .ok ((w.set o (some ⟨p.al, none⟩)).set a (some ⟨p.al, p.val⟩))
      else if fault && s.al != p.al && p.val.isSome then .exn (w.set a (some ⟨s.al, none⟩))
      else .ok ((w.set o (some ⟨p.al, none⟩)).set a (some ⟨s.al, p.val⟩))
    else .ub
  | _, _ => .ub

/-- Copy assignment (anyany.hpp:1253-1264): a copy `value` is made (`fault = some 0`: this throws), with `pocca` the allocator is copied if it differs, then `value` is
move-assigned (`fault = some 1`: this throws), which is `moveAssign` with the temporary `value`, destroyed afterwards. -/
def copyAssign (c : Cfg) (a o : Nat) (fault : Option Nat) (w : W) : Res :=
  match w.any a, w.any o with
  | some s, some p =>
    if w.usable p.val then
      if fault = some 0 ∧ p.val.isSome then .exn w
      else
        let tv := p.val.map (copied c)
        let tal := c.soccc p.al
        let al := if c.pocca then p.al else s.al
        if w.usable s.val && w.usable tv then
          if c.pocma then .ok (w.set a (some ⟨tal, tv⟩))
          else if fault = some 1 ∧ al ≠ tal ∧ tv.isSome then .exn (w.set a (some ⟨al, none⟩))
          else .ok (w.set a (some ⟨al, tv⟩))
        else .ub
    else .ub
  | _, _ => .ub

/-- The destructor (anyany.hpp:1192-1194). -/
def destruct (a : Nat) (w : W) : Res :=
  match w.any a with
  | some s => if w.usable s.val then .ok (w.set a none) else .ub
  | none => .ub

/-- `reset()` (anyany.hpp:1376-1380), `destroy_value()` (1383-1388). -/
def reset (a : Nat) (w : W) : Res :=
  match w.any a with
  | some s => if w.usable s.val then .ok (w.set a (some ⟨s.al, none⟩)) else .ub
  | none => .ub

/-- A method that reads or changes the value. User code, called at anyany.hpp:177-193. -/
def useVal (a : Nat) (w : W) : Res :=
  match w.any a with
  | some ⟨_, some v⟩ => if w.usable (some v) then .ok w else .ub
  | _ => .ub

/-- The end of the lifetime of a memory resource. User code (for the allocators stored at anyany.hpp:1122). -/
def endResource (r : Nat) (w : W) : Res := .ok { w with dead := fun q => if q = r then true else w.dead q }

/-- The operations of a program. -/
inductive Op where
  | emptyCtor (a al : Nat)
  | valueCtor (a al : Nat) (t : Ty) (v : Nat)
  | emplace (a : Nat) (t : Ty) (v : Nat)
  | copyCtor (a o : Nat)
  | moveCtor (a o : Nat)
  | transCtor (a o : Nat)
  | moveAssign (a o : Nat)
  | copyAssign (a o : Nat)
  | destruct (a : Nat)
  | reset (a : Nat)
  | use (a : Nat)
  | endResource (r : Nat)

/-- One operation (anyany.hpp:1190-1462); `fault`: the call in it that throws, if any. -/
def step (c : Cfg) (fault : Option Nat) (w : W) : Op → Res
  | .emptyCtor a al => emptyCtor a al w
  | .valueCtor a al t v => valueCtor c a al t v fault w
  | .emplace a t v => emplace c a t v fault w
  | .copyCtor a o => copyCtor c a o fault.isSome w
  | .moveCtor a o => moveCtor a o w
  | .transCtor a o => transCtor c a o w
  | .moveAssign a o => moveAssign c a o fault.isSome w
  | .copyAssign a o => copyAssign c a o fault w
  | .destruct a => destruct a w
  | .reset a => reset a w
  | .use a => useVal a w
  | .endResource r => endResource r w

end AnyAny.ValueAlloc
