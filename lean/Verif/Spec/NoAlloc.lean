import Verif.Spec.AnyRun
/-
Programs that need no memory: the types of all values fit the buffer.
-/
namespace AnyAny.Mem

variable (cfg : Cfg)

/-- Statements that put only values of types that fit the buffer into anys, and do not ask for memory explicitly. -/
def Small : Op → Prop
  | .valueCtor _ _ _ t _ _ | .emplace _ t _ _ => fits cfg t = true
  | .forceCtor .. => False
  | .replaceWithBytes _ n => n ≤ cfg.soos
  | _ => True

instance (op : Op) : Decidable (Small cfg op) := by cases op <;> (unfold Small; infer_instance)

/-- The properties of `aa::unreachable_allocator` (anyany.hpp:1087-1101): an empty class, so `is_always_equal` is true, and the copy
function default-constructs it. -/
structure UnreachableAllocator : Prop where
  alwaysEq : cfg.alwaysEq = true
  copyNeedsAlloc : cfg.copyNeedsAlloc = false

/-- Statements that contain no call of `allocate`, so that they compile with `aa::unreachable_allocator`, whose `allocate` is a template with
a failing `static_assert` (anyany.hpp:1093-1097): constructors and `emplace` contain one unless the type fits (1128-1134, 1440-1455; the copy
function of the type in the vtable is chosen in the same way, anyany_details.hpp:14-60), construction with `force_stable_pointers` and
`replace_with_bytes` always do (1352-1372, 1390-1399), move assignment does not as the allocator is always equal (1222-1224). Moves, copies
and `materialize` contain no call except the copy function of the vtable, made where the value was first stored. -/
def CompilesUnreachable : Op → Prop
  | .valueCtor _ _ _ t _ _ | .emplace _ t _ _ => fits cfg t = true
  | .forceCtor .. | .replaceWithBytes .. => False
  | _ => True

instance (op : Op) : Decidable (CompilesUnreachable cfg op) := by cases op <;> (unfold CompilesUnreachable; infer_instance)

end AnyAny.Mem
