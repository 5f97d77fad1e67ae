import Verif.Model.Compare
/-
Validation of the model, not proofs of properties: programs from the library's own tests (tests/test_anyany.cpp), run on the model. What the tests
check (`error_if`) is checked at the same places; after the program, all anys having been destroyed, every block must have been freed once and
every object with a non-trivial destructor must have been destroyed once.

Sizes and alignments are those of a 64-bit platform with libstdc++.
-/
namespace AnyAny.Check
open AnyAny.Mem

/-! ### Types -/

/-- `int`, `char`, `std::string`, `std::vector<T>`, `std::array<char, 200>`, `double`, `std::list<int>`, `std::pmr::list<int>` -/
private def tInt := 0
private def tChar := 1
private def tString := 2
private def tVector := 3
private def tArray := 4
private def tDouble := 5
private def tList := 6
private def tPmrList := 7

private def types : Nat → TyInfo
  | 0 => ⟨4, 4, true, true, true, true, by decide, by decide⟩
  | 1 => ⟨1, 1, true, true, true, true, by decide, by decide⟩
  | 2 => ⟨32, 8, true, false, false, false, by decide, by decide⟩
  | 3 => ⟨24, 8, true, false, false, false, by decide, by decide⟩
  | 4 => ⟨200, 1, true, true, true, true, by decide, by decide⟩
  | 5 => ⟨8, 8, true, true, true, true, by decide, by decide⟩
  | 6 => ⟨24, 8, true, false, false, false, by decide, by decide⟩
  | _ => ⟨32, 8, true, false, false, false, by decide, by decide⟩

/-- An any with `std::allocator<std::byte>` and the given `SooS`: 40 is `default_any_soos`, and `basic_any_with` makes at least 16 of a positive number
(`TypeList.sooBufferSize`). No call throws. Values are numbers; 0 is the value of an empty container, which is what is left in a container moved
from. -/
private def std (soos : Nat) : Cfg where
  soos := soos
  maxAlign := 16
  allocAlign := 16
  alwaysEq := true
  pocma := true
  pocca := false
  copyNeedsAlloc := true
  soccc := id
  defaultAlloc := 0
  ty := types
  faults := fun _ => false
  impl := fun _ _ v _ => (v, v)
  kind := fun _ => .constRef
  movedFrom := fun t v => if (types t).trivCopy then v else 0

/-- The same with `std::pmr::polymorphic_allocator`. -/
private def pmr (soos : Nat) : Cfg := { std soos with alwaysEq := false, pocma := false, soccc := fun _ => 0 }

/-- `unreachable_allocator` -/
private def unreach (soos : Nat) : Cfg := { std soos with pocma := false, copyNeedsAlloc := false }

/-! ### Running a program -/

/-- `error_if(!b)` -/
private def check (b : Bool) : M Unit := if b then pure () else throwExn

/-- All blocks freed once, all objects destroyed once, no any left among the first `n`. -/
private def clean (cfg : Cfg) (n : Nat) (w : World) : Bool :=
  (List.range w.nextBlk).all (fun b => w.frees b == 1 && (w.blks b).isNone) &&
  (List.range w.nextObj).all (fun o => (cfg.ty (w.born o)).trivDestr || w.dtors o == 1) && (List.range n).all fun a => (w.anys a).isNone

/-- The program runs to its end, destroys the anys `n - 1`, …, `0`, and leaves nothing. -/
private def passes (cfg : Cfg) (n : Nat) (m : M Unit) : Bool :=
  match (do m; (List.range n).reverse.forM fun a => destructor cfg a : M Unit) .init with
  | .ok _ w => clean cfg n w
  | _ => false

/-- A program that fails a check does not pass. -/
example : passes (std 40) 0 (check false) = false := by decide +kernel

/-- Nor does one that leaves an any behind. -/
example : passes (std 40) 1 (do allocCtor 0 [.destroy] 0; dropSlot 0; allocCtor 0 [.destroy] 0) = true ∧
    passes (std 0) 1 (do valueCtor (std 0) 0 [.destroy] 0 tInt (.lit 5) true; dropSlot 0; allocCtor 0 [.destroy] 0) = false := by
  decide +kernel

/-- `(&a).raw()` -/
private def rawOf (a : Nat) : M Ptr := do pure (← getAny a).vp

/-! ### always_allocated_any (tests/test_anyany.cpp:1264-1280) -/

private def alwaysAllocated (cfg : Cfg) : M Unit := do
  valueCtor cfg 0 [.destroy, .copy 0] cfg.defaultAlloc tChar (.lit 99) true
  check (← isStablePointers 0)
  check ((← sizeofNow cfg 0) == 1)
  copyCtor cfg 1 [.destroy, .copy 0] 0
  check (← isStablePointers 1)
  check ((← sizeofNow cfg 1) == 1)
  moveCtor cfg 2 0
  check (!(← isStablePointers 0))
  check ((← sizeofNow cfg 0) == 0)
  check (← isStablePointers 2)
  check ((← sizeofNow cfg 2) == 1)

example : passes (std 0) 3 (alwaysAllocated (std 0)) = true := by decide +kernel

/-! ### zero_sized_any (1309-1319) -/

private def zeroSized (cfg : Cfg) : M Unit := do
  valueCtor cfg 0 [.destroy] cfg.defaultAlloc tInt (.lit 5) true
  moveCtor cfg 1 0
  check (← isStablePointers 1)
  check (← hasValue 1)
  check (!(← hasValue 0))
  swapAny cfg 0 1 2
  check (← isStablePointers 0)
  check (← hasValue 0)
  check (!(← hasValue 1))

example : passes (std 0) 2 (zeroSized (std 0)) = true := by decide +kernel

/-! ### memory_reuse (1323-1352) -/

private def expect (a t v : Nat) : M Unit := do
  match ← anyCastPtr a t with
  | some p => check ((← readObj p t).val == v)
  | none => check false

private def memoryReuse (cfg : Cfg) : M Unit := do
  allocCtor 0 [.destroy, .typeInfo] cfg.defaultAlloc
  replaceWithBytes cfg 0 200
  check ((← capacity cfg 0) ≥ 200)
  emplace cfg 0 tInt (.lit 5) true
  expect 0 tInt 5
  let data ← rawOf 0
  emplace cfg 0 tString (.lit 11) true
  expect 0 tString 11
  check ((← rawOf 0) == data)
  emplace cfg 0 tInt (.lit 0) true
  expect 0 tInt 0
  check ((← rawOf 0) == data)
  emplace cfg 0 tVector (.lit 0) true
  expect 0 tVector 0
  check ((← rawOf 0) == data)
  emplace cfg 0 tArray (.lit 0) true
  expect 0 tArray 0
  check ((← rawOf 0) == data)
  emplace cfg 0 tInt (.lit 5) true
  expect 0 tInt 5
  check ((← capacity cfg 0) ≥ 200)
  check ((← rawOf 0) == data)

/-- The seven classes of the test: buffers of 40, 0, 16 and 16 (from 3) bytes; one block each. -/
example : ∀ soos ∈ [40, 0, 16], passes (std soos) 1 (memoryReuse (std soos)) = true := by decide +kernel
example : ∀ soos ∈ [0, 16], passes (pmr soos) 1 (memoryReuse (pmr soos)) = true := by decide +kernel

/-! ### special_member_functions (455-491) -/

private def fns : Poly.CmpFns where
  eq := fun _ x y => x == y
  cmp := fun _ x y => if x < y then .less else if y < x then .greater else .equivalent
  hash := fun _ x => x

/-- An operation of `Compare.lean` on anys. -/
private def onAnys {α} (m : Poly.PM α) : M α := fun w =>
  match m ⟨w, fun _ => none, fun _ => none, 0⟩ with
  | .ok b w' => .ok b w'.mem
  | .exn w' => .exn w'.mem
  | .ub => .ub
  | .term => .term

private def anyEq (l r : Nat) : M Bool := onAnys (Poly.eqOp fns (.any l) (.any r))

/-- The five constructors and the moves; `ms` as in the four classes of the test (`vec` is 77). -/
private def specialMembers (cfg : Cfg) (ms : List Method) : M Unit := do
  valueCtor cfg 0 ms cfg.defaultAlloc tVector (.lit 77) false
  valueCtor cfg 1 ms cfg.defaultAlloc tVector (.lit 77) false
  valueCtor cfg 2 ms cfg.defaultAlloc tVector (.lit 77) false
  forceCtor cfg 3 ms tVector (.lit 77) false
  forceCtor cfg 4 ms tVector (.lit 77) false
  check (← isStablePointers 3)
  check (← isStablePointers 4)
  [0, 1, 2, 3, 4].forM fun i => do
    check (← hasValue i)
    check (← anyEq i 0)
    check ((← anyCastCopy cfg i tVector) == 77)
  moveCtor cfg 5 0
  expect 5 tVector 77
  check (!(← hasValue 0))
  moveAssign cfg 0 5
  expect 0 tVector 77
  check (!(← hasValue 5))

example : ∀ ms ∈ [[Method.destroy, .copy 0, .equalTo], [.destroy, .move, .equalTo], [.destroy, .copy 0, .move, .move, .copy 0, .equalTo],
    [.destroy, .copy 1, .equalTo]], passes (std 40) 6 (specialMembers (std 40) ms) = true := by decide +kernel

/-- `vec_copy = vec_anys` and the comparison of the copies (477-487); copying with fewer methods (479-486), in a class that always allocates. -/
private def copies (cfg : Cfg) (ms : List Method) : M Unit := do
  valueCtor cfg 0 ms cfg.defaultAlloc tVector (.lit 77) false
  forceCtor cfg 1 ms tVector (.lit 77) false
  copyCtor cfg 2 ms 0
  copyCtor cfg 3 ms 1
  check (← anyEq 0 2)
  check (← anyEq 1 3)

example : ∀ ms ∈ [[Method.destroy, .copy 0, .equalTo], [.destroy, .copy 0, .move, .move, .copy 0, .equalTo]],
    passes (std 40) 4 (copies (std 40) ms) = true := by decide +kernel

private def copyLess (cfg : Cfg) : M Unit := do
  valueCtor cfg 0 [.destroy, .copy 0, .equalTo, .typeInfo] cfg.defaultAlloc tString (.lit 5) false
  copyCtor cfg 1 [.destroy, .copy 0, .equalTo] 0
  copyCtor cfg 2 [.destroy, .copy 0, .equalTo] 0
  check (← anyEq 1 2)

example : passes (pmr 0) 3 (copyLess (pmr 0)) = true := by decide +kernel

/-! ### noallocate_test (493-502) -/

private def noallocate (cfg : Cfg) : M Unit := do
  let ms := [.destroy, .copy 0]
  valueCtor cfg 0 ms cfg.defaultAlloc tInt (.lit 5) true
  moveCtor cfg 1 0
  copyAssign cfg 1 0 9
  copyCtor cfg 2 ms 1

example : passes (unreach 40) 3 (noallocate (unreach 40)) = true := by decide +kernel

/-! ### strange_allocs (433-452): the resources are 1 and 2, the default one is 0 -/

/-- number of blocks allocated so far from a resource -/
private def allocs (r : Nat) : M Nat := fun w =>
  .ok ((List.range w.nextBlk).filter fun b => (w.blks b).any (·.al == r)).length w

private def strangeAllocs (cfg : Cfg) : M Unit := do
  let ms := [.destroy, .copy 0, .equalTo]
  allocCtor 0 ms 1
  allocCtor 1 ms 1
  emplace cfg 1 tList (.lit 10) false
  check ((← allocs 1) == 1)
  emplace cfg 0 tPmrList (.lit 10) false
  check ((← allocs 1) == 2)
  valueCtor cfg 2 ms cfg.defaultAlloc tPmrList (.lit 10) true
  check (← anyEq 0 2)
  allocCtor 3 ms 2
  emplace cfg 3 tVector (.lit 111) false
  check (!(← anyEq 3 2))
  moveAssign cfg 3 0
  check (← anyEq 3 2)

/-- (The nodes of the lists are not modelled.) -/
example : passes (pmr 16) 4 (strangeAllocs (pmr 16)) = true := by decide +kernel

/-! ### compare (524-538) -/

private def compare (cfg : Cfg) : M Unit := do
  let ms := [.destroy, .copy 0, .equalTo, .spaceship, .move]
  let le := fun (l r : Nat) => onAnys (Poly.spaceOp fns (.any l) (.any r))
  valueCtor cfg 0 ms cfg.defaultAlloc tDouble (.lit 5) true
  check ((← le 0 0) == .equivalent)
  check (← onAnys (Poly.spaceEqOp fns (.any 0) (.any 0)))
  valueCtor cfg 1 ms cfg.defaultAlloc tVector (.lit 105) true
  check ((← le 0 1) == .unordered)
  copyCtor cfg 2 ms 1
  match ← anyCastPtr 2 tVector with
  | some p => writeObj p tVector 100
  | none => check false
  check ((← anyCastCopy cfg 2 tVector) == 100)
  check ((← anyCastCopy cfg 1 tVector) == 105)
  check ((← le 2 1) == .less)
  let ms' := [.destroy, .equalTo, .equalTo, .spaceship, .spaceship, .move]
  valueCtor cfg 3 ms' cfg.defaultAlloc tDouble (.lit 314) true
  valueCtor cfg 4 ms' cfg.defaultAlloc tDouble (.lit 314) true
  check (← onAnys (Poly.spaceEqOp fns (.any 3) (.any 4)))
  check (← onAnys (Poly.spaceEqOp fns (.any 4) (.any 3)))

example : passes (std 40) 5 (compare (std 40)) = true := by decide +kernel

/-! ### any_cast2 (612-622) -/

private def anyCast2 (cfg : Cfg) : M Unit := do
  allocCtor 0 [.destroy, .copy 0, .typeInfo] cfg.defaultAlloc
  check ((← anyCastPtr 0 tInt) == none)
  emplace cfg 0 tInt (.lit 5) true
  check ((← anyCastCopy cfg 0 tInt) == 5)
  emplace cfg 0 tInt (.lit 5) true
  check ((← anyCastCopy cfg 0 tInt) == 5)
  emplace cfg 0 tVector (.lit 103) false
  check ((← anyCastCopy cfg 0 tVector) == 103)
  check ((← anyCastMove cfg 0 tVector) == 103)
  check ((← anyCastCopy cfg 0 tVector) == 0)

example : passes (std 40) 1 (anyCast2 (std 40)) = true := by decide +kernel

/-! ### transmutate_ctors (744-780) -/

private def transmute (cfg : Cfg) : M Unit := do
  let ms := [.destroy, .typeInfo, .move, .copy 0]
  allocCtor 0 ms cfg.defaultAlloc
  emplace cfg 0 tString (.lit 3) true
  check ((← rawOf 0) == .data 0)
  copyCtor cfg 1 ms 0
  copyCtor cfg 2 [.destroy, .typeInfo, .move] 0
  check ((← rawOf 2) != (← rawOf 0))
  moveCtor cfg 3 2
  copyCtor cfg 4 ms 0
  check ((← typeDescriptor 3) == (← typeDescriptor 4))

example : passes (std 40) 5 (transmute (std 40)) = true := by decide +kernel

/-- The loop over the five anys: copies (if the class can copy) and moves into `any_with<move, equal_to>`. -/
private def transmuteLoop (cfg : Cfg) (copyable : Bool) (ms : List Method) : M Unit := do
  let to := [.destroy, .move, .equalTo]
  valueCtor cfg 0 ms cfg.defaultAlloc tVector (.lit 77) false
  valueCtor cfg 1 ms cfg.defaultAlloc tVector (.lit 77) false
  valueCtor cfg 2 ms cfg.defaultAlloc tVector (.lit 77) false
  forceCtor cfg 3 ms tVector (.lit 77) false
  forceCtor cfg 4 ms tVector (.lit 77) false
  [0, 1, 2, 3, 4].forM fun i => if copyable then copyCtor cfg (5 + i) to i else allocCtor (5 + i) to cfg.defaultAlloc
  [0, 1, 2, 3, 4].forM fun i => do
    if copyable then
      check ((← anyCastCopy cfg (5 + i) tVector) == 77)
      check (← anyEq (5 + i) 5)
  [0, 1, 2, 3, 4].forM fun i => transMoveCtor cfg (10 + i) to i
  [0, 1, 2, 3, 4].forM fun i => do
    check (!(← hasValue i))
    check (← hasValue (10 + i))
    check ((← anyCastCopy cfg (10 + i) tVector) == 77)
    check (← anyEq (10 + i) 10)

example : ∀ x ∈ [(true, [Method.destroy, .copy 0, .destroy, .move, .equalTo]), (false, [.destroy, .destroy, .move, .equalTo]),
    (true, [.destroy, .copy 0, .move, .copy 0, .destroy, .move, .equalTo]), (false, [.destroy, .copy 1, .destroy, .move, .equalTo])],
    passes (std 40) 15 (transmuteLoop (std 40) x.1 x.2) = true := by decide +kernel

/-! ### constructors: test_swap (195-218), for every pair of an empty any, a small, a large trivial and a non-trivial value -/

private def make (cfg : Cfg) (a : Nat) (ms : List Method) : Option Nat → M Unit
  | none => allocCtor a ms cfg.defaultAlloc
  | some t => valueCtor cfg a ms cfg.defaultAlloc t (.lit (10 + t)) true

private def swapTest (cfg : Cfg) (x y : Option Nat) : M Unit := do
  let ms := [.destroy, .copy 0, .equalTo]
  make cfg 0 ms x
  copyCtor cfg 1 ms 0
  make cfg 2 ms y
  copyCtor cfg 3 ms 2
  let id1 ← typeDescriptor 0
  let id2 ← typeDescriptor 2
  check (← anyEq 0 1)
  check (← anyEq 2 3)
  swapAny cfg 0 2 9
  check (← anyEq 0 3)
  check (← anyEq 2 1)
  check (id1 == (← typeDescriptor 2))
  check (id2 == (← typeDescriptor 0))
  swapAny cfg 0 2 9
  check (← anyEq 0 1)
  check (← anyEq 2 3)
  check (id1 == (← typeDescriptor 0))
  check (id2 == (← typeDescriptor 2))

private def contents : List (Option Nat) := [none, some tInt, some tString, some tArray, some tVector]

example : ∀ x ∈ contents, ∀ y ∈ contents, passes (std 40) 4 (swapTest (std 40) x y) = true ∧ passes (pmr 40) 4 (swapTest (pmr 40) x y) = true ∧
    passes (std 0) 4 (swapTest (std 0) x y) = true := by decide +kernel

/-! ### invoke (594-606): the chain of assignments -/

/-- `f0 = f2 = f1 = f0 = f0 = f0 = std::move(f1) = f2 = f3 = any_fooable{} = f3 = std::move(f2) = f1 = f2 = f3 = f3 = f1 = f2`, from right to left:
`std::move(f1) = f2` is a copy into `f1`, and its result, an lvalue, is copied on. `any_fooable{}` is any 4. -/
private def chain : List (Nat × Nat) :=
  [(1, 2), (3, 1), (3, 3), (2, 3), (1, 2), (2, 1), (3, 2), (4, 3), (3, 4), (2, 3), (1, 2), (0, 1), (0, 0), (0, 0), (1, 0), (2, 1), (0, 2)]

private def invokeTest (cfg : Cfg) : M Unit := do
  let ms := [.destroy, .copy 0, .user 0, .typeInfo]
  [(0, tVector), (1, tString), (2, tArray), (3, tInt)].forM fun x => valueCtor cfg x.1 ms cfg.defaultAlloc x.2 (.lit (20 + x.1)) true
  [0, 1, 2, 3].forM fun i => do check ((← invokeUser cfg i 0 0) == 20 + i)
  allocCtor 4 ms cfg.defaultAlloc
  chain.forM fun x => copyAssign cfg x.1 x.2 9
  [0, 1, 2, 3].forM fun i => expect i tArray 22

example : passes (std 40) 5 (invokeTest (std 40)) = true := by decide +kernel

/-! ### Stable pointers (main, 1440-1447) -/

private def stable (cfg : Cfg) : M Unit := do
  forceCtor cfg 0 [.destroy, .typeInfo, .move] tInt (.lit 5) true
  let p ← rawOf 0
  moveCtor cfg 1 0
  check ((← rawOf 1) == p)
  check (← isStablePointers 1)
  writeObj p tInt 150
  expect 1 tInt 150

example : passes (std 40) 2 (stable (std 40)) = true := by decide +kernel

/-! ### non_default_constructible_allocs (1294-1307) -/

private def ownAlloc (cfg : Cfg) : M Unit := do
  allocCtor 0 [.destroy, .move] 5
  emplace cfg 0 tInt (.lit 5) true
  moveCtor cfg 1 0
  check ((← getAllocator 1) == 5)

example : passes (std 40) 2 (ownAlloc (std 40)) = true := by decide +kernel

end AnyAny.Check
