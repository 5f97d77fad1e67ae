import Verif.Model.Dpv
import Verif.Model.Fields
import Verif.Model.Swarm
/-
Validation of the model, not proofs of properties: programs from the library's own tests of `data_parallel_vector` and `variant_swarm`
(tests/test_data_parallel_vector.cpp, tests/test_variant_swarm.cpp), run on the model.
-/
namespace AnyAny.Check
open AnyAny.Dpv

/-- Four fields; all values are numbers. -/
private abbrev V : Fin 4 → Type := fun _ => Nat

/-- Vectors grow to twice their size; nothing throws. A default record is zero, as are moved-from fields. -/
private def env : Env V where
  grow := fun c k => max (2 * c) k
  grow_ok := fun c k => by omega
  shrink := fun k _ => k
  shrink_ok := fun k c h => ⟨Nat.le_refl k, h⟩
  throws := fun _ => none
  fieldDefault := fun _ => 0
  recDefault := fun _ => 0
  movedFrom := fun _ _ => 0

private def assert (b : Bool) : M V Unit := fun w => if b then .ok () w else .exn w

private def passes (m : M V Unit) : Bool :=
  match m ⟨fun _ => none, 0⟩ with
  | .ok _ _ => true
  | _ => false

private def cmp : (j : Fin 4) → Nat → Nat → Cmp := fun _ x y => if x < y then .less else if y < x then .greater else .equal

private def rec4 (a b c d : Nat) : Rec V := fun j => [a, b, c, d][j]

private def same (a b : Rec V) : Bool := eqByFields cmp a b

/-- `d == e` -/
private def eq (d e : Nat) : M V Unit := do assert (← equal cmp d e)

private def it : List (Rec V) := [rec4 5 314 66 99, rec4 5 314 66 99, rec4 1 2 3 4]

private def front (d : Nat) : M V (Rec V) := elem d 0
private def back (d : Nat) : M V (Rec V) := do elem d ((← size d) - 1)

/-- test_data_parallel (tests/test_data_parallel_vector.cpp:57-223), with `ra`: random access iterators, or not. The vectors `t1` to `t5` are 1 to 5,
`x1` to `x5` are 11 to 15, `y1` to `y5` are 21 to 25. -/
private def dpvTest (ra : Bool) : M V Unit := do
  defaultCtor 0
  assert (← isEmpty 0)
  assert ((← size 0) == 0)
  defaultCtor 1
  countValueCtor env 2 10 (rec4 5 314 66 99)
  assert (same (← front 2) (rec4 5 314 66 99))
  assert (same (← back 2) (rec4 5 314 66 99))
  assert ((← size 2) == 10 && !(← isEmpty 2))
  countCtor env 3 50
  assert ((← size 3) == 50 && !(← isEmpty 3))
  rangeCtor env 4 it ra
  assert ((← toList 4).map (fun r => List.ofFn r) == it.map (fun r => List.ofFn r))
  rangeCtor env 5 it ra
  assert ((← toList 5).map (fun r => List.ofFn r) == it.map (fun r => List.ofFn r))
  copyCtor env 10 0
  eq 10 0
  [1, 2, 3, 4, 5].forM fun i => copyCtor env (10 + i) i
  [1, 2, 3, 4, 5].forM fun i => eq (10 + i) i
  assert ((← capacity 11) == 0)
  [2, 3, 4, 5].forM fun i => do assert ((← capacity (10 + i)) != 0)
  [1, 2, 3, 4, 5].forM fun i => moveCtor (20 + i) (10 + i)
  [1, 2, 3, 4, 5].forM fun i => eq (20 + i) i
  [1, 2, 3, 4, 5].forM fun i => copyAssign env (10 + i) i
  [1, 2, 3, 4, 5].forM fun i => eq (10 + i) i
  [1, 2, 3, 4, 5].forM fun i => moveAssign (10 + i) i
  [1, 2, 3, 4, 5].forM fun i => eq (10 + i) (20 + i)
  [1, 2, 3, 4, 5].forM fun i => swap (10 + i) (20 + i)
  [1, 2, 3, 4, 5].forM fun i => eq (10 + i) (20 + i)
  [1, 2, 3, 4, 5].forM fun i => shrinkToFit env (10 + i)
  [2, 3, 4, 5].forM fun i => do pushBack env (10 + i) (← front (10 + i))
  [2, 3, 4, 5].forM fun i => do pushBack env (10 + i) (← back (10 + i))
  [2, 3, 4, 5].forM fun i => copyCtor env (30 + i) (10 + i)
  [2, 3, 4, 5].forM fun i => do
    let k ← insertVal env (10 + i) ((← size (10 + i)) - 1) (← front (10 + i))
    assert (same (← front (10 + i)) (← elem (10 + i) k))
    let _ ← erase env (10 + i) k
    eq (30 + i) (10 + i)
  [2, 3, 4, 5].forM fun i => do
    popBack (10 + i)
    popBack (10 + i)
    eq (10 + i) (20 + i)
  [1, 2, 3, 4, 5].forM fun i => do
    let n ← size (10 + i)
    let k ← insertRange env (10 + i) 0 it ra
    assert (k == 0)
    assert ((← size (10 + i)) == n + 3)
  assignRange env 15 99 it ra
  assert ((← toList 15).map (fun r => List.ofFn r) == it.map (fun r => List.ofFn r))
  assignCount env 14 99 10 (rec4 1 2 3 4)
  assert (same (← elem 14 1) (rec4 1 2 3 4) && same (← elem 14 9) (rec4 1 2 3 4))
  assert ((← toList 14).all fun r => same r (rec4 1 2 3 4))
  [1, 2, 4, 5].forM fun i => resizeVal env (10 + i) 20 (rec4 5 314 66 99)
  resize env 13 20
  [1, 2, 3, 4, 5].forM fun i => do
    assert ((← size (10 + i)) == 20)
    clear (10 + i)
    assert (← isEmpty (10 + i))

example : passes (dpvTest true) = true := by decide +kernel
example : passes (dpvTest false) = true := by decide +kernel

/-- algo_test (235-296): comparison of elements, swapping them -/
example : passes (do
    rangeCtor env 0 [rec4 1 2 3 1, rec4 3 2 1 0, rec4 3 2 1 0, rec4 10 314 1 0, rec4 0 316 1 1] true
    assert (same (← front 0) (rec4 1 2 3 1))
    assert (same (← back 0) (rec4 0 316 1 1))
    assert (compareByFields cmp (← front 0) (rec4 1 2 3 1) == .equal)
    assert (compareByFields cmp (← front 0) (rec4 3 2 1 0) == .less)
    swapRef 0 0 0 4
    assert (same (← front 0) (rec4 0 316 1 1))
    assert (same (← back 0) (rec4 1 2 3 1))) = true := by decide +kernel

/-- main (318-322): insertion at index 1, at the end, assignment through an iterator -/
example : passes (do
    countCtor env 0 10
    let _ ← insertVal env 0 1 (rec4 3 4 5 6)
    let _ ← insertRange env 0 11 [rec4 3 4 5 6, rec4 3 4 5 6, rec4 3 4 5 6] true
    assignElem env 0 0 (rec4 11 12 13 14)
    assert ((← size 0) == 14)
    assert (same (← elem 0 0) (rec4 11 12 13 14) && same (← elem 0 1) (rec4 3 4 5 6) && same (← elem 0 2) (rec4 0 0 0 0) &&
      same (← elem 0 10) (rec4 0 0 0 0) && same (← elem 0 11) (rec4 3 4 5 6) && same (← elem 0 13) (rec4 3 4 5 6))) = true := by decide +kernel

/-- `fields_count_v<physic_obj> == 5`, `fields_count_v<field_4> == 5` (53, 301): an aggregate with five fields is constructible from up to five values. -/
example : Fields.fieldsCount (fun k => decide (k ≤ 5)) = some 5 := by decide +kernel

/-! ### variant_swarm (tests/test_variant_swarm.cpp): int, double, string are 0, 1, 2; values are numbers -/

open AnyAny.Swarm (Cont Swarm)

private abbrev W : Fin 3 → Type := fun _ => Nat

private def vecs : (i : Fin 3) → Cont Nat := fun _ =>
  ⟨some fun _ l x => (l ++ [x], false), some fun _ l x => (l ++ [x], false), none, some fun _ l x => (l ++ [x], false), none, none,
    some fun _ l xs => (l ++ xs, false), fun _ _ _ _ => none, fun _ _ => false, fun _ _ _ => none⟩

/-- insertion into a `std::set` -/
private def setInsert (l : List Nat) (x : Nat) : List Nat := if l.contains x then l else l.takeWhile (· < x) ++ [x] ++ l.dropWhile (· < x)

private def sets : (i : Fin 3) → Cont Nat := fun _ =>
  ⟨none, none, some fun _ l x => (setInsert l x, false), none, some fun _ l x => (setInsert l x, false),
    some fun _ l xs => (xs.foldl setInsert l, false), none, fun _ _ _ _ => none, fun _ _ => false, fun _ _ _ => none⟩

/-- A series of calls that all compile and do not throw. -/
private def steps (s : Swarm W) : List (Swarm W → Option (Swarm.SwarmAfter W)) → Option (Swarm W)
  | [] => some s
  | f :: fs =>
    match f s with
    | some (s', none) => steps s' fs
    | _ => none

private def none3 : Swarm W := fun _ => []

/-- 20-27: `f1` -/
example : (steps none3 [fun s => Swarm.emplace vecs 0 s 0 5, fun s => Swarm.emplace vecs 0 s 1 15, fun s => Swarm.emplace vecs 0 s 2 7]).map
    (fun s => (Swarm.size s, Swarm.count s 2, Swarm.empty s)) = some (3, 1, false) := by decide +kernel

example : Swarm.empty none3 = true ∧ Swarm.size none3 = 0 := by decide +kernel

/-- 28-47: `f` -/
example : (steps none3 [fun s => Swarm.inserterVisit vecs 0 s ⟨2, 11⟩]).map (fun s => (Swarm.count s 2, Swarm.size s, Swarm.empty s)) =
      some (1, 1, false) ∧
    (steps none3 [fun s => Swarm.inserterVisit vecs 0 s ⟨2, 11⟩, fun s => Swarm.insert vecs 0 s 2 7]).map (fun s => (Swarm.size s, Swarm.empty s)) =
      some (2, false) ∧
    (steps none3 [fun s => Swarm.inserterVisit vecs 0 s ⟨2, 11⟩, fun s => Swarm.insert vecs 0 s 2 7, fun s => Swarm.insert vecs 0 s 0 155,
      fun s => Swarm.insert vecs 0 s 1 314]).map Swarm.size = some 4 := by decide +kernel

/-- 48-85: `kek`, with sets; the string "hello" is 8, "hi" 9, "world" 10. -/
private def kek : Option (Swarm W) := steps none3 [fun s => Swarm.insert sets 0 s 2 8, fun s => Swarm.insert sets 0 s 1 314, fun s => Swarm.insert sets 0 s 0 55]

private def kek' : Option (Swarm W) := kek.bind fun s => steps s [fun s => some (Swarm.erase sets 0 s 0 0)]

private def kek'' : Option (Swarm W) := kek'.bind fun s => steps s [fun s => Swarm.insertInit sets 0 s 0 [1, 2, 3, 4, 5], fun s => Swarm.insertInit sets 0 s 2 [9, 10]]

example : kek.map Swarm.size = some 3 ∧ kek'.map (fun s => (Swarm.size s, Swarm.empty s)) = some (2, false) ∧
    kek''.map (fun s => (Swarm.count s 2, Swarm.count s 0)) = some (3, 5) := by decide +kernel

/-- 79-83: `visit_copy_all` twice writes twice as many values as there are. -/
example : kek''.map (fun s =>
    let r := Swarm.visitCopyAll (σ := Unit) (R := Nat) (fun _ u x => (u, x, .val x)) s () ⟨fun _ => 0, 0⟩
    let r' := Swarm.visitCopyAll (σ := Unit) (R := Nat) (fun _ u x => (u, x, .val x)) r.2 () r.1.1.2
    (r'.1.1.2.pos == 2 * Swarm.size s)) = some true := by decide +kernel

end AnyAny.Check
