import Verif.Model.TypeSwitch
import Verif.Model.UniquePtr
import Verif.Model.Variant
/-
Validation of the model, not proofs of properties: programs from the library's own tests that use references, pointers, `type_switch`,
`unique_ptr` and `visit_invoke` (tests/test_anyany.cpp, tests/test_utilities.cpp, tests/test_visit_invoke.cpp), run on the model.
-/
namespace AnyAny.Check
open AnyAny.Poly
open AnyAny.Mem (Method World)

private def check (b : Bool) : PM Unit := if b then pure () else throwExn

/-- Variables: 0 is `std::string s` (type 2), 1 is `int x` (type 0), value 10. -/
private def start : PW := ⟨.init, fun x => if x = 0 then some (2, 77) else if x = 1 then some (0, 10) else none, fun _ => none, 0⟩

private def passes (m : PM Unit) : Bool :=
  match m start with
  | .ok _ _ => true
  | _ => false

private def print : Method := .user 0

/-! ### ptr_behavior (tests/test_anyany.cpp:817-837) -/

/-- 818-826: default construction, one method and two methods. -/
example : passes (do
    setRef (.var 0) (some (ptrNull .polyPtr [print]))
    check ((← raw (.var 0)) == none)
    check ((← vtablePtr (.var 0)).isSome)
    setRef (.var 1) (some (ptrNull .polyPtr [print, print]))
    check ((← vtablePtr (.var 1)) == none)) = true := by decide +kernel

/-- 827-836 -/
example : passes (do
    let p1 ← polyOfVar .polyPtr [.typeInfo, print] 0
    setRef (.var 0) (some p1)
    check ((← dispatch (.var 0) print) == (2, some (.var 0)))
    let p2 ← polyOfVar .polyPtr [.typeInfo, print] 1
    setRef (.var 1) (some p2)
    check ((← dispatch (.var 1) print) == (0, some (.var 1)))
    -- ptr1 = ptr2; ptr2 = nullptr
    setRef (.var 0) (some (← getRef (.var 1)))
    setRef (.var 1) (some (ptrNull .polyPtr [.typeInfo, print]))
    check (!(← hasValue (.var 1)))
    check ((← typeDescriptor (.var 1)) == none)
    -- const_poly_ptr p = ptr1
    let p ← convert .constPolyPtr [.typeInfo, print] (.var 0)
    setRef (.var 2) (some p)
    check (← ptrEq (.var 2) (.var 0))) = true := by decide +kernel

/-! ### type_descriptor_and_plugins_interaction (896-926) -/

/-- `check(ref)`: the reference, the pointer to it, and what this points to. -/
private def descTest (k : Kind) (ms : List Method) (src : Option RId) : PM Unit := do
  let o ← match src with
    | some r => convert k ms r
    | none => polyOfVar k ms 1
  setRef (.var 5) (some o)
  check ((← Poly.typeDescriptor (.var 5)) == some 0)
  setRef (.var 6) (some (← addrOfRef (.var 5)))
  check ((← Poly.typeDescriptor (.var 6)) == some 0)
  setRef (.var 7) (some (← derefPtr (.var 6)))
  check ((← Poly.typeDescriptor (.var 7)) == some 0)

example : passes (do
    setRef (.var 0) (some (← polyOfVar .polyRef [.typeInfo, .equalTo, .spaceship] 1))
    [[Method.typeInfo], [.equalTo], [.spaceship], [.equalTo, .spaceship], [.typeInfo, .equalTo]].forM fun ms => do
      descTest .polyRef ms (some (.var 0))
      descTest .polyRef ms none
    descTest .polyRef [.typeInfo, .spaceship] none
    descTest .constPolyRef [.typeInfo, .equalTo, .spaceship] (some (.var 0))) = true := by decide +kernel

/-! ### stateful (790-810): calls arrive at the object through every conversion -/

private def kekab : Method := .user 1

private def arrives (n : Nat) : PM Unit := do check ((← dispatch (.var n) kekab) == (2, some (.var 0)))

example : passes (do
    setRef (.var 0) (some (← statefulOfVar .ref [.copy 0, kekab, .move] 0))
    arrives 0
    setRef (.var 1) (some (← convert .ref [.copy 0, kekab, .move] (.var 0)))
    arrives 1
    setRef (.var 2) (some (← convert .ref [kekab] (.var 0)))
    arrives 2
    setRef (.var 3) (some (← convert .cref [kekab] (.var 2)))
    arrives 3
    setRef (.var 4) (some (← convert .cref [kekab] (.var 0)))
    arrives 4) = true := by decide +kernel

/-! ### References with parts of an interface (main, 1458-1490) -/

private def m1 : Method := .user 1
private def m2 : Method := .user 2

private def at_ (n : Nat) (m : Method) (x : Nat × Option Addr) : PM Unit := do check ((← dispatch (.var n) m) == x)

example : passes (do
    setRef (.var 0) (some (← polyOfVar .polyRef [m1, m2, .copy 0, .move] 0))
    setRef (.var 1) (some (← polyOfVar .constPolyRef [m1, m2, .move] 1))
    at_ 1 m1 (0, some (.var 1))
    setRef (.var 2) (some (← convert .constPolyRef [m2, .move] (.var 1)))
    setRef (.var 9) (some (← addrOfRef (.var 1)))
    setRef (.var 3) (some (← convert .constPolyPtr [m2, .move] (.var 9)))
    at_ 2 m2 (0, some (.var 1))
    setRef (.var 4) (some (← derefPtr (.var 3)))
    at_ 4 m2 (0, some (.var 1))
    setRef (.var 5) (some (← convert .constPolyRef [m2] (.var 2)))
    at_ 5 m2 (0, some (.var 1))
    setRef (.var 9) (some (← addrOfRef (.var 2)))
    setRef (.var 6) (some (← convert .constPolyPtr [m2] (.var 9)))
    setRef (.var 7) (some (← derefPtr (.var 6)))
    at_ 7 m2 (0, some (.var 1))
    setRef (.var 8) (some (← convert .constPolyRef [m1, m2] (.var 0)))
    at_ 8 m1 (2, some (.var 0))
    at_ 8 m2 (2, some (.var 0))
    setRef (.var 10) (some (← convert .polyRef [m2, .copy 0] (.var 0)))
    setRef (.var 11) (some (← convert .polyRef [m2] (.var 10)))
    setRef (.var 9) (some (← addrOfRef (.var 10)))
    setRef (.var 12) (some (← convert .polyPtr [m2] (.var 9)))
    setRef (.var 13) (some (← derefPtr (.var 12)))
    at_ 0 m1 (2, some (.var 0))
    [0, 10, 11, 13].forM fun n => at_ n m2 (2, some (.var 0))) = true := by decide +kernel

/-! ### type_switch (tests/test_utilities.cpp:10-42): float, bool, char, unsigned char, double, int are 10, 11, 12, 13, 14, 0 -/

/-- The visitor returns the size of what it is called with; of the types in the switch only `int` occurs. -/
private def visitor : Addr → PM (Option Nat) := fun a => do
  let _ ← readAddr a 0
  pure (some 4)

example : passes (do
    setRef (.var 0) (some (← polyOfVar .constPolyRef [.typeInfo] 1))
    check ((← typeSwitch true (.ref 0) [([10], visitor), ([11], visitor), ([12, 0, 13, 14], visitor)] .noDefault) == some 4)
    check ((← typeSwitch true (.ref 0) [([10], visitor), ([11], visitor), ([12, 13, 14], visitor), ([0], visitor)] (.value 999)) == some 4)
    -- the reference to the string stands for the any that contains one
    setRef (.var 1) (some (← polyOfVar .polyRef [.typeInfo] 0))
    check ((← typeSwitch false (.ref 1) [([10], visitor), ([11], visitor), ([12, 13, 14], visitor), ([0], visitor)] (.value 999)) == some 999)) =
    true := by decide +kernel

/-! ### custom_unique_ptr (tests/test_anyany.cpp:1217-1244) -/

/-- `ptr.reset(new x)`, comparison of what it points to with another object, `ptr.reset()`: the object has been deleted, once, as an `x`. -/
example : ∀ const ∈ [false, true],
    (do
      let w := UPtr.makeNull 0 const [.equalTo] ⟨start, [], 5⟩
      let w ← UPtr.resetNew 0 3 1 w
      let o ← UPtr.get 0 w
      let r1 : RefObj := { o with kind := if const then .constPolyRef else .polyRef }
      let other := { w.pw with vars := Mem.upd w.pw.vars 2 (some (3, 1)) }
      let eq := (do
        setRef (.var 8) (some r1)
        setRef (.var 9) (some (← polyOfVar r1.kind r1.ms 2))
        eqOp ⟨fun _ x y => x == y, fun _ _ _ => .unordered, fun _ _ => 0⟩ (.ref 8) (.ref 9) : PM Bool) other
      let w' ← UPtr.resetNull 0 w
      let o' ← UPtr.get 0 w'
      pure (o.val.isSome, (match eq with | .ok b _ => b | _ => false), o'.val.isSome, w'.log) : Option (Bool × Bool × Bool × List (Nat × Nat))) =
    some (true, true, false, [(5, 3)]) := by decide +kernel

/-! ### visit_invoke (tests/test_visit_invoke.cpp): void, spaceship, planet, int, double, char are 0 to 5 -/

open AnyAny.Visit in
/-- `collisions` -/
private def collisions : List (Overload Nat) :=
  [⟨[⟨1, .constLref⟩, ⟨2, .constLref⟩], .lambda⟩, ⟨[⟨1, .lref⟩, ⟨1, .constLref⟩], .lambda⟩, ⟨[⟨2, .constLref⟩, ⟨1, .constLref⟩], .lambda⟩,
    ⟨[⟨2, .value⟩, ⟨2, .lref⟩], .lambda⟩, ⟨[⟨3, .rref⟩], .lambda⟩]

private def lt (a b : Nat) : Bool := decide (a < b)

/-- insertion sort by key, for `std::sort` -/
private def insertKey (x : List Nat × Nat) : List (List Nat × Nat) → List (List Nat × Nat)
  | [] => [x]
  | y :: l => if Visit.keyLt lt x.1 y.1 then x :: y :: l else y :: insertKey x l

private def sortKeys (l : List (List Nat × Nat)) : List (List Nat × Nat) := l.foldr insertKey []

private def resolve (args : List (Visit.Arg Nat Nat)) : Visit.Outcome Nat := Visit.resolve 0 lt sortKeys true collisions args

/-- 57-66: two ints, an int and a spaceship: nothing; a spaceship and a planet, both const: the first overload, with these objects; a spaceship and
an int: nothing; an int: the last overload. -/
example : resolve [⟨3, false, some 70⟩, ⟨3, false, some 71⟩] = .nullopt ∧ resolve [⟨3, false, some 70⟩, ⟨1, true, some 72⟩] = .nullopt ∧
    resolve [⟨1, true, some 72⟩, ⟨2, true, some 73⟩] = .call 0 [(some 72, .constLvalue), (some 73, .constLvalue)] ∧
    resolve [⟨1, true, some 72⟩, ⟨3, false, some 70⟩] = .nullopt ∧ resolve [⟨3, false, some 70⟩] = .call 4 [(some 70, .xvalue)] := by
  decide +kernel

/-- `vars_collision` with variants (38-50) -/
private def varOverloads : List (Visit.Overload Nat) :=
  [⟨[⟨1, .constLref⟩, ⟨2, .constLref⟩], .lambda⟩, ⟨[⟨2, .constLref⟩, ⟨1, .constLref⟩], .lambda⟩, ⟨[⟨3, .value⟩], .lambda⟩]

private def var1 : Variant.Val Nat Nat := .variant [3, 1, 2, 4, 5] (some 1) 80 false
private def var2 : Variant.Val Nat Nat := .variant [3, 1, 2, 4, 5] (some 2) 81 true

example : (Variant.visitResolve 0 lt sortKeys true varOverloads [var1, var2] = .ok (.call 0 [(some 80, .constLvalue), (some 81, .constLvalue)])) ∧
    Variant.anyCast 1 var1 = .ok (some 80) ∧ Variant.anyCast 2 var2 = .ok (some 81) ∧ Variant.anyCast 3 var2 = .ok none ∧
    Variant.anyCastConst var1 = false ∧ Variant.anyCastConst var2 = true := by decide +kernel

end AnyAny.Check
