import Verif.Model.AnyCast
import Verif.Model.TypeList
import Verif.Model.Vtable
/-
Validation of the model, not proofs of properties: the `static_assert`s of the library's own tests (tests/test_anyany.cpp), evaluated on the
model. The library's authors state there what the code does, so a model that disagrees with one of them would be wrong.
-/
namespace AnyAny.Check
open AnyAny.Methods AnyAny.AnyCast AnyAny.TypeList AnyAny.Vtable

/-! ### Result types of any_cast (any_cast_test, tests/test_anyany.cpp:843-890) -/

/-- `int`, which is copyable and movable. -/
private def intTy : Ty := .obj 0

private def res (const : Bool) (ref : Ref) (arg : AnyCast.Arg) : Option Result :=
  result (fun _ => true) (fun _ => true) ⟨intTy, const, ref⟩ arg

/-- A result of type `int` (`copy` and `move` differ in how it is made). -/
private def isInt (r : Option Result) : Bool := r == some .copy || r == some .move

/-- lvalue of an any (844-850) -/
example : isInt (res false .none (.any false false)) ∧ res false .lvalue (.any false false) = some (.lref false) ∧
    isInt (res false .rvalue (.any false false)) ∧ isInt (res true .none (.any false false)) ∧
    res true .lvalue (.any false false) = some (.lref true) ∧ isInt (res true .rvalue (.any false false)) := by decide +kernel

/-- rvalue of an any (852-858) -/
example : isInt (res false .none (.any false true)) ∧ res false .lvalue (.any false true) = some (.lref false) ∧
    res false .rvalue (.any false true) = some (.rref false) ∧ isInt (res true .none (.any false true)) ∧
    res true .lvalue (.any false true) = some (.lref true) ∧ res true .rvalue (.any false true) = some (.rref true) := by decide +kernel

/-- `poly_ref` (860-866) -/
example : isInt (res false .none (.polyRef false)) ∧ res false .lvalue (.polyRef false) = some (.lref false) ∧
    isInt (res false .rvalue (.polyRef false)) ∧ isInt (res true .none (.polyRef false)) ∧
    res true .lvalue (.polyRef false) = some (.lref true) ∧ isInt (res true .rvalue (.polyRef false)) := by decide +kernel

/-- `const_poly_ref` (868-874) -/
example : isInt (res false .none (.polyRef true)) ∧ res false .lvalue (.polyRef true) = some (.lref true) ∧
    res false .rvalue (.polyRef true) = some (.lref true) ∧ isInt (res true .none (.polyRef true)) ∧
    res true .lvalue (.polyRef true) = some (.lref true) ∧ res true .rvalue (.polyRef true) = some (.lref true) := by decide +kernel

/-- `poly_ptr` (876-882) and `const_poly_ptr` (884-890) -/
example : ∀ r ∈ [Ref.none, .lvalue, .rvalue], res false r (.polyPtr false) = some (.pointer false) ∧
    res true r (.polyPtr false) = some (.pointer true) ∧ res false r (.polyPtr true) = some (.pointer true) ∧
    res true r (.polyPtr true) = some (.pointer true) := by decide +kernel

/-! ### Type lists -/

/-- find_subsequence and has_subsequence (main, tests/test_anyany.cpp:1491-1501): int, double, float, char, bool are 0 to 4. -/
example : findSubsequence [0, 1] [0, 1, 2] = some 0 ∧ hasSubsequence [0, 1] [1, 2] = false ∧ findSubsequence [1] [1, 2] = some 0 ∧
    findSubsequence [1] [0, 1, 2] = some 1 ∧ findSubsequence [1, 0, 3] [3, 1, 0, 1, 0, 3, 4, 2] = some 3 ∧
    hasSubsequence [0, 2] [] = false ∧ findSubsequence ([] : List Nat) [] = some 0 := by decide +kernel

/-- find_subsequence (subtable_ptr, 1088-1093): `m2<1>`, `m2<2>`, `m1`, `ebop<int>` are 1 to 4. -/
example : findSubsequence [2, 3, 3] [1, 2, 1, 4, 3, 1, 2, 3, 3] = some 6 ∧
    findSubsequence [3, 3] [1, 2, 1, 4, 3, 1, 2, 3, 3] = some 7 := by decide +kernel

/-- Layout of subtables (subtable_ptr, 1074-1095): the table of `m2<1>, m2<2>, m2<1>, ebop<int>, m1, m2<1>, m2<2>, m1, m1`, where `m2<I>` holds an
`int` and the others an empty struct: `subtable_ptr<m2<1>, m2<2>>` is the table itself; entries 0 and 1 of `subtable_ptr<m2<1>, m2<2>, m1>` are
found where this type of table has them; the last two subtables are `sizeof(int)` bytes apart. -/
private def full : List Entry := [⟨4, 4, by decide⟩, ⟨4, 4, by decide⟩, ⟨4, 4, by decide⟩, ⟨1, 1, by decide⟩, ⟨1, 1, by decide⟩, ⟨4, 4, by decide⟩, ⟨4, 4, by decide⟩, ⟨1, 1, by decide⟩, ⟨1, 1, by decide⟩]

example : findSubsequence [1, 2] [1, 2, 1, 4, 3, 1, 2, 3, 3] = some 0 ∧ subtableOffset full 0 = some 0 ∧
    findSubsequence [1, 2, 3] [1, 2, 1, 4, 3, 1, 2, 3, 3] = some 5 ∧
    (∀ j ∈ [0, 1], subtableOffset full (5 + j) = (subtableOffset full 5).bind fun o => (entryOffset [⟨4, 4, by decide⟩, ⟨4, 4, by decide⟩, ⟨1, 1, by decide⟩] j).map (o + ·)) ∧
    subtableOffset full 7 = (subtableOffset full 6).map (· + 4) := by decide +kernel

/-! ### Interface aliases (meta_test, 1180-1206): `a`, `b<int>`, `b<void, void>`, `c`, `destroy`, `move` are 0 to 5 -/

private def s (n : Nat) : Item Nat := .leaf n
private def al (l : List Nat) : Item Nat := .list (l.map .leaf)

private def t0 : List Nat := []
private def t1 : List Nat := [0, 1, 2, 3, 0, 0]

example : interfaceAlias (α := Nat) [] = some t0 ∧ interfaceAlias [s 0, s 1, s 2, s 3, s 0, s 0] = some t1 := by decide +kernel

/-- `t2`, `t3`, `t4` -/
example : interfaceAlias [s 0, al t0, al t1, al t0] = some (0 :: t1) ∧ interfaceAlias [al t0, al t0] = some t0 ∧
    interfaceAlias [.list [al t0, al t1], s 0] = some (t1 ++ [0]) := by decide +kernel

private def t2 : List Nat := 0 :: t1
private def t3 : List Nat := t0
private def t4 : List Nat := t1 ++ [0]

/-- append, equivalent_to (1186-1190) -/
example : rcAppend t0 [] = some t0 ∧ rcAppend t0 [s 4, s 5] = some [4, 5] ∧ rcEquivalentTo t2 [s 0, al t1] = true ∧
    rcEquivalentTo t3 [al t0] = true := by decide +kernel

/-- subsumes (1191-1198) -/
example : rcSubsumes t4 [s 0] = true ∧ rcSubsumes t4 [.list [al t0, al t1]] = true ∧ rcSubsumes t4 [al t4] = true ∧
    rcSubsumes t4 [al t0] = true ∧ rcSubsumes t4 [al t1] = true ∧ rcSubsumes t4 [al t2] = false ∧ rcSubsumes t0 [s 0] = false ∧
    rcSubsumes t0 [al t0] = true := by decide +kernel

/-- without_duplicates, filtered_by (1199-1206) -/
example : rcWithoutDuplicates t1 = [0, 1, 2, 3] ∧ rcWithoutDuplicates t0 = t0 ∧ rcFilteredBy t4 (fun _ => false) = [] ∧
    rcFilteredBy t4 (fun _ => true) = t4 ∧ rcFilteredBy t1 (fun m => m == 1 || m == 2) = [1, 2] := by decide +kernel

/-! ### any_with (anyany_interface_alias_tests, 973-1004): `destroy`, `type_info`, `call<int()>` are 0 to 2 -/

private def a : Item Nat := al [0, 1]
private def b : Item Nat := .list []
private def c : Item Nat := .list [a, b]

/-- `any_with<a, b, c>` is `basic_any<…, destroy, destroy, type_info, destroy, type_info>` (989-994). -/
example : anyWith 0 [a, b, c] = some [0, 0, 1, 0, 1] := by decide +kernel

/-- `interface_of<any_with<Ms...>>` is the alias of `Ms...` for the lists of the test (976-988) -/
example : ∀ l ∈ [[], [s 1], [s 0], [s 0, s 0, s 1], [s 2, s 3, s 1], [a, b, c], [c, s 0, a, b], [s 0, c, s 5, s 0, a, s 1, b]],
    (anyWith 0 l).map (getInterfaceOfAny 0) = interfaceAlias l := by decide +kernel

/-! ### vtable::change (main, 1503-1510): `type_info`, `copy` are 0, 1 -/

example : change [0, 1, 0] 0 7 [1, 2, 3] = [7, 2, 7] := by decide +kernel

end AnyAny.Check
