import Verif.Model.AnyCast
import Verif.Props.Methods
/-
C83: what `any_cast` returns gives the access that was asked for, and no more than the argument gives.
-/
namespace AnyAny.AnyCast
open AnyAny.Methods

variable {copyable movable : Ty → Bool} {t : Target} {arg : Arg}

/-! ### Specification -/

/-- The argument gives only const access to the object. -/
def Arg.IsConst : Arg → Prop
  | .anyPtr c | .any c _ | .polyPtr c | .polyRef c | .stateful c => c = true

/-- The argument is a pointer. -/
def Arg.IsPointer : Arg → Prop
  | .anyPtr _ | .polyPtr _ => True
  | _ => False

/-- The argument is an any that may be moved from. -/
def Arg.IsMovable : Arg → Prop
  | .any c rv => c = false ∧ rv = true
  | _ => False

/-- With the result one can change the object (assign to it, move from it), or any_cast itself did. -/
def Result.Mutable : Result → Prop
  | .pointer c | .lref c | .rref c => c = false
  | .copy => False
  | .move => True

/-- The result allows to move from the object without asking (it is an rvalue), or any_cast itself moved. -/
def Result.Steals : Result → Prop
  | .rref c => c = false
  | .move => True
  | _ => False

/-- The result is a new object. -/
def Result.IsValue : Result → Prop
  | .copy | .move => True
  | _ => False

/-! ### Theorems -/

/-- Case analysis over everything a result depends on. -/
local macro "all_cases" h:ident t:ident arg:ident : tactic => `(tactic| (
  rcases $t:ident with ⟨ty, c, rf⟩
  simp only [result, refResult, value, ptrConst] at $h:ident
  generalize ty.isArray = a at *
  generalize copyable ty = p at *
  generalize movable ty = q at *
  rcases $arg:ident with ⟨_ | _⟩ | ⟨_ | _, _ | _⟩ | ⟨_ | _⟩ | ⟨_ | _⟩ | ⟨_ | _⟩ <;> cases c <;> cases rf <;> cases a <;> cases p <;> cases q <;>
    simp at $h:ident <;> subst $h:ident <;> simp [Result.Mutable, Result.Steals, Result.IsValue, Arg.IsConst, Arg.IsPointer, Arg.IsMovable] at *))

/-- C83: `any_cast` never gives more than const access to an object reached through const access, or when asked for const; neither does it move from
it. -/
theorem C83_const_correct {r : Result} (h : result copyable movable t arg = some r) (hm : r.Mutable) : ¬arg.IsConst ∧ t.const = false := by
  all_cases h t arg

/-- C83: otherwise pointers and references are to non-const. -/
theorem C83_mutable {r : Result} (h : result copyable movable t arg = some r) (hv : ¬r.IsValue) (hc : ¬arg.IsConst) (ht : t.const = false) : r.Mutable := by
  all_cases h t arg

/-- C83: only from an any that is a non-const rvalue the value is moved, and only then the result can be moved from unasked. -/
theorem C83_no_stealing {r : Result} (h : result copyable movable t arg = some r) (hs : r.Steals) : arg.IsMovable := by
  all_cases h t arg

/-- C83: pointers give pointers; `T&` gives a reference to the object itself. -/
theorem C83_in_place {r : Result} (h : result copyable movable t arg = some r) :
    (arg.IsPointer ↔ r = .pointer true ∨ r = .pointer false) ∧ (¬arg.IsPointer → t.ref = .lvalue → r = .lref true ∨ r = .lref false) := by
  all_cases h t arg

/-- C83: `T` gives a new object: moved from a non-const rvalue any, unless const was asked for, otherwise copied. -/
theorem C83_values {r : Result} (h : result copyable movable t arg = some r) (hp : ¬arg.IsPointer) (ht : t.ref = .none) :
    r.IsValue ∧ (r = .move ↔ arg.IsMovable ∧ t.const = false) := by
  all_cases h t arg

/-- C83: `T&&` gives an rvalue reference to the object only for an rvalue any; from an lvalue any and from a reference to non-const it
gives a copy, and from a reference to const a const lvalue reference to the object. -/
theorem C83_rvalue_references (ht : t.ref = .rvalue) (hp : ¬arg.IsPointer) :
    (∀ c, arg = .any c true → result copyable movable t arg = some (.rref (c || t.const))) ∧
    ((∃ c, arg = .any c false) ∨ arg = .polyRef false ∨ arg = .stateful false →
      result copyable movable t arg = if t.ty.isArray = false ∧ copyable t.ty = true then some .copy else none) ∧
    (arg = .polyRef true ∨ arg = .stateful true → result copyable movable t arg = some (.lref true)) := by
  rcases t with ⟨ty, c, rf⟩
  subst ht
  simp only [result, refResult, value, ptrConst]
  generalize ty.isArray = a at *
  generalize copyable ty = p at *
  rcases arg with ⟨_ | _⟩ | ⟨_ | _, _ | _⟩ | ⟨_ | _⟩ | ⟨_ | _⟩ | ⟨_ | _⟩ <;> cases c <;> cases a <;> cases p <;> simp_all [Arg.IsPointer]

/-- C83: `T&` and the pointer forms always compile. -/
theorem C83_references_compile (ht : arg.IsPointer ∨ t.ref = .lvalue) : ∃ r, result copyable movable t arg = some r := by
  rcases t with ⟨ty, c, rf⟩
  cases arg <;> simp_all [Arg.IsPointer, result, refResult]

/-- C83: `T` compiles exactly if there is the constructor: the move constructor for rvalue anys, otherwise the copy constructor. -/
theorem C83_values_compile (hp : ¬arg.IsPointer) (ht : t.ref = .none) :
    (∃ r, result copyable movable t arg = some r) ↔
      t.ty.isArray = false ∧ ((arg.IsMovable ∧ t.const = false ∧ movable t.ty = true) ∨ (¬(arg.IsMovable ∧ t.const = false) ∧ copyable t.ty = true)) := by
  rcases t with ⟨ty, c, rf⟩
  subst ht
  simp only [result, refResult, value, ptrConst]
  generalize ty.isArray = a at *
  generalize copyable ty = p at *
  generalize movable ty = q at *
  rcases arg with ⟨_ | _⟩ | ⟨_ | _, _ | _⟩ | ⟨_ | _⟩ | ⟨_ | _⟩ | ⟨_ | _⟩ <;> cases c <;> cases a <;> cases p <;> cases q <;>
    simp_all [Arg.IsPointer, Arg.IsMovable]

theorem isPointer_iff : arg.isPointer = true ↔ arg.IsPointer := by cases arg <;> simp [Arg.isPointer, Arg.IsPointer]

theorem decay_of_isArray_false {u : Ty} (ha : u.isArray = false) (hf : u.isFunction = false) : u.decay = u := by
  cases u <;> simp_all [Ty.decay, Ty.isArray, Ty.isFunction]

/-- C83: if neither `T` nor the object referred to is an array, `any_cast` of what was made from an lvalue of type `u` succeeds exactly if `T` is
this type up to reference and const (for an any: the decayed type), and then accesses the object as what it is. It is null for pointers and throws
otherwise, also if there is no object. -/
theorem C83_exact_partial {ms : List Method} {src : Source} {u : Ty} {o : Made} (hw : make copyable ms src u = some o)
    (hu : src = .any ∨ u.isArray = false) (ha : t.ty.isArray = false) (hf : t.ty.isFunction = false) {r : Result}
    (hr : result copyable movable t arg = some r) :
    cast copyable movable t arg (some o) =
      (if o.object = t.ty then .access r t.ty t.ty else cast copyable movable t arg none) ∧
    (arg.IsPointer → cast copyable movable t arg none = .null) ∧ (¬arg.IsPointer → cast copyable movable t arg none = .badCast) := by
  obtain ⟨-, -, h3, h4, h5⟩ := make_some hw
  have ho : o.entries = o.object := by
    by_cases hs : src = .any
    · rw [h3, h4 hs]
    · rw [h3, (h5 hs).1]
      rcases hu with h | h
      · exact absurd h hs
      · exact decay_of_isArray_false h (h5 hs).2
  refine ⟨?_, ?_, ?_⟩
  · simp only [cast, hr, ho, decay_of_isArray_false ha hf]
    split
    · rename_i e; rw [e]
    · rfl
  · intro hp; simp [cast, hr, isPointer_iff.2 hp]
  · intro hp
    have : arg.isPointer = false := by rw [Bool.eq_false_iff]; exact fun h => hp (isPointer_iff.1 h)
    simp [cast, hr, this]

/-- C83 fails: any_cast to an array type, `T` an array with elements of type `e` or a reference to it, of an any that contains a pointer to `e`
succeeds and accesses the pointer as the array. -/
theorem C83_arrays_fail (e : Ty) (n : Nat) {ms : List Method} {o : Made} (hw : make copyable ms .any (.ptr e) = some o) (ht : t.ty = .arr e n)
    (hp : arg.IsPointer ∨ t.ref = .lvalue) : ∃ r, cast copyable movable t arg (some o) = .access r (.ptr e) (.arr e n) := by
  obtain ⟨r, hr⟩ := C83_references_compile (copyable := copyable) (movable := movable) hp
  obtain ⟨-, -, h3, h4, -⟩ := make_some hw
  refine ⟨r, ?_⟩
  simp [cast, hr, h3, h4 rfl, ht, Ty.decay]

/-- C83: exactly then. If the cast of an any accesses the value as something else, `T` is an array and the value is a pointer to its elements. -/
theorem C83_exact {ms : List Method} {u : Ty} {o : Made} (hw : make copyable ms .any u = some o) (hf : t.ty.isFunction = false) {r : Result} {x y : Ty}
    (hc : cast copyable movable t arg (some o) = .access r x y) : x = o.object ∧ y = t.ty ∧ (x ≠ y ↔ ∃ e n, y = .arr e n ∧ x = .ptr e) := by
  obtain ⟨-, -, h3, h4, -⟩ := make_some hw
  unfold cast at hc
  split at hc
  · cases hc
  · simp only at hc
    split at hc
    · rename_i he
      injection hc with _ hx hy
      subst hx; subst hy
      refine ⟨rfl, rfl, ?_⟩
      rw [h4 rfl, ← h3, he]
      cases hty : t.ty with
      | obj k => simp [Ty.decay]
      | ptr k => simp [Ty.decay]
      | arr e n => simp [Ty.decay]
      | fn f => simp [hty, Ty.isFunction] at hf
    · split at hc <;> cases hc

/-- C83 fails also for references to arrays: they have the dynamic type of a pointer, and the cast to it accesses the array as a pointer. -/
theorem C83_references_to_arrays_fail (e : Ty) (n : Nat) {ms : List Method} {src : Source} {o : Made} (hs : src ≠ .any)
    (hw : make copyable ms src (.arr e n) = some o) (ht : t.ty = .ptr e) (hp : arg.IsPointer ∨ t.ref = .lvalue) :
    ∃ r, cast copyable movable t arg (some o) = .access r (.arr e n) (.ptr e) := by
  obtain ⟨r, hr⟩ := C83_references_compile (copyable := copyable) (movable := movable) hp
  obtain ⟨-, -, h3, -, h5⟩ := make_some hw
  refine ⟨r, ?_⟩
  simp [cast, hr, h3, (h5 hs).1, ht, Ty.decay]

/-- Casts of an any with an object, of an any with a pointer, and of a reference to an array. -/
example : let any := (fun _ => true : Ty → Bool)
    make any [exMethod .clref] .any (.obj 1) = some ⟨.obj 1, .obj 1⟩ ∧
    cast any any ⟨.obj 1, false, .none⟩ (.any false true) (some ⟨.obj 1, .obj 1⟩) = .access .move (.obj 1) (.obj 1) ∧
    cast any any ⟨.obj 1, false, .none⟩ (.any true true) (some ⟨.obj 1, .obj 1⟩) = .access .copy (.obj 1) (.obj 1) ∧
    cast any any ⟨.obj 1, false, .rvalue⟩ (.any false true) (some ⟨.obj 1, .obj 1⟩) = .access (.rref false) (.obj 1) (.obj 1) ∧
    cast any any ⟨.obj 1, false, .lvalue⟩ (.polyRef true) (some ⟨.obj 1, .obj 1⟩) = .access (.lref true) (.obj 1) (.obj 1) ∧
    cast any any ⟨.obj 4, false, .lvalue⟩ (.polyRef true) (some ⟨.obj 1, .obj 1⟩) = .badCast ∧
    cast any any ⟨.obj 4, false, .none⟩ (.polyPtr true) none = .null ∧
    make any [exMethod .clref] .any (.ptr (.obj 1)) = some ⟨.ptr (.obj 1), .ptr (.obj 1)⟩ ∧
    cast any any ⟨.arr (.obj 1) 7, false, .lvalue⟩ (.any false false) (some ⟨.ptr (.obj 1), .ptr (.obj 1)⟩) =
      .access (.lref false) (.ptr (.obj 1)) (.arr (.obj 1) 7) := by decide

end AnyAny.AnyCast
