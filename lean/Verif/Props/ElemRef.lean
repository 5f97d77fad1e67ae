import Verif.Spec.ElemRef
/-
C107: references to elements can be used as `T&` and `const T&` can.
-/
namespace AnyAny.ElemRef
open Spec

/-- An operand that is a reference to an element. -/
def Arg.IsRef (a : Arg) : Prop := a.ty ≠ .val

/-- One operand is a `reference`, the other a `const_reference`. -/
def Mixed (l r : Arg) : Prop := (l.ty = .ref ∧ r.ty = .cref) ∨ (l.ty = .cref ∧ r.ty = .ref)

/-- C107: if elements can be copied, `T x = e` compiles for the same operands as for a `std::vector<T>`. -/
theorem C107_read_partial (e : Elem) (h : e.copyable = true) (a : Arg) : (init e .val a).isSome = true ↔ CanRead e (denotes a) := by
  obtain ⟨t, c, k⟩ := a
  obtain ⟨y, o⟩ := e
  subst h
  cases t <;> cases c <;> cases k <;> simp [init, CanRead, denotes, convOf, Conv.compiles]

/-- C107: reading an element through a reference copies it, also by `std::move(r)`. -/
theorem C107_read_exact (e : Elem) (a : Arg) (h : a.IsRef) : (init e .val a).isSome = true ↔ e.copyable = true := by
  obtain ⟨t, c, k⟩ := a
  cases t
  · exact absurd rfl h
  · cases hc : e.copyable <;> simp [init, convOf, Conv.compiles, hc]
  · cases hc : e.copyable <;> simp [init, convOf, Conv.compiles, hc]

/-- C107 fails: `T x = std::move(r)` does not compile for types that can only be moved. -/
theorem C107_read_fails (e : Elem) (h : e.copyable = false) (c : Bool) :
    init e .val ⟨.ref, c, .xvalue⟩ = none ∧ CanRead e (denotes ⟨.ref, c, .xvalue⟩) :=
  ⟨by simp [init, convOf, Conv.compiles, h], .inr (.inl ⟨rfl, rfl⟩)⟩

/-- C107: if elements can be copied, an assignment compiles for the same operands as for a `std::vector<T>`, in particular never to a
`const_reference`. -/
theorem C107_assign_partial (e : Elem) (h : e.copyable = true) (l r : Arg) :
    (assign e l r).isSome = true ↔ CanAssign e (denotes l) (denotes r) := by
  obtain ⟨t, c, k⟩ := l
  obtain ⟨u, d, m⟩ := r
  obtain ⟨y, o⟩ := e
  subst h
  cases t
  · cases c <;> cases u <;> cases d <;> cases m <;> cases k <;> simp [CanAssign, denotes] <;> rfl
  · cases c <;> cases u <;> cases d <;> cases m <;> cases k <;> simp [CanAssign, denotes] <;> rfl
  · simp [CanAssign, denotes, assign]

/-- C107: an assignment from a reference copies the element, also from `std::move(r)`. -/
theorem C107_assign_exact (e : Elem) (l r : Arg) (h : r.IsRef) :
    (assign e l r).isSome = true ↔ (denotes l).const = false ∧ e.copyable = true := by
  obtain ⟨t, c, k⟩ := l
  obtain ⟨u, d, m⟩ := r
  obtain ⟨y, o⟩ := e
  cases t
  · cases y <;> cases c <;> cases u <;> cases d <;> cases m <;> cases k <;> first | exact absurd rfl h | (simp [denotes]; rfl)
  · cases y <;> cases c <;> cases u <;> cases d <;> cases m <;> cases k <;> first | exact absurd rfl h | (simp [denotes]; rfl)
  · simp [denotes, assign]

/-- C107: an assignment from a value compiles for the same operands as for a `std::vector<T>`, also if elements can only be moved. -/
theorem C107_assign_values (e : Elem) (l r : Arg) (hr : r.ty = .val) :
    (assign e l r).isSome = true ↔ CanAssign e (denotes l) (denotes r) := by
  obtain ⟨t, c, k⟩ := l
  obtain ⟨u, d, m⟩ := r
  obtain ⟨y, o⟩ := e
  cases hr
  cases t
  · cases y <;> cases c <;> cases d <;> cases m <;> cases k <;> simp [CanAssign, denotes] <;> rfl
  · cases y <;> cases c <;> cases d <;> cases m <;> cases k <;> simp [CanAssign, denotes] <;> rfl
  · simp [CanAssign, denotes, assign]

/-- C107 fails: `r = std::move(s)` does not compile for types that can only be moved, although `r = value` does. -/
theorem C107_assign_fails (e : Elem) (h : e.copyable = false) (l : Arg) (hl : l.ty = .ref) (c : Bool) :
    assign e l ⟨.ref, c, .xvalue⟩ = none ∧ CanAssign e (denotes l) (denotes ⟨.ref, c, .xvalue⟩) ∧
    (assign e l ⟨.val, false, .xvalue⟩).isSome = true := by
  obtain ⟨t, d, k⟩ := l
  obtain ⟨y, o⟩ := e
  subst h hl
  refine ⟨?_, ⟨rfl, .inl ⟨by simp [denotes], rfl⟩⟩, ?_⟩
  · cases c <;> cases d <;> cases k <;> rfl
  · cases d <;> cases k <;> rfl

theorem init_cases (e : Elem) (a : Arg) : init e .val a = none ∨ init e .val a = some (ReadsBy a) := by
  obtain ⟨t, c, k⟩ := a
  obtain ⟨y, o⟩ := e
  cases t <;> cases c <;> cases k <;> cases y <;> first | exact .inl rfl | exact .inr rfl

theorem assign_cases (e : Elem) (l r : Arg) : assign e l r = none ∨ assign e l r = AssignsBy l r := by
  obtain ⟨t, c, k⟩ := l
  obtain ⟨u, d, m⟩ := r
  obtain ⟨y, o⟩ := e
  cases t <;> cases u <;> cases c <;> cases d <;> cases m <;> cases k <;> cases y <;> first | exact .inl rfl | exact .inr rfl

/-- C107: how a value is made from an element: reading through a reference converts it, whatever its category; a value is moved from if
it is an rvalue that is not const, and copied otherwise. -/
theorem C107_read (e : Elem) (a : Arg) (i : Init) (h : init e .val a = some i) : i = ReadsBy a := by
  rcases init_cases e a with h' | h' <;> rw [h] at h' <;> cases h'
  rfl

/-- C107: which assignment is called: values that are rvalues and not const are moved from, references are assigned by the assignment for
references, and a value read through a reference is a temporary that is moved from. -/
theorem C107_assign (e : Elem) (l r : Arg) (f : Assign) (h : assign e l r = some f) : some f = AssignsBy l r := by
  rcases assign_cases e l r with h' | h'
  · rw [h] at h'; cases h'
  · rw [h] at h'; exact h'

set_option maxHeartbeats 2000000 in
/-- Constness and category of the operands do not matter for comparisons. -/
theorem compareBy_types (tm : Cmp → Bool) (l r : Arg) (htm : tm = eqTemplate ∨ tm = fun _ => false) :
    compareBy tm l r = compareBy tm ⟨l.ty, false, .lvalue⟩ ⟨r.ty, false, .lvalue⟩ := by
  obtain ⟨t, c, k⟩ := l
  obtain ⟨u, d, m⟩ := r
  rcases htm with rfl | rfl <;> cases t <;> cases u <;> cases c <;> cases k <;> cases d <;> cases m <;> rfl

theorem eq_types (e : Elem) (l r : Arg) : eq e l r = eq e ⟨l.ty, false, .lvalue⟩ ⟨r.ty, false, .lvalue⟩ := by
  unfold eq
  rw [compareBy_types _ l r (.inl rfl)]
  rfl

theorem spaceship_types (e : Elem) (l r : Arg) : spaceship e l r = spaceship e ⟨l.ty, false, .lvalue⟩ ⟨r.ty, false, .lvalue⟩ := by
  unfold spaceship
  rw [compareBy_types _ l r (.inr rfl)]
  rfl

/-- C107: two operands at least one of which is a reference to an element can be compared just if the fields have `<=>` and not one is a
`reference` and the other a `const_reference`. -/
theorem C107_compare_exact (e : Elem) (l r : Arg) (h : l.IsRef ∨ r.IsRef) :
    ((eq e l r).isSome = true ↔ e.ordered = true ∧ ¬Mixed l r) ∧ ((spaceship e l r).isSome = true ↔ e.ordered = true ∧ ¬Mixed l r) := by
  rw [eq_types, spaceship_types]
  obtain ⟨t, c, k⟩ := l
  obtain ⟨u, d, m⟩ := r
  obtain ⟨y, o⟩ := e
  cases t <;> cases u <;> first
    | (exfalso; rcases h with h | h <;> exact h rfl)
    | (cases y <;> cases o <;> exact ⟨by simp [Mixed]; try rfl, by simp [Mixed]; try rfl⟩)

/-- C107: a comparison that compiles calls the member for just these operands, without converting one of them; if the member belongs to
the right operand, its result is reversed. -/
theorem C107_compare (e : Elem) (l r : Arg) (c : Cmp) (b : Bool) (h : eq e l r = some (c, b) ∨ spaceship e l r = some (c, b)) :
    c.sig = if b then (r.ty, l.ty) else (l.ty, r.ty) := by
  rw [eq_types, spaceship_types] at h
  obtain ⟨t, c1, k⟩ := l
  obtain ⟨u, d, m⟩ := r
  obtain ⟨y, o⟩ := e
  dsimp only at h ⊢
  cases t <;> cases u <;> cases y <;> cases o <;>
    (rcases h with h | h <;> (revert h; cases c <;> cases b <;> decide))

/-- C107 fails: a `reference` and a `const_reference` cannot be compared, whatever the element type. -/
theorem C107_compare_fails (e : Elem) (l r : Arg) (h : Mixed l r) : eq e l r = none ∧ spaceship e l r = none := by
  have hr : l.IsRef ∨ r.IsRef := by
    left; intro hv
    rcases h with h | h <;> rw [h.1] at hv <;> cases hv
  have := C107_compare_exact e l r hr
  constructor
  · have := mt this.1.1 (fun x => x.2 h)
    simpa using this
  · have := mt this.2.1 (fun x => x.2 h)
    simpa using this

/-- C107 fails: a `reference` or `const_reference` can be initialised only with a call that returns one, never with a copy: two
references to one element, passing one on by value, returning one from a variable do not compile. -/
theorem C107_copy_fails (e : Elem) (t : Ty) (a : Arg) (ht : t ≠ .val) (ha : a.ty = t) :
    (init e t a).isSome = true ↔ a.cat = .prvalue := by
  obtain ⟨u, c, k⟩ := a
  cases t
  · exact absurd rfl ht
  all_goals
    cases ha
    cases c <;> cases k <;> simp [init, initRef] <;> decide

/-- C107 fails: a `reference` does not convert to a `const_reference`, although there is a constructor for it. -/
theorem C107_convert_fails (e : Elem) (a : Arg) (h : a.ty = .ref) : convOf .ref .cref = some .refToCref ∧ init e .cref a = none := by
  obtain ⟨u, c, k⟩ := a
  cases h
  exact ⟨rfl, by cases c <;> cases k <;> rfl⟩

/-- C107: `swap` of two references exchanges elements, whatever their constness and category, and no `const_reference` can be swapped. -/
theorem C107_swap (l r : Arg) (h : l.IsRef ∨ r.IsRef) (f : Swap) : swap l r = some f ↔ l.ty = .ref ∧ r.ty = .ref ∧ f = .friend := by
  obtain ⟨t, c, k⟩ := l
  obtain ⟨u, d, m⟩ := r
  cases t <;> cases u <;> first
    | (exfalso; rcases h with h | h <;> exact h rfl)
    | (cases f <;> cases c <;> cases k <;> cases d <;> cases m <;> simp <;> decide)

/-- C107: values are swapped as everywhere: both must be lvalues that are not const. -/
theorem C107_swap_values (l r : Arg) (hl : l.ty = .val) (hr : r.ty = .val) :
    ((swap l r).isSome = true ↔ CanSwap (denotes l) (denotes r)) ∧ ∀ f, swap l r = some f → f = .std := by
  obtain ⟨t, c, k⟩ := l
  obtain ⟨u, d, m⟩ := r
  cases hl; cases hr
  constructor
  · cases c <;> cases k <;> cases d <;> cases m <;> simp [CanSwap, CanBind, denotes] <;> decide
  · intro f
    cases f <;> cases c <;> cases k <;> cases d <;> cases m <;> decide

/-- `T x = v[0]`, `v[0] = w[0]`, `v[0] == x`, `x <=> v[0]` -/
example : init ⟨true, true⟩ .val ⟨.ref, false, .prvalue⟩ = some (.conv .refToVal) ∧
    assign ⟨true, true⟩ ⟨.ref, false, .prvalue⟩ ⟨.ref, false, .prvalue⟩ = some .moveRef ∧
    eq ⟨true, true⟩ ⟨.ref, false, .prvalue⟩ ⟨.val, true, .lvalue⟩ = some (.refVal, false) ∧
    spaceship ⟨true, true⟩ ⟨.val, true, .lvalue⟩ ⟨.ref, false, .prvalue⟩ = some (.refVal, true) := by decide
/-- `auto r = v[0]; auto s = r;` -/
example : (init ⟨true, true⟩ .ref ⟨.ref, false, .prvalue⟩).isSome = true ∧ init ⟨true, true⟩ .ref ⟨.ref, false, .lvalue⟩ = none := by decide
example : (⟨.ref, false, .lvalue⟩ : Arg).IsRef ∧ Mixed ⟨.ref, false, .prvalue⟩ ⟨.cref, false, .prvalue⟩ := ⟨(by intro h; cases h), .inl ⟨rfl, rfl⟩⟩
/-- `swap(*i, *j)` -/
example : swap ⟨.ref, false, .prvalue⟩ ⟨.ref, true, .lvalue⟩ = some .friend := by decide

end AnyAny.ElemRef
