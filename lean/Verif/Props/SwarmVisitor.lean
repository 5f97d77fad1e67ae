import Verif.Model.SwarmVisitor
/-
C108: `visit` accepts the visitors that can be called with the values of the swarm.
-/
namespace AnyAny.SwarmVisitor

variable {n : Nat} {fixed : Fin n → Bool} {v : Visitor n} {types : List (Fin n)}

/-- The visitor can be called with all values of these types in the swarm: lvalues, const if the swarm or its containers make them so. -/
def Callable (fixed : Fin n → Bool) (v : Visitor n) (const : Bool) (types : List (Fin n)) : Prop :=
  ∀ i ∈ types, v i ⟨const || fixed i, true⟩ = true

/-- The visitor does not care whether its argument is an lvalue or an rvalue, as functions with parameters `const T&`, `auto&&` and `T` (if
`T` can be copied). -/
def IgnoresCategory (v : Visitor n) : Prop := ∀ i c, v i ⟨c, true⟩ = v i ⟨c, false⟩

/-- What can be called with a const argument can be called with one that is not const, as all functions with one parameter can. -/
def Monotone (v : Visitor n) : Prop := ∀ i l, v i ⟨true, l⟩ = true → v i ⟨false, l⟩ = true

/-- C108: exactly when a visit compiles: the visitor must be callable with rvalues, which are not what it is called with, and with the values. -/
theorem C108_exact (const : Bool) :
    compiles fixed v const types = true ↔
      (const = false ∧ (∀ i ∈ types, v i ⟨false, false⟩ = true) ∧ Callable fixed v false types) ∨
      ((const = true ∨ ¬∀ i ∈ types, v i ⟨false, false⟩ = true) ∧ (∀ i ∈ types, v i ⟨true, false⟩ = true) ∧ Callable fixed v true types) := by
  have e : ∀ c, (∀ i ∈ types, v i ⟨c, false⟩ = true) ↔ visitorFor v c types = true := fun c => by simp [visitorFor]
  have b : ∀ c, Callable fixed v c types ↔ bodyCompiles fixed v c types = true := fun c => by simp [bodyCompiles, Callable, elemOf]
  rw [e, e, b, b]
  unfold compiles overload
  cases const <;> cases visitorFor v false types <;> cases visitorFor v true types <;> simp

/-- C108: exactly which visitors overload resolution accepts: those callable with rvalues. -/
theorem C108_accepted_exact (const : Bool) :
    accepted v const types = true ↔ (const = false ∧ ∀ i ∈ types, v i ⟨false, false⟩ = true) ∨ ∀ i ∈ types, v i ⟨true, false⟩ = true := by
  unfold accepted overload
  cases const
  · cases h : visitorFor v false types <;> cases h' : visitorFor v true types <;>
      simp_all [visitorFor]
  · cases h' : visitorFor v true types <;> simp_all [visitorFor]

/-- C108: a visitor that does not care about the value category of its argument is accepted by a swarm of `std::vector`s, and compiles, just if it can be called with the
values. -/
theorem C108_accepts_partial (hc : IgnoresCategory v) (hm : Monotone v) (const : Bool) (hf : ∀ i, fixed i = false) :
    (compiles fixed v const types = true ↔ Callable fixed v const types) ∧ (accepted v const types = true ↔ Callable fixed v const types) := by
  have fx : ∀ c : Bool, Callable fixed v c types ↔ ∀ i ∈ types, v i ⟨c, false⟩ = true := by
    intro c
    simp only [Callable, hf, Bool.or_false]
    exact forall_congr' fun i => forall_congr' fun _ => by rw [hc]
  have mono : (∀ i ∈ types, v i ⟨true, false⟩ = true) → ∀ i ∈ types, v i ⟨false, false⟩ = true := fun h i hi => hm i false (h i hi)
  rw [C108_exact, C108_accepted_exact, fx, fx, fx]
  cases const
  · constructor
    · constructor
      · rintro (h | h)
        · exact h.2.1
        · exact mono h.2.1
      · intro h; exact .inl ⟨rfl, h, h⟩
    · constructor
      · rintro (h | h)
        · exact h.2
        · exact mono h
      · intro h; exact .inl ⟨rfl, h⟩
  · constructor
    · constructor
      · rintro (h | h)
        · cases h.1
        · exact h.2.1
      · intro h; exact .inr ⟨.inl rfl, h, h⟩
    · constructor
      · rintro (h | h)
        · cases h.1
        · exact h
      · intro h; exact .inr h

/-- C108: for visitors made of functions with one parameter per type, exactly: a visit of a swarm of `std::vector`s that is not const compiles just
if no parameter is a `T&`, a `T&&` or a `T` that cannot be copied. -/
theorem C108_parameters_exact (p : Fin n → Param) (hf : ∀ i, fixed i = false) (const : Bool) :
    compiles fixed (fun i => (p i).accepts) const types = true ↔ ∀ i ∈ types, p i ≠ .lref ∧ p i ≠ .rref ∧ p i ≠ .value false := by
  rw [C108_exact]
  have ok : (∀ i ∈ types, p i ≠ .lref ∧ p i ≠ .rref ∧ p i ≠ .value false) → ∀ c l, ∀ i ∈ types, (p i).accepts ⟨c, l⟩ = true := by
    intro h c l i hi
    obtain ⟨h1, h2, h3⟩ := h i hi
    cases hp : p i with
    | value k => cases k with
      | true => simp [Param.accepts]
      | false => exact absurd hp h3
    | lref => exact absurd hp h1
    | clref => rfl
    | rref => exact absurd hp h2
    | any => rfl
  have bad : ∀ c, (∀ i ∈ types, (p i).accepts ⟨c, false⟩ = true) → (∀ i ∈ types, (p i).accepts ⟨c, true⟩ = true) →
      ∀ i ∈ types, p i ≠ .lref ∧ p i ≠ .rref ∧ p i ≠ .value false := by
    intro c h1 h2 i hi
    have a := h1 i hi
    have b := h2 i hi
    refine ⟨fun h => ?_, fun h => ?_, fun h => ?_⟩ <;> rw [h] at a b <;> simp [Param.accepts] at a b
  simp only [Callable, hf, Bool.or_false]
  constructor
  · rintro (h | h)
    · exact bad _ h.2.1 h.2.2
    · exact bad _ h.2.1 h.2.2
  · intro h
    cases const
    · exact .inl ⟨rfl, ok h _ _, ok h _ _⟩
    · exact .inr ⟨.inl rfl, ok h _ _, ok h _ _⟩

/-- C108 fails: a visitor with a parameter `T&` for a visited type is never accepted, though the values can be passed to it. -/
theorem C108_lvalue_fails (p : Fin n → Param) {i : Fin n} (hi : i ∈ types) (hp : p i = .lref) (const : Bool) :
    accepted (fun i => (p i).accepts) const types = false ∧
    ((∀ j, p j = .lref) → (∀ j, fixed j = false) → Callable fixed (fun i => (p i).accepts) false types) := by
  refine ⟨?_, fun h hf j _ => by simp [h j, hf j, Param.accepts]⟩
  cases ha : accepted (fun i => (p i).accepts) const types with
  | false => rfl
  | true =>
    rcases (C108_accepted_exact const).1 ha with h | h
    · have := h.2 i hi; rw [hp] at this; cases this
    · have := h i hi; rw [hp] at this; cases this

/-- C108 fails: a visitor with parameters `T&&` (or `T` for types that can only be moved) is accepted, but the call does not compile. -/
theorem C108_rvalue_fails (p : Fin n → Param) (hp : ∀ i, p i = .rref ∨ p i = .value false) {i : Fin n} (hi : i ∈ types) :
    accepted (fun i => (p i).accepts) false types = true ∧ compiles fixed (fun i => (p i).accepts) false types = false := by
  have h1 : ∀ i ∈ types, (p i).accepts ⟨false, false⟩ = true := fun j _ => by
    rcases hp j with h | h <;> rw [h] <;> rfl
  have h2 : ∀ c, ¬Callable fixed (fun i => (p i).accepts) c types := fun c h => by
    have := h i hi
    rcases hp i with e | e <;> simp [e, Param.accepts] at this
  refine ⟨(C108_accepted_exact false).2 (.inl ⟨rfl, h1⟩), ?_⟩
  cases hc : compiles fixed (fun i => (p i).accepts) false types with
  | false => rfl
  | true =>
    rcases (C108_exact false).1 hc with h | h
    · exact absurd h.2.2 (h2 _)
    · exact absurd h.2.2 (h2 _)

/-- C108: what is called is the visitor with the values as lvalues of the constness of the swarm: a visit of a const swarm never gives a visitor
access to values that are not const. -/
theorem C108_const (h : overload v true types = some c) : c = true := by
  unfold overload at h
  simp only [Bool.not_true, Bool.false_and, Bool.false_eq_true, if_false] at h
  split at h
  · simpa using h.symm
  · cases h

/-- Generic visitors are accepted; `[](int&)` is not, although the values are `int` lvalues; `[](int&&)` is, but does not compile. -/
example : compiles (n := 2) (fun _ => false) (fun _ => Param.any.accepts) false [0, 1] = true ∧
    accepted (n := 2) (fun _ => Param.lref.accepts) false [0, 1] = false ∧
    accepted (n := 2) (fun _ => Param.rref.accepts) false [0, 1] = true ∧
    compiles (n := 2) (fun _ => false) (fun _ => Param.rref.accepts) false [0, 1] = false := by decide
example : IgnoresCategory (n := 2) (fun _ => Param.clref.accepts) ∧ Monotone (n := 2) (fun _ => Param.clref.accepts) :=
  ⟨fun _ _ => rfl, fun _ _ _ => rfl⟩
example : overload (n := 2) (fun _ => Param.any.accepts) true [0] = some true := by decide

end AnyAny.SwarmVisitor
