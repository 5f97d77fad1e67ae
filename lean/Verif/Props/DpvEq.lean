import Verif.Props.Dpv
/-
C80: `==` of elements and containers, compared with `operator== = default` of `T`.

The comment on the operators (data_parallel_vector.hpp:148-149) says that they behave as the defaulted `operator==` and `operator<=>`
of `T`. A defaulted `operator==` compares fields by their `==`; the library compares them by their `<=>` (150-158). A field type can have
a weak ordering (`std::weak_ordering`), with values that are equivalent and not `==`.
-/
namespace AnyAny.Dpv

variable {n : Nat} {V : Fin n → Type} {env : Env V} {w : World V} {S : SVecs V}

/-- `bool operator==(const T&, const T&) = default`: all fields are `==`. -/
def DefaultedEq (eq : (j : Fin n) → V j → V j → Bool) (a b : Rec V) : Prop := ∀ j, eq j (a j) (b j) = true

/-- `std::vector<T>::operator==` with that. -/
def VectorEq (eq : (j : Fin n) → V j → V j → Bool) (xs ys : List (Rec V)) : Prop :=
  xs.length = ys.length ∧ ∀ i (hx : i < xs.length) (hy : i < ys.length), DefaultedEq eq xs[i] ys[i]

/-- For this field type `x <=> y` is equal exactly if `x == y`. -/
def Coherent (eq : (j : Fin n) → V j → V j → Bool) (cmp : (j : Fin n) → V j → V j → Cmp) (j : Fin n) : Prop :=
  ∀ x y, cmp j x y = .equal ↔ eq j x y = true

/-- If `<=>` and `==` of every field agree, references are `==` exactly if the values are, and containers are `==` exactly if the
vectors are. -/
theorem C80_partial (hn : 0 < n) {eq : (j : Fin n) → V j → V j → Bool} {cmp : (j : Fin n) → V j → V j → Cmp} (hc : ∀ j, Coherent eq cmp j) :
    (∀ a b : Rec V, eqByFields cmp a b = true ↔ DefaultedEq eq a b) ∧
    ∀ {w S}, Reach env w S → ∀ {d e xs ys}, S d = some xs → S e = some ys →
      ∃ r, equal cmp d e w = .ok r w ∧ (r = true ↔ VectorEq eq xs ys) := by
  refine ⟨fun a b => (C54_eq cmp a b).trans ⟨fun h j => (hc j _ _).mp (h j), fun h j => (hc j _ _).mpr (h j)⟩, ?_⟩
  intro w S h d e xs ys hd he
  obtain ⟨r, h1, h2⟩ := C54_container hn h hd he cmp
  exact ⟨r, h1, h2.trans ⟨fun hh => ⟨hh.1, fun i hx hy j => (hc j _ _).mp (hh.2 i hx hy j)⟩,
    fun hh => ⟨hh.1, fun i hx hy j => (hc j _ _).mpr (hh.2 i hx hy j)⟩⟩⟩

theorem setRec_same (r : Rec V) (j : Fin n) (x : V j) : setRec r j x j = x := by simp [setRec]
theorem setRec_other (r : Rec V) {j k : Fin n} (x : V j) (h : k ≠ j) : setRec r j x k = r k := by simp [setRec, h]

/-- Only if they agree: if references are `==` exactly if the values are, `<=>` and `==` agree for every field. `r` is a record that is equal
to itself, field by field. -/
theorem C80_exact {eq : (j : Fin n) → V j → V j → Bool} {cmp : (j : Fin n) → V j → V j → Cmp} (r : Rec V)
    (hr : ∀ j, eq j (r j) (r j) = true ∧ cmp j (r j) (r j) = .equal) :
    (∀ a b : Rec V, eqByFields cmp a b = true ↔ DefaultedEq eq a b) ↔ ∀ j, Coherent eq cmp j := by
  constructor
  · intro h j x y
    have key := h (setRec r j x) (setRec r j y)
    rw [C54_eq] at key
    constructor
    · intro hxy
      have := key.mp (fun k => by
        by_cases hk : k = j
        · subst hk; rw [setRec_same, setRec_same]; exact hxy
        · rw [setRec_other _ _ hk, setRec_other _ _ hk]; exact (hr k).2) j
      rwa [setRec_same, setRec_same] at this
    · intro hxy
      have := key.mpr (fun k => by
        by_cases hk : k = j
        · subst hk; rw [setRec_same, setRec_same]; exact hxy
        · rw [setRec_other _ _ hk, setRec_other _ _ hk]; exact (hr k).1) j
      rwa [setRec_same, setRec_same] at this
  · intro hc a b
    exact (C54_eq cmp a b).trans ⟨fun h j => (hc j _ _).mp (h j), fun h j => (hc j _ _).mpr (h j)⟩

/-- Whatever the field types: if one of them has equivalent values `x` and `y` that are not `==`, a history without exceptions leads to two
containers that are `==` though the vectors are not. -/
theorem C80_fails (hn : 0 < n) (hnt : ∀ t, env.throws t = none) {eq : (j : Fin n) → V j → V j → Bool} {cmp : (j : Fin n) → V j → V j → Cmp}
    {r : Rec V} (hr : ∀ j, cmp j (r j) (r j) = .equal) {j : Fin n} {x y : V j} (hxy : cmp j x y = .equal) (hne : eq j x y = false) :
    ∃ w S xs ys, Reach env w S ∧ S 0 = some xs ∧ S 1 = some ys ∧ ¬VectorEq eq xs ys ∧ equal cmp 0 1 w = .ok true w := by
  obtain ⟨w1, _, h1⟩ := (C51_step (env := env) hn .init (op := .rangeCtor 0 [setRec r j x] true) rfl (fun h => nomatch h)).2.2 hnt
  obtain ⟨w2, _, h2⟩ := (C51_step hn h1 (op := .rangeCtor 1 [setRec r j y] true) (by simp [Legal, specStep, upd]) (fun h => nomatch h)).2.2 hnt
  have e0 : specStep env (specStep env (fun _ => none) (.rangeCtor 0 [setRec r j x] true)) (.rangeCtor 1 [setRec r j y] true) 0 = some [setRec r j x] := by
    simp [specStep, upd]
  have e1 : specStep env (specStep env (fun _ => none) (.rangeCtor 0 [setRec r j x] true)) (.rangeCtor 1 [setRec r j y] true) 1 = some [setRec r j y] := by
    simp [specStep, upd]
  refine ⟨w2, _, _, _, h2, e0, e1, ?_, ?_⟩
  · intro hv
    have := hv.2 0 (by simp) (by simp) j
    simp only [List.getElem_cons_zero, setRec_same] at this
    rw [hne] at this; cases this
  · obtain ⟨b, hb1, hb2⟩ := C54_container hn h2 e0 e1 cmp
    have : b = true := hb2.mpr ⟨rfl, fun i hx hy k => by
      have hi : i = 0 := by simpa using hx
      subst hi
      simp only [List.getElem_cons_zero]
      by_cases hk : k = j
      · subst hk; rw [setRec_same, setRec_same]; exact hxy
      · rw [setRec_other _ _ hk, setRec_other _ _ hk]; exact hr k⟩
    rw [hb1, this]

/-- An `int` and a string whose `<=>` compares lengths only (a weak ordering) and whose `==` compares the text. -/
def exWeakCmp : (j : Fin 2) → ExV j → ExV j → Cmp
  | 0 => fun (a b : Int) => if a < b then .less else if a = b then .equal else .greater
  | 1 => fun (a b : String) => if a.length < b.length then .less else if a.length = b.length then .equal else .greater

def exTextEq : (j : Fin 2) → ExV j → ExV j → Bool
  | 0 => fun (a b : Int) => a == b
  | 1 => fun (a b : String) => a == b

/-- The hypotheses of `C80_partial` hold for an `int` and a string compared by text. -/
example : ∀ j, Coherent exTextEq exCmp j := by
  intro j
  match j with
  | 0 =>
    intro (x : Int) (y : Int)
    simp only [exTextEq, exCmp, beq_iff_eq]
    split
    · simp; omega
    · split <;> simp_all
  | 1 =>
    intro (x : String) (y : String)
    simp only [exTextEq, exCmp, beq_iff_eq]
    split
    · rename_i h; simp; intro e; subst e; exact absurd h (String.lt_irrefl _)
    · split <;> simp_all

/-- The hypotheses of `C80_fails` hold for the weak ordering. -/
example : (∀ j, exWeakCmp j (exRec 1 "a" j) (exRec 1 "a" j) = .equal) ∧ exWeakCmp 1 "a" "b" = .equal ∧ exTextEq 1 "a" "b" = false := by
  refine ⟨fun j => ?_, by decide, by decide⟩
  match j with
  | 0 => decide
  | 1 => decide

end AnyAny.Dpv
