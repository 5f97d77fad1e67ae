import Verif.Props.AnyExact
import Verif.Props.DpvIter
import Verif.Props.Methods
import Verif.Props.Concepts
import Verif.Props.Elem
import Verif.Props.Swarm
/-
Exact conditions for properties the code does not have in full: C14, C19 (anys), C56 (iterators), C78, C79, C106 (methods and checks),
C86 (variant_swarm), C103 (elements of data_parallel_vector).
-/
namespace AnyAny.Mem

variable {cfg : Cfg}

/-- C14, exactly: a move assignment from an any with `is_stable_pointers()` and a value, that returns, leaves the object where it is if and only if
the allocators need not be told apart: equal, always equal, or propagated. -/
theorem C14_exact (C : CfgOk cfg) {w w' : World} (h : Reachable cfg w) {b a x y : Nat} (hne : b ≠ a)
    (L : Legal cfg w (.moveAssign b a)) (hx : allocOf w b = some x) (hy : allocOf w a = some y)
    (hst : isStablePointers a w = .ok true w) (hv : (content w a).isSome)
    (he : exec cfg (.moveAssign b a) w = .ok () w') :
    (content w' b = content w a ∧ addrOf w' b = addrOf w a) ↔ (cfg.alwaysEq = true ∨ cfg.pocma = true ∨ x = y) := by
  have key : ¬ AllocsDiffer cfg x y ↔ (cfg.alwaysEq = true ∨ cfg.pocma = true ∨ x = y) := by
    unfold AllocsDiffer
    by_cases h1 : x = y <;> cases cfg.alwaysEq <;> cases cfg.pocma <;> simp [h1]
  rw [← key]
  refine ⟨fun hc hd => ?_, (C14_stability_partial C h hne L hx hy hst hv he).2⟩
  have hmem : (memOf w a).isSome := by
    obtain ⟨s, hs, t, ht, _⟩ := L
    have := isStable_spec (h.rep C) ht
    rw [hst] at this
    obtain ⟨_, _, o3, _⟩ := of_snap ht
    rw [o3]
    injection this with this
    exact this.symm
  exact (C14_unequal_allocators_fail C h L ⟨x, y, hx, hy, hd, hv, hmem⟩ he).2.2.1 hc.2

/-- Both cases occur. -/
example :
    (∃ w, Reachable exCfg w ∧ (Legal exCfg w (.moveAssign 1 0) ∧ allocOf w 1 = some 2 ∧ allocOf w 0 = some 1 ∧
      (memOf w 0).isSome ∧ (content w 0).isSome ∧ (exec exCfg (.moveAssign 1 0) w).isOk = true)) ∧
    (∃ w, Reachable exCfg w ∧ (Legal exCfg w (.moveAssign 1 0) ∧ allocOf w 1 = some 1 ∧ allocOf w 0 = some 1 ∧
      (memOf w 0).isSome ∧ (content w 0).isSome ∧ (exec exCfg (.moveAssign 1 0) w).isOk = true)) :=
  ⟨run_witness (ops := [.valueCtor 0 exMs 1 2 (.lit 7) false, .allocCtor 1 exMs 2]) (by decide +kernel),
   run_witness (ops := [.valueCtor 0 exMs 1 2 (.lit 7) false, .allocCtor 1 exMs 1]) (by decide +kernel)⟩

/-- C19, exactly: copy assignment obeys `propagate_on_container_copy_assignment` if and only if the allocator is not propagated on move
assignment, or the allocator of the temporary copy happens to be the one the rule asks for. -/
theorem C19_copy_assignment_exact (C : CfgOk cfg) {w w' : World} (h : Reachable cfg w) {a b x y tmp : Nat}
    (L : Legal cfg w (.copyAssign b a tmp)) (he : exec cfg (.copyAssign b a tmp) w = .ok () w')
    (hx : allocOf w a = some x) (hy : allocOf w b = some y) (hae : cfg.alwaysEq = false) :
    allocOf w' b = some (if cfg.pocca then x else y) ↔ (cfg.pocma = false ∨ cfg.soccc x = if cfg.pocca then x else y) := by
  rw [C19_copy_assignment_partial C h L he hx hy hae]
  cases cfg.pocma <;> simp

/-- Such assignments exist, with and without propagation on move assignment. -/
example :
    (∃ w, Reachable exCfg w ∧ (Legal exCfg w (.copyAssign 1 0 9) ∧ allocOf w 0 = some 1 ∧ allocOf w 1 = some 2 ∧
      (exec exCfg (.copyAssign 1 0 9) w).isOk = true ∧ exCfg.alwaysEq = false)) ∧
    (∃ w, Reachable { exCfg with pocma := true } w ∧ (Legal { exCfg with pocma := true } w (.copyAssign 1 0 9) ∧ allocOf w 0 = some 1 ∧
      allocOf w 1 = some 2 ∧ (exec { exCfg with pocma := true } (.copyAssign 1 0 9) w).isOk = true)) :=
  ⟨run_witness (ops := [.valueCtor 0 exMs 1 2 (.lit 7) false, .allocCtor 1 exMs 2]) (by decide +kernel),
   run_witness (ops := [.valueCtor 0 exMs 1 2 (.lit 7) false, .allocCtor 1 exMs 2]) (by decide +kernel)⟩

end AnyAny.Mem

namespace AnyAny.DpvIter

variable {b : Nat} {sz : Nat → BitVec b} {it jt : It b} {d i : Nat} {n : BitVec b}

/-- C56, exactly: `it -= n` passes its assertion if and only if `n` is not negative and not beyond the position. -/
theorem C56_sub_exact (hs : Sized sz) (h : At sz it d i) :
    (∃ jt, sub it n = some jt) ↔ 0 ≤ n.toInt ∧ n.toInt ≤ i := by
  constructor
  · rintro ⟨jt, e⟩
    have h0 : 0 ≤ n.toInt := by
      rcases Int.lt_or_le n.toInt 0 with h1 | h1
      · rw [C56_fails hs h h1] at e; cases e
      · exact h1
    refine ⟨h0, ?_⟩
    obtain ⟨_, hi, _⟩ := h
    unfold sub at e
    split at e
    · rename_i hle
      rw [BitVec.le_def, hi] at hle
      have := n.isLt
      rw [BitVec.toInt_eq_toNat_cond] at h0 ⊢
      split at h0 <;> split <;> omega
    · cases e
  · rintro ⟨h1, h2⟩
    obtain ⟨_, hi, _⟩ := h
    have hle : n ≤ it.index := by
      rw [BitVec.le_def, hi]
      have := n.isLt
      rw [BitVec.toInt_eq_toNat_cond] at h1 h2
      split at h1 <;> split at h2 <;> omega
    exact ⟨{ it with index := it.index - n }, by simp only [sub, if_pos hle]⟩

/-- An iterator at position 2 of 3: 1 and 2 can be subtracted, -1 and 3 cannot. -/
example : At (b := 8) (fun _ => 3) ⟨some 0, 2⟩ 0 2 ∧ Sized (b := 8) (fun _ => 3) ∧ (1 : BitVec 8).toInt = 1 ∧ (-1 : BitVec 8).toInt = -1 := by
  refine ⟨⟨rfl, rfl, by decide⟩, fun _ => show 2 * (3 : BitVec 8).toNat < 2 ^ 8 by decide, by decide, by decide⟩

end AnyAny.DpvIter

namespace AnyAny.Methods

variable {copyable : Ty → Bool} {ms : List Method}

/-- C78, exactly: where the check says yes, everything it guards compiles if and only if no method takes the object by rvalue reference, and the
type is copyable if one takes it by value. -/
theorem C78_exact (x : Ty) (h : ∀ m ∈ ms, Pseudo m ∨ ∃ s, Regular m s) (hc : existFor ms x = true) :
    vtableCompiles copyable ms x.decay = true ↔
      ∀ m ∈ ms, ∀ s, Regular m s → s.self ≠ .rref ∧ s.self ≠ .crref ∧ (s.self = .val → copyable x.decay = true) := by
  have hall : ∀ m ∈ ms, existFor [m] x = true := by
    intro m hm
    simp only [existFor, List.all_eq_true] at hc
    simp only [existFor, List.all_cons, List.all_nil, Bool.and_true]
    exact hc m hm
  have hhas : ∀ m ∈ ms, Has m x.decay := by
    intro m hm
    have := hall m hm
    simpa only [Has, existFor, existFor1, List.all_cons, List.all_nil, Bool.and_true, Bool.or_eq_true, Option.isSome_iff_exists] using this
  constructor
  · intro hv m hm s R
    refine ⟨fun hf => ?_, fun hf => ?_, fun hf => ?_⟩
    · rw [(C78_exist_for_fails (copyable := copyable) R x (hhas m hm) (.inr (.inl hf))).2 ms hm] at hv; cases hv
    · rw [(C78_exist_for_fails (copyable := copyable) R x (hhas m hm) (.inr (.inr hf))).2 ms hm] at hv; cases hv
    · cases hcp : copyable x.decay with
      | true => rfl
      | false => rw [(C78_exist_for_fails (copyable := copyable) R x (hhas m hm) (.inl ⟨hf, hcp⟩)).2 ms hm] at hv; cases hv
  · intro H
    refine (C78_exist_for_partial (copyable := copyable) x fun m hm => ?_).2.1 hc
    rcases h m hm with P | ⟨s, R⟩
    · exact .inl P
    · obtain ⟨h1, h2, h3⟩ := H m hm s R
      refine .inr ⟨s, R, ?_⟩
      cases hs : s.self <;> simp_all

/-- Both cases occur: a method by value passes the check for all types that have it, and compiles for the copyable ones. -/
example : (∀ m ∈ [exMethod .lref, exMethod .val], Pseudo m ∨ ∃ s, Regular m s) ∧ existFor [exMethod .lref, exMethod .val] (.obj 1) = true ∧
    vtableCompiles (fun _ => true) [exMethod .lref, exMethod .val] (.obj 1) = true ∧
    vtableCompiles (fun _ => false) [exMethod .lref, exMethod .val] (.obj 1) = false := by
  refine ⟨fun m hm => ?_, by decide, by decide, by decide⟩
  simp only [List.mem_cons, List.not_mem_nil, or_false] at hm
  rcases hm with rfl | rfl <;> exact .inr ⟨_, exMethod_regular _⟩

/-- C79, exactly: a call of a regular method through a reference or pointer made from an lvalue accesses the object as what it is if and only if the
type of the lvalue is not an array. -/
theorem C79_exact {t : Ty} {m : Method} {s : Sig} {src : Source} {o : Made} (hs : src ≠ .any) (h : make copyable ms src t = some o) (hm : m ∈ ms)
    (R : Regular m s) : (call copyable m o).isSome = true ↔ t.isArray = false := by
  cases ha : t.isArray with
  | true => simp [(C79_arrays_fail hs ha h R).2.2]
  | false => simp [(C79_objects_partial h ha ((make_some h).2.2.2.2 hs).2 hm).2.2]

/-- Both cases occur. -/
example : (∃ o, make (fun _ => true) [exMethod .clref] .polyRef (.arr (.obj 1) 3) = some o) ∧
    ∃ o, make (fun _ => true) [exMethod .clref] .polyRef (.obj 1) = some o :=
  ⟨⟨_, rfl⟩, ⟨_, rfl⟩⟩

/-- C106, exactly: the concepts tell how the library uses a stateless class if and only if a class with a function has no `value_type`, and one
with a `signature_type` that is not a function type has a `value_type` and no function. -/
theorem C106_kind_exact (c : Class) (he : c.empty = true) (hd : c.defaultInit = true) (hv : c.valueRefOrFn = false) :
    ((regularMethod c = true ↔ ∃ s, c.decl.signature = some (.func s)) ∧ (pseudomethod c = true ↔ ∃ t, c.decl.signature = some (.value t))) ↔
    ((∀ s, c.decl.signature = some (.func s) → c.decl.valueType = none) ∧
     ∀ t, c.decl.signatureType = some (.value t) → c.decl.doInvoke erasedSelf = none ∧ c.decl.valueType.isSome = true) := by
  unfold regularMethod pseudomethod hasFunctionSignature Method.signature
  rw [he, hd, hv]
  cases hs : c.decl.signatureType with
  | some s =>
    cases s with
    | func s => cases c.decl.valueType <;> simp
    | value t => cases c.decl.doInvoke erasedSelf <;> cases c.decl.valueType <;> simp
  | none => cases c.decl.doInvoke erasedSelf <;> cases c.decl.valueType <;> simp

/-- A class of each kind, and one with a function and a `value_type`. -/
example : regularMethod exDraw = true ∧ pseudomethod exSize = true ∧ exDraw.empty = true ∧ exDraw.valueRefOrFn = false ∧
    pseudomethod { exDraw with decl := { exDraw.decl with valueType := some 3 } } = true ∧
    regularMethod { exDraw with decl := { exDraw.decl with valueType := some 3 } } = true := ⟨rfl, rfl, rfl, rfl, rfl, rfl⟩

end AnyAny.Methods

namespace AnyAny.Elem

/-- C103, exactly: an element of a documented type can be read as a whole if and only if it is not an array where aggregates can be made with
parentheses, and not a tuple-like type that cannot be made from its parts. -/
theorem C103_value_exact {e : ElemTy} {ts : List FTy} (h : Documented e ts) (paren : Bool) :
    toValue paren e = true ↔ (∀ ts c, e = .userTuple ts c → c = true) ∧ ∀ t n, e = .array t n → paren = false := by
  refine ⟨fun hv => ⟨?_, ?_⟩, fun ⟨h1, h2⟩ => C103_value_partial h paren h1 h2⟩
  · rintro ts c rfl
    cases c with
    | true => rfl
    | false => cases paren <;> cases hv
  · rintro t n rfl
    cases paren with
    | false => rfl
    | true => cases hv

/-- Arrays of two parts: with parentheses and with braces. -/
example : Documented (.array ⟨3, false, false⟩ 2) [⟨3, false, false⟩, ⟨3, false, false⟩] ∧ toValue true (.array ⟨3, false, false⟩ 2) = false ∧
    toValue false (.array ⟨3, false, false⟩ 2) = true := ⟨.array _ 2, rfl, rfl⟩

end AnyAny.Elem

namespace AnyAny.Swarm

variable {n : Nat} {V : Fin n → Type} {c : (i : Fin n) → Cont (V i)}

/-- C86, copy assignment, exactly: after an exception from the container of type `i` the swarm has its old values if and only if the containers before
`i` had the values of the source already and the container `i` kept its own; it has the values of the source if and only if the containers behind `i`
had them already and the container `i` got them. -/
theorem C86_copyAssign_exact {w w' : World V} {d s : Nat} {t i} (he : exec c t w (.copyAssign d s) = some (w', some i)) :
    ∃ x y x', w d = some x ∧ w s = some y ∧ w' d = some x' ∧
      ((∀ j, view x' j = view x j) ↔ (∀ j, j < i → view y j = view x j) ∧ view x' i = view x i) ∧
      ((∀ j, view x' j = view y j) ↔ (∀ j, i < j → view x j = view y j) ∧ view x' i = view y i) := by
  obtain ⟨x, y, x', hx, hy, hx', _, h1, h2⟩ := C86_copyAssign_partial he
  refine ⟨x, y, x', hx, hy, hx', ⟨fun H => ⟨fun j hj => ?_, H i⟩, fun ⟨H, Hi⟩ j => ?_⟩, ⟨fun H => ⟨fun j hj => ?_, H i⟩, fun ⟨H, Hi⟩ j => ?_⟩⟩
  · rw [← h1 j hj, H]
  · rcases Nat.lt_trichotomy j.val i.val with hlt | heq | hgt
    · rw [h1 j hlt, H j hlt]
    · have : j = i := Fin.ext heq
      subst this; exact Hi
    · exact h2 j hgt
  · rw [← h2 j hj, H]
  · rcases Nat.lt_trichotomy j.val i.val with hlt | heq | hgt
    · exact h1 j hlt
    · have : j = i := Fin.ext heq
      subst this; exact Hi
    · rw [h2 j hgt, H j hgt]

/-- Such an assignment: see `C86_copyAssign_fails`. -/
example : ∃ (w w' : World fun _ : Fin 2 => Nat) (t : Nat) (i : Fin 2), exec exD t w (.copyAssign 0 1) = some (w', some i) := by
  obtain ⟨w, w', _, _, _, _, t, i, _, he, _⟩ := C86_copyAssign_fails
  exact ⟨w, w', t, i, he⟩

end AnyAny.Swarm
