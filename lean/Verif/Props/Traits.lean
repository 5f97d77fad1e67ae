import Verif.Spec.Traits
import Verif.Props.AllocReq
/-
C127: `std::is_constructible` and other checks tell which operations of anys compile.
-/
namespace AnyAny.AllocReq
open Spec

theorem moves_iff (a : An) : a.hasMoveMethod = true ↔ MovesValues a := by
  simp [An.hasMoveMethod, MovesValues, or_assoc]

/-- C127: checks never say no to an operation that compiles. -/
theorem C127_never_rejects (cpp20 : Bool) (al : Al) (a : An) (o : Op) (h : compiles al a o = true) : declared cpp20 al a o = true := by
  have hb : ∀ x ∈ body al a o, Act.ok al x = true := by
    intro x hx
    rw [compiles, List.all_eq_true] at h
    exact h x (by simp [hx])
  cases o with
  | defaultCtor => exact hb .default (by simp [body])
  | valueCtor v | stableCtor v | allocValueCtor v | emplace v => exact hb (.require v.exist) (by simp [body])
  | copyCtor => simpa [declared, Act.ok] using .inr (hb (.require a.copy) (by simp [body, copyCtorBody]))
  | copyAssign => simpa [declared, Act.ok] using .inr (hb (.require a.copy) (by simp [body, copyAssignBody]))
  | moveCtor => simpa [declared, Act.ok] using .inr (hb (.require a.hasMove) (by simp [body, moveCtorBody]))
  | moveAssign => simpa [declared, Act.ok] using .inr (hb (.require a.hasMove) (by simp [body, moveAssignBody]))
  | fromMoreCopy b => exact hb (.require b.copy) (by simp [body])
  | fromMoreMove b => exact hb (.require b.hasMoveMethod) (by simp [body])
  | materializeAlloc | materialize => exact hb (.require a.copy) (by simp [body])
  | allocCtor | reset | replaceWithBytes | getAllocator => rfl

/-- C127, exactly: with allocators that anys work with at all (C126), the operations to which checks say yes although they do not compile. -/
theorem C127_exact (cpp20 : Bool) (al : Al) (a : An) (o : Op) (hc : Conforming al) (hf : al.fancy = false) (hn : al.noexceptCopy = true) :
    (declared cpp20 al a o = true ∧ compiles al a o = false) ↔ Lies cpp20 al a o := by
  rw [← Bool.not_eq_true, C126_exact al a o hc]
  constructor
  · rintro ⟨hd, hs⟩
    apply Classical.byContradiction
    intro hl
    apply hs
    have val : ∀ v, Constructs v o → v.exist = true → v.makes = true := by
      intro v hv he
      cases hm : v.makes with
      | true => rfl
      | false => exact absurd (.arguments v o hv he hm) hl
    have hdf : (al.dflt = false → Lies cpp20 al a o) → al.dflt = true := by
      intro h
      cases hx : al.dflt with
      | true => rfl
      | false => exact absurd (h hx) hl
    refine ⟨⟨?_, ?_⟩, ?_⟩
    · cases o with
      | valueCtor v => exact ⟨hd, val v (.inl rfl) hd⟩
      | stableCtor v => exact ⟨hd, val v (.inr (.inl rfl)) hd⟩
      | allocValueCtor v => exact ⟨hd, val v (.inr (.inr (.inl rfl))) hd⟩
      | emplace v => exact ⟨hd, val v (.inr (.inr (.inr rfl))) hd⟩
      | copyCtor =>
        cases hx : a.copy with
        | true => exact hx
        | false =>
          cases cpp20 with
          | true => simp [declared, hx] at hd
          | false => exact absurd (.copies _ (.inl rfl) rfl hx) hl
      | copyAssign =>
        cases hx : a.copy with
        | true => exact hx
        | false =>
          cases cpp20 with
          | true => simp [declared, hx] at hd
          | false => exact absurd (.copies _ (.inr rfl) rfl hx) hl
      | moveCtor =>
        by_cases hm : MovesValues a
        · rcases hm with h | h | h
          · exact .inl h
          · exact .inr (.inl h)
          · exact .inr (.inr (.inl h))
        · cases hx : a.soo0 with
          | true => exact .inr (.inr (.inr hx))
          | false =>
            cases cpp20 with
            | true =>
              rw [← moves_iff] at hm
              simp [declared, An.hasMove, hx, hm] at hd
            | false => exact absurd (.moves _ (.inl rfl) rfl hm hx) hl
      | moveAssign =>
        by_cases hm : MovesValues a
        · rcases hm with h | h | h
          · exact .inl h
          · exact .inr (.inl h)
          · exact .inr (.inr (.inl h))
        · cases hx : a.soo0 with
          | true => exact .inr (.inr (.inr hx))
          | false =>
            cases cpp20 with
            | true =>
              rw [← moves_iff] at hm
              simp [declared, An.hasMove, hx, hm] at hd
            | false => exact absurd (.moves _ (.inr rfl) rfl hm hx) hl
      | fromMoreMove b => exact (moves_iff b).1 hd
      | fromMoreCopy b => exact hd
      | materializeAlloc | materialize => exact hd
      | defaultCtor | allocCtor | reset | replaceWithBytes | getAllocator => trivial
    · intro hm
      cases o with
      | defaultCtor => exact hd
      | valueCtor v => exact hdf fun h => .value v hd h
      | stableCtor v => exact hdf fun h => .stable v hd h
      | materialize => exact hdf fun h => .materialize hd h
      | _ => cases hm
    · intro he
      cases he with
      | fancy _ h => rw [hf] at h; cases h
      | unmarked _ h => rw [hn] at h; cases h
      | fromMore b h => exact hl (.fromMore b ((moves_iff b).1 hd) h)
      | stays h1 h2 h3 h4 h5 h6 => exact hl (.stays h1 (by simp [MovesValues, h2, h3, h4]) h5 h6)
  · intro hl
    cases hl with
    | arguments v _ hv he hm =>
      rcases hv with rfl | rfl | rfl | rfl <;>
        exact ⟨he, fun h => by simp [Should, Enabled, hm] at h⟩
    | value v he hd => exact ⟨he, fun h => by simp [Should, MakesAllocator, hd] at h⟩
    | stable v he hd => exact ⟨he, fun h => by simp [Should, MakesAllocator, hd] at h⟩
    | materialize hx hd => exact ⟨hx, fun h => by simp [Should, MakesAllocator, hd] at h⟩
    | fromMore b hm hd => exact ⟨(moves_iff b).2 hm, fun h => h.2 (.fromMore b hd)⟩
    | stays h1 hm h5 h6 =>
      have h2 := hm
      simp only [MovesValues, not_or, Bool.not_eq_true] at h2
      exact ⟨by simp [declared, An.hasMove, h1], fun h => h.2 (.stays h1 h2.1 h2.2.1 h2.2.2 h5 h6)⟩
    | copies _ ho h0 hx =>
      rcases ho with rfl | rfl <;> exact ⟨by simp [declared, h0], fun h => by simp [Should, Enabled, hx] at h⟩
    | moves _ ho h0 hm hx =>
      simp only [MovesValues, not_or, Bool.not_eq_true] at hm
      rcases ho with rfl | rfl <;> exact ⟨by simp [declared, h0], fun h => by simp [Should, Enabled, hx, hm] at h⟩

/-- C127, what holds: in C++20, with allocators that can be default-constructed and are always equal or propagated, as `std::allocator`, checks
say exactly which operations compile, if the values can be constructed from the arguments. -/
theorem C127_partial (al : Al) (a : An) (o : Op) (hc : Conforming al) (hf : al.fancy = false) (hn : al.noexceptCopy = true)
    (hd : al.dflt = true) (hm : al.alwaysEqual = true ∨ al.pocma = true) (hv : ∀ v, Constructs v o → v.makes = true) :
    declared true al a o = compiles al a o := by
  cases h : compiles al a o with
  | true => exact C127_never_rejects true al a o h
  | false =>
    rw [← Bool.not_eq_true]
    intro hdec
    have hl := (C127_exact true al a o hc hf hn).1 ⟨hdec, h⟩
    cases hl with
    | arguments v _ h1 _ h2 => rw [hv v h1] at h2; cases h2
    | value v _ h0 => rw [hd] at h0; cases h0
    | stable v _ h0 => rw [hd] at h0; cases h0
    | materialize _ h0 => rw [hd] at h0; cases h0
    | fromMore b _ h0 => rw [hd] at h0; cases h0
    | stays _ _ h5 h6 => simp [h5, h6] at hm
    | copies _ _ h0 => cases h0
    | moves _ _ h0 => cases h0

/-- `std::allocator`, an any that can only be moved: `std::is_copy_constructible` is false, `std::is_move_constructible` true, and so it is. -/
example : declared true ⟨false, true, true, true, true, false, true, true, true⟩ ⟨false, false, true, false⟩ .copyCtor = false ∧
    declared true ⟨false, true, true, true, true, false, true, true, true⟩ ⟨false, false, true, false⟩ .moveCtor = true ∧
    (∀ o, (∀ v, Constructs v o → v.makes = true) →
      declared true ⟨false, true, true, true, true, false, true, true, true⟩ ⟨false, false, true, false⟩ o =
        compiles ⟨false, true, true, true, true, false, true, true, true⟩ ⟨false, false, true, false⟩ o) :=
  ⟨rfl, rfl, fun o h => C127_partial _ _ o ⟨nofun, fun _ => rfl⟩ rfl rfl rfl (.inl rfl) h⟩

/-- C127 fails for arguments from which the value cannot be constructed: with every any and every type that has its methods, checks say that
the any can be constructed and assigned from them. For example `std::is_constructible_v<any_with<move>, std::unique_ptr<int>&>`. -/
theorem C127_arguments_fails (cpp20 : Bool) (al : Al) (a : An) (v : Val) (o : Op) (ho : Constructs v o) (he : v.exist = true)
    (hm : v.makes = false) : declared cpp20 al a o = true ∧ compiles al a o = false := by
  have hm' : ∀ f, Act.require false ∈ emplaceInEmpty al a v f := by
    intro f
    unfold emplaceInEmpty
    split <;> simp [constructValue, hm]
  have hc : Act.require false ∈ body al a o := by
    rcases ho with rfl | rfl | rfl | rfl <;> simp [body, emplaceDecayed, hm']
  refine ⟨by rcases ho with rfl | rfl | rfl | rfl <;> exact he, ?_⟩
  rw [compiles, List.all_eq_false]
  exact ⟨.require false, by simp [hc], by simp [Act.ok]⟩

/-- C127 fails in C++17: checks say that every any can be copied and moved. -/
theorem C127_cpp17_fails (al : Al) (a : An) :
    (∀ o, o = .copyCtor ∨ o = .copyAssign ∨ o = .moveCtor ∨ o = .moveAssign → declared false al a o = true) ∧
    (a.copy = false → compiles al a .copyCtor = false ∧ compiles al a .copyAssign = false) ∧
    (a.hasMove = false → compiles al a .moveCtor = false ∧ compiles al a .moveAssign = false) := by
  refine ⟨?_, fun h => ⟨?_, ?_⟩, fun h => ⟨?_, ?_⟩⟩
  · rintro o (rfl | rfl | rfl | rfl) <;> rfl
  · simp [compiles, body, copyCtorBody, Act.ok, h]
  · simp [compiles, body, copyAssignBody, Act.ok, h]
  · simp [compiles, body, moveCtorBody, Act.ok, h]
  · simp [compiles, body, moveAssignBody, Act.ok, h]

/-- C127 fails for allocators that cannot be default-constructed: checks say yes to all constructors from values. -/
theorem C127_allocator_fails (cpp20 : Bool) (al : Al) (a : An) (v : Val) (he : v.exist = true) (hd : al.dflt = false) :
    (declared cpp20 al a (.valueCtor v) = true ∧ compiles al a (.valueCtor v) = false) ∧
    (declared cpp20 al a (.stableCtor v) = true ∧ compiles al a (.stableCtor v) = false) := by
  refine ⟨⟨he, ?_⟩, ⟨he, ?_⟩⟩ <;> simp [compiles, body, Act.ok, hd]

example : Lies false ⟨false, true, true, true, true, false, true, true, true⟩ ⟨false, false, false, false⟩ .copyAssign ∧
    Lies true ⟨false, true, true, true, true, false, true, true, true⟩ ⟨false, false, true, false⟩ (.valueCtor ⟨true, false, true, false, false, false⟩) :=
  ⟨.copies _ (.inr rfl) rfl rfl, .arguments ⟨true, false, true, false, false, false⟩ _ (.inl rfl) rfl rfl⟩

end AnyAny.AllocReq
