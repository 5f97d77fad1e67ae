import Verif.Spec.AllocReq
/-
C126: anys work with all allocators that meet the requirements of the standard.
-/
namespace AnyAny.AllocReq
open Spec

/-! ### Lemmas -/

theorem all_ite (al : Al) (c : Bool) (x y : List Act) :
    ((if c = true then x else y).all (Act.ok al)) = (if c = true then x.all (Act.ok al) else y.all (Act.ok al)) := by
  cases c <;> rfl

theorem copyFn_ok (al : Al) (a : An) (v : Val) (hf : al.fancy = false) : (copyFn al a v).all (Act.ok al) = true := by
  have hl : (localAlloc al).all (Act.ok al) = true := by
    unfold localAlloc copyRequiresAlloc
    cases he : al.empty <;> cases hd : al.dflt <;> simp [Act.ok, hd]
  unfold copyFn
  cases v.trivial <;> cases isSmall a v <;> simp [hl, Act.ok, hf]

theorem construct_ok (al : Al) (a : An) (v : Val) (hf : al.fancy = false) : (constructValue al a v).all (Act.ok al) = v.makes := by
  unfold constructValue
  cases a.copy
  · simp [Act.ok]
  · simp only [if_true, List.all_cons, copyFn_ok al a v hf, Act.ok, Bool.and_true]

theorem emplace_ok (al : Al) (a : An) (v : Val) (f : Bool) (hf : al.fancy = false) : (emplaceInEmpty al a v f).all (Act.ok al) = v.makes := by
  have h := construct_ok al a v hf
  unfold emplaceInEmpty
  cases isSmall a v <;> cases f <;> cases v.nothrowMake <;> simp [h, Act.ok, hf, -List.all_eq_true]

theorem moveValue_ok (al : Al) (r : Bool) (b : An) (hf : al.fancy = false) :
    (moveValueFrom r b).all (Act.ok al) = (b.soo0 || b.hasMoveMethod) := by
  unfold moveValueFrom
  cases b.soo0 <;> cases r <;> cases hm : b.hasMoveMethod <;> simp [Act.ok, hf, hm]

theorem compiles_plain (al : Al) (a : An) (o : Op) (hf : al.fancy = false) (hn : al.noexceptCopy = true) :
    compiles al a o = (body al a o).all (Act.ok al) := by
  simp [compiles, reset, deallocateMemory, Act.ok, hf, hn]

theorem fancy_false (al : Al) (a : An) (o : Op) (h : al.fancy = true) : compiles al a o = false := by
  simp [compiles, reset, deallocateMemory, Act.ok, h]

theorem unmarked_false (al : Al) (a : An) (o : Op) (h : al.noexceptCopy = false) : compiles al a o = false := by
  simp [compiles, Act.ok, h]

theorem moveAssign_ok (al : Al) (a : An) (hf : al.fancy = false) (hp : al.pocma = true → al.moveAssign = true) :
    (moveAssignBody al a).all (Act.ok al) = (a.hasMove && (a.hasMoveMethod || al.alwaysEqual || al.pocma)) := by
  have h1 := moveValue_ok al true a hf
  have h2 := moveValue_ok al false a hf
  unfold moveAssignBody
  cases he : al.alwaysEqual with
  | true =>
    simp only [if_true, reset, deallocateMemory, List.all_cons, List.all_append, List.all_nil, h1, Act.ok, hf, An.hasMove]
    cases a.hasMoveMethod <;> cases a.soo0 <;> rfl
  | false =>
    cases hq : al.pocma with
    | true =>
      simp only [if_true, Bool.false_eq_true, if_false, reset, deallocateMemory, List.all_cons, List.all_append, List.all_nil, h1, Act.ok,
        hf, An.hasMove, hp hq]
      cases a.hasMoveMethod <;> cases a.soo0 <;> rfl
    | false =>
      simp only [Bool.false_eq_true, if_false, reset, deallocateMemory, List.all_cons, List.all_append, List.all_nil, h1, h2, Act.ok,
        hf, An.hasMove]
      cases a.hasMoveMethod <;> cases a.soo0 <;> rfl

/-! ### C126 -/

/-- C126, exactly: with an allocator that meets the requirements of the standard an operation compiles if and only if the methods enable
it, the allocator can be default-constructed if one has to be made, and it is not one of the exceptions. -/
theorem C126_exact (al : Al) (a : An) (o : Op) (hc : Conforming al) :
    compiles al a o = true ↔ Should al a o ∧ ¬ Exception al a o := by
  cases hf : al.fancy with
  | true =>
    rw [fancy_false al a o hf]
    exact ⟨fun h => (by cases h), fun h => absurd (.fancy o hf) h.2⟩
  | false =>
  cases hn : al.noexceptCopy with
  | false =>
    rw [unmarked_false al a o hn]
    exact ⟨fun h => (by cases h), fun h => absurd (.unmarked o hn) h.2⟩
  | true =>
  rw [compiles_plain al a o hf hn]
  have hx : ∀ o', Exception al a o' →
      (∃ b, o' = .fromMoreMove b ∧ al.dflt = false) ∨
      (o' = .moveAssign ∧ a.soo0 = true ∧ a.hasMoveMethod = false ∧ al.alwaysEqual = false ∧ al.pocma = false) := by
    intro o' h
    cases h with
    | fancy _ h => rw [hf] at h; cases h
    | unmarked _ h => rw [hn] at h; cases h
    | fromMore b h => exact .inl ⟨b, rfl, h⟩
    | stays h1 h2 h3 h4 h5 h6 => exact .inr ⟨rfl, h1, by simp [An.hasMoveMethod, h2, h3, h4], h5, h6⟩
  have plain : ∀ o', (∀ b, o' ≠ .fromMoreMove b) → o' ≠ .moveAssign → ((Should al a o' ∧ ¬ Exception al a o') ↔ Should al a o') := by
    intro o' h1 h2
    refine and_iff_left fun h => ?_
    rcases hx o' h with ⟨b, rfl, _⟩ | ⟨rfl, _⟩
    · exact h1 b rfl
    · exact h2 rfl
  cases o with
  | defaultCtor =>
    refine Iff.trans ?_ (plain _ (by intro b h; cases h) (by intro h; cases h)).symm
    simp only [Should, Enabled, MakesAllocator]
    simp [body, Act.ok]
  | valueCtor v =>
    refine Iff.trans ?_ (plain _ (by intro b h; cases h) (by intro h; cases h)).symm
    simp only [Should, Enabled, MakesAllocator]
    simp [body, Act.ok, emplace_ok al a v false hf, -List.all_eq_true, and_assoc, and_comm, and_left_comm]
  | stableCtor v =>
    refine Iff.trans ?_ (plain _ (by intro b h; cases h) (by intro h; cases h)).symm
    simp only [Should, Enabled, MakesAllocator]
    simp [body, Act.ok, emplace_ok al a v true hf, -List.all_eq_true, and_assoc, and_comm, and_left_comm]
  | allocCtor | getAllocator =>
    refine Iff.trans ?_ (plain _ (by intro b h; cases h) (by intro h; cases h)).symm
    simp only [Should, Enabled, MakesAllocator]
    simp [body]
  | allocValueCtor v =>
    refine Iff.trans ?_ (plain _ (by intro b h; cases h) (by intro h; cases h)).symm
    simp only [Should, Enabled, MakesAllocator]
    simp [body, Act.ok, emplace_ok al a v false hf, -List.all_eq_true]
  | emplace v =>
    refine Iff.trans ?_ (plain _ (by intro b h; cases h) (by intro h; cases h)).symm
    simp only [Should, Enabled, MakesAllocator]
    simp [body, emplaceDecayed, deallocateMemory, Act.ok, hf, emplace_ok al a v false hf, construct_ok al a v hf, -List.all_eq_true]
  | reset | replaceWithBytes =>
    refine Iff.trans ?_ (plain _ (by intro b h; cases h) (by intro h; cases h)).symm
    simp only [Should, Enabled, MakesAllocator]
    simp [body, AllocReq.reset, deallocateMemory, Act.ok, hf]
  | copyCtor | materializeAlloc =>
    refine Iff.trans ?_ (plain _ (by intro b h; cases h) (by intro h; cases h)).symm
    simp only [Should, Enabled, MakesAllocator]
    simp [body, copyCtorBody, Act.ok]
  | fromMoreCopy b =>
    refine Iff.trans ?_ (plain _ (by intro b h; cases h) (by intro h; cases h)).symm
    simp only [Should, Enabled, MakesAllocator]
    simp [body, Act.ok]
  | materialize =>
    refine Iff.trans ?_ (plain _ (by intro b h; cases h) (by intro h; cases h)).symm
    simp only [Should, Enabled, MakesAllocator]
    simp [body, Act.ok, and_comm]
  | moveCtor =>
    refine Iff.trans ?_ (plain _ (by intro b h; cases h) (by intro h; cases h)).symm
    simp only [Should, Enabled, MakesAllocator]
    have := moveValue_ok al true a hf
    simp only [body, moveCtorBody, List.all_cons, this, Act.ok, An.hasMove, An.hasMoveMethod]
    cases a.copy <;> cases a.otherCopy <;> cases a.move <;> cases a.soo0 <;> simp
  | copyAssign =>
    refine Iff.trans ?_ (plain _ (by intro b h; cases h) (by intro h; cases h)).symm
    simp only [Should, Enabled, MakesAllocator]
    have := moveAssign_ok al a hf hc.2
    have ha := hc.1
    simp only [body, copyAssignBody, copyCtorBody, List.all_cons, List.all_append, this, Act.ok, An.hasMove, An.hasMoveMethod]
    cases a.copy <;> cases he : al.alwaysEqual <;> cases hp : al.pocca <;>
      simp [AllocReq.reset, deallocateMemory, Act.ok, hf] <;> exact ha hp
  | fromMoreMove b =>
    have := moveValue_ok al true b hf
    have he : (¬ Exception al a (.fromMoreMove b)) ↔ al.dflt = true := by
      constructor
      · intro h
        cases hd : al.dflt with
        | true => rfl
        | false => exact absurd (.fromMore b hd) h
      · intro h hx'
        rcases hx _ hx' with ⟨_, _, h0⟩ | ⟨h0, _⟩
        · rw [h] at h0; cases h0
        · cases h0
    rw [he]
    simp only [Should, Enabled, MakesAllocator, body, List.all_cons, this, Act.ok, An.hasMoveMethod]
    cases b.copy <;> cases b.otherCopy <;> cases b.move <;> cases b.soo0 <;> simp
  | moveAssign =>
    have he : (¬ Exception al a .moveAssign) ↔
        (a.soo0 && !a.hasMoveMethod && !al.alwaysEqual && !al.pocma) = false := by
      constructor
      · intro h
        cases hd : (a.soo0 && !a.hasMoveMethod && !al.alwaysEqual && !al.pocma) with
        | false => rfl
        | true =>
          simp only [Bool.and_eq_true, Bool.not_eq_true', An.hasMoveMethod, Bool.or_eq_false_iff] at hd
          obtain ⟨⟨⟨h1, ⟨h2, h3⟩, h4⟩, h5⟩, h6⟩ := hd
          exact absurd (.stays h1 h2 h3 h4 h5 h6) h
      · intro h hx'
        rcases hx _ hx' with ⟨_, h0, _⟩ | ⟨_, h1, h2, h3, h4⟩
        · cases h0
        · rw [h1, h2, h3, h4] at h; cases h
    rw [he]
    simp only [Should, Enabled, MakesAllocator, body, moveAssign_ok al a hf hc.2, An.hasMove, An.hasMoveMethod]
    cases a.copy <;> cases a.otherCopy <;> cases a.move <;> cases a.soo0 <;> cases al.alwaysEqual <;> cases al.pocma <;> simp

/-- An arena allocator that has to be given its arena, is not propagated and cannot be assigned: all operations of a copyable any compile
that do not have to make an allocator, except the move from an any with more methods. -/
example : Conforming ⟨false, true, false, false, false, false, false, false, false⟩ ∧
    compiles ⟨false, true, false, false, false, false, false, false, false⟩ ⟨true, false, false, false⟩ .moveAssign = true ∧
    compiles ⟨false, true, false, false, false, false, false, false, false⟩ ⟨true, false, false, false⟩
      (.allocValueCtor ⟨true, true, false, false, false, false⟩) = true ∧
    compiles ⟨false, true, false, false, false, false, false, false, false⟩ ⟨true, false, false, false⟩ .defaultCtor = false ∧
    compiles ⟨false, true, false, false, false, false, false, false, false⟩ ⟨true, false, false, false⟩
      (.fromMoreMove ⟨true, false, false, false⟩) = false := by
  refine ⟨⟨nofun, nofun⟩, by decide, by decide, by decide, by decide⟩

/-- C126, what holds: with allocators that meet the requirements, have pointers that are pointers and a copy constructor declared `noexcept`,
every operation that should compile does, except that moves from anys with more methods also need the default constructor, and that move
assignment also needs methods that move if the allocator may stay behind. -/
theorem C126_partial (al : Al) (a : An) (o : Op) (hc : Conforming al) (hf : al.fancy = false) (hn : al.noexceptCopy = true)
    (hb : ∀ b, o = .fromMoreMove b → al.dflt = true)
    (ha : o = .moveAssign → a.copy = true ∨ a.otherCopy = true ∨ a.move = true ∨ al.alwaysEqual = true ∨ al.pocma = true)
    (hs : Should al a o) : compiles al a o = true := by
  refine (C126_exact al a o hc).2 ⟨hs, fun h => ?_⟩
  cases h with
  | fancy _ h => rw [hf] at h; cases h
  | unmarked _ h => rw [hn] at h; cases h
  | fromMore b h => rw [hb b rfl] at h; cases h
  | stays _ h2 h3 h4 h5 h6 => simp [h2, h3, h4, h5, h6] at ha

/-- `std::pmr::polymorphic_allocator`: copy assignment, although the allocator has none. -/
example : compiles ⟨false, true, true, false, false, false, false, false, false⟩ ⟨true, false, false, false⟩ .copyAssign = true :=
  C126_partial _ _ _ ⟨nofun, nofun⟩ rfl rfl nofun nofun ⟨rfl, nofun⟩

/-- C126 fails for allocators with fancy pointers: no operation compiles, not even those that would not allocate. -/
theorem C126_fancy_fails (al : Al) (a : An) (hf : al.fancy = true) :
    (∀ o, compiles al a o = false) ∧ Should al a .allocCtor ∧ Should al a .reset :=
  ⟨fun o => fancy_false al a o hf, ⟨trivial, nofun⟩, ⟨trivial, nofun⟩⟩

/-- C126 fails for allocators whose copy constructor does not throw but is not declared `noexcept`. -/
theorem C126_unmarked_fails (al : Al) (a : An) (hn : al.noexceptCopy = false) :
    (∀ o, compiles al a o = false) ∧ Should al a .allocCtor ∧ Should al a .reset :=
  ⟨fun o => unmarked_false al a o hn, ⟨trivial, nofun⟩, ⟨trivial, nofun⟩⟩

/-- C126 fails for moves from anys with more methods, if the allocator cannot be default-constructed; copies compile. -/
theorem C126_fromMore_fails (al : Al) (a b : An) (hc : Conforming al) (hf : al.fancy = false) (hn : al.noexceptCopy = true)
    (hd : al.dflt = false) (hb : b.copy = true) :
    Should al a (.fromMoreMove b) ∧ compiles al a (.fromMoreMove b) = false ∧ compiles al a (.fromMoreCopy b) = true := by
  refine ⟨⟨.inl hb, nofun⟩, ?_, C126_partial al a _ hc hf hn nofun nofun ⟨hb, nofun⟩⟩
  rw [← Bool.not_eq_true, C126_exact al a _ hc]
  exact fun h => h.2 (.fromMore b hd)

/-- C126 fails for anys without buffer and without methods that move: move assignment takes part in overload resolution, but does not
compile with allocators that are neither always equal nor propagated; move construction does. -/
theorem C126_stays_fails (al : Al) (hc : Conforming al) (hf : al.fancy = false) (hn : al.noexceptCopy = true)
    (he : al.alwaysEqual = false) (hp : al.pocma = false) :
    Should al ⟨false, false, false, true⟩ .moveAssign ∧ compiles al ⟨false, false, false, true⟩ .moveAssign = false ∧
    compiles al ⟨false, false, false, true⟩ .moveCtor = true := by
  refine ⟨⟨.inr (.inr (.inr rfl)), nofun⟩, ?_, C126_partial al _ _ hc hf hn nofun nofun ⟨.inr (.inr (.inr rfl)), nofun⟩⟩
  rw [← Bool.not_eq_true, C126_exact al _ _ hc]
  exact fun h => h.2 (.stays rfl rfl rfl rfl he hp)

example : Should ⟨false, true, true, false, false, false, false, false, false⟩ ⟨false, false, false, true⟩ .moveAssign ∧
    compiles ⟨false, true, true, false, false, false, false, false, false⟩ ⟨false, false, false, true⟩ .moveAssign = false ∧
    compiles ⟨false, true, true, false, false, false, false, false, false⟩ ⟨false, false, false, true⟩ .moveCtor = true :=
  C126_stays_fails _ ⟨nofun, nofun⟩ rfl rfl rfl rfl

/-- C126: what of the requirements is used, for all allocators: assignment of anys assigns allocators exactly if they are propagated and not always equal. Move assignment only
ever moves them; copy assignment ends with a move assignment, so that it may need both. -/
theorem C126_assignable (al : Al) (a : An) (hf : al.fancy = false) (hn : al.noexceptCopy = true) (hc : a.copy = true) :
    (compiles al a .copyAssign = true ↔ al.alwaysEqual = true ∨ ((al.pocca = true → al.copyAssign = true) ∧ (al.pocma = true → al.moveAssign = true))) ∧
    (compiles al a .moveAssign = true ↔ al.alwaysEqual = true ∨ (al.pocma = true → al.moveAssign = true)) := by
  obtain ⟨f, n, d, e, ae, pc, pm, ca, ma⟩ := al
  obtain ⟨c, oc, m, s⟩ := a
  dsimp only at hf hn hc
  subst hf hn hc
  revert e d ca ma ae pc pm oc m s
  decide +kernel

/-- An allocator that is propagated by copies but cannot be copied over: copies do not compile, moves do. -/
example : compiles ⟨false, true, true, false, false, true, true, false, true⟩ ⟨true, false, false, false⟩ .copyAssign = false ∧
    compiles ⟨false, true, true, false, false, true, true, false, true⟩ ⟨true, false, false, false⟩ .moveAssign = true := by decide +kernel

end AnyAny.AllocReq
