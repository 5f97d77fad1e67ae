import Verif.Lemmas.AnyMemLeaf4
namespace AnyAny.Mem
open AnyAny.TypeList
variable {cfg : Cfg}

theorem noexceptIf_ok {α} {b : Bool} {m : M α} {w w' : World} {x : α} (h : m w = .ok x w') :
    noexceptIf b m w = .ok x w' := by simp [noexceptIf, h]
theorem noexceptIf_exn {α} {m : M α} {w w' : World} (h : m w = .exn w') :
    noexceptIf false m w = .exn w' := by simp [noexceptIf, h]
theorem noexceptIf_term {α} {b : Bool} {m : M α} {w : World} (h : m w = .term) :
    noexceptIf b m w = .term := by simp [noexceptIf, h]
theorem noexceptIf_exn_true {α} {m : M α} {w w' : World} (h : m w = .exn w') :
    noexceptIf true m w = .term := by simp [noexceptIf, h]

@[simp] theorem Abs.set_snaps (σ : Abs) (a : Nat) (s : Snap) : (σ.set a s).snaps a = some s := by
  simp [Abs.set]
@[simp] theorem Abs.set_nb (σ : Abs) (a : Nat) (s : Snap) : (σ.set a s).nb = σ.nb := rfl
@[simp] theorem Abs.set_no (σ : Abs) (a : Nat) (s : Snap) : (σ.set a s).no = σ.no := rfl
@[simp] theorem Abs.set_cp (σ : Abs) (a : Nat) (s : Snap) : (σ.set a s).cp = σ.cp := rfl
theorem Abs.set_other (σ : Abs) {a c : Nat} (s : Snap) (h : c ≠ a) : (σ.set a s).snaps c = σ.snaps c := by
  simp [Abs.set, upd, h]
@[simp] theorem Abs.set_set (σ : Abs) (a : Nat) (s t : Snap) : (σ.set a s).set a t = σ.set a t := by
  simp [Abs.set]

theorem reset_spec {w : World} {σ : Abs} {a : Nat} {s : Snap} (R : Rep cfg w σ)
    (hs : σ.snaps a = some s) :
    ∃ w', reset cfg a w = .ok () w' ∧ Rep cfg w' (σ.set a { s with obj := none, mem := none }) ∧
      w'.tick = w.tick := by
  obtain ⟨w1, h1, R1, t1⟩ := destroyValue_spec R hs
  obtain ⟨st1, D1⟩ := R1.det (Abs.set_snaps _ _ _)
  cases hm : s.mem with
  | none =>
    refine ⟨w1, ?_, ?_, t1⟩
    · simp [reset, h1, getAny_some D1.get, Rep.memAlloc D1, hm]
    · have : ({ s with obj := none, mem := none } : Snap) = { s with obj := none } := by
        obtain ⟨_, _, _, _⟩ := s; simp_all
      rw [this]; exact R1
  | some p =>
    obtain ⟨b, n⟩ := p
    obtain ⟨w2, h2, R2, t2⟩ := deallocateMemory_spec R1 (Abs.set_snaps _ _ _) rfl hm
    refine ⟨w2, ?_, ?_, by omega⟩
    · simp [reset, h1, getAny_some D1.get, Rep.memAlloc D1, hm, h2]
    · simpa using R2

/-- The argument is a value `v`, or refers to the object (with value `v`) contained in an any other
than `a`. -/
inductive ArgOk (σ : Abs) (a : Nat) : Arg → Nat → Prop
  | lit (v : Nat) : ArgOk σ a (.lit v) v
  | ref (c : Nat) (t : Snap) (o : Obj) (hne : c ≠ a) (ht : σ.snaps c = some t) (ho : t.obj = some o) :
      ArgOk σ a (.ref (t.loc c)) o.val

theorem ArgOk.eval {w : World} {σ : Abs} {a v : Nat} {arg : Arg} (h : ArgOk σ a arg v)
    (R : Rep cfg w σ) : evalArg arg w = .ok v w := by
  cases h with
  | lit => rfl
  | ref c t o hne ht ho => simp [evalArg, R.cell ht ho]

theorem ArgOk.set {σ σ' : Abs} {a v : Nat} {arg : Arg} (h : ArgOk σ a arg v)
    (hσ : ∀ c, c ≠ a → σ'.snaps c = σ.snaps c) : ArgOk σ' a arg v := by
  cases h with
  | lit => exact .lit v
  | ref c t o hne ht ho => exact .ref c t o hne (by rw [hσ c hne]; exact ht) ho

/-- Placement of a new `t` with value `v` in an empty any without memory. -/
def placed (cfg : Cfg) (σ : Abs) (a : Nat) (s : Snap) (t v : Nat) (force : Bool) : Abs :=
  if fits cfg t && !force then
    { σ.set a { s with obj := some ⟨σ.no, t, v⟩ } with no := σ.no + 1 }
  else
    { σ.set a { s with mem := some (σ.nb, (cfg.ty t).size), obj := some ⟨σ.no, t, v⟩ } with
      nb := σ.nb + 1, no := σ.no + 1 }

theorem emplaceInEmpty_spec {w : World} {σ : Abs} {a t v : Nat} {arg : Arg} {s : Snap}
    (force nothrow : Bool) (R : Rep cfg w σ) (hs : σ.snaps a = some s) (ho : s.obj = none)
    (hm : s.mem = none) (halign : (cfg.ty t).align ≤ cfg.allocAlign) (harg : ArgOk σ a arg v) :
    (∃ w', emplaceInEmpty cfg a t force arg nothrow w = .ok () w' ∧
      Rep cfg w' (placed cfg σ a s t v force)) ∨
    ((nothrow && (fits cfg t && !force)) = false ∧ ∃ w' nb',
      emplaceInEmpty cfg a t force arg nothrow w = .exn w' ∧ Rep cfg w' { σ with nb := nb' }) := by
  by_cases hf : (fits cfg t && !force) = true
  · have hsuit : Suits cfg s t := ⟨fun _ => by simp at hf; exact hf.1, by simp [hm]⟩
    rcases constructValue_spec nothrow R hs ho hsuit (harg.eval R) with ⟨w', he, R'⟩ | ⟨hn, w', he, R'⟩
    · refine Or.inl ⟨w', ?_, ?_⟩
      · simp only [emplaceInEmpty, hf, if_true]; exact he
      · simp only [placed, hf, if_true]; exact R'
    · refine Or.inr ⟨by simp [hn], w', σ.nb, ?_, R'⟩
      simp only [emplaceInEmpty, hf, if_true]; exact he
  · have hf' : (fits cfg t && !force) = false := by simpa using hf
    obtain ⟨st, D⟩ := R.det hs
    have hunf : emplaceInEmpty cfg a t force arg nothrow w =
        ((acquire cfg st.al a (cfg.ty t).size) >>= fun _ =>
          if nothrow then constructValue cfg a t arg nothrow
          else
            onFail (constructValue cfg a t arg nothrow) (do
              let s ← getAny a
              deallocate cfg s.al s.vp (cfg.ty t).size
              modifyAny a (fun s => { s with vp := .data a }))) w := by
      simp only [emplaceInEmpty, hf', acquire, bind_assoc', Bool.false_eq_true, if_false]
      rw [bind_apply, getAny_some D.get]
    rcases acquire_spec (n := (cfg.ty t).size) (al := st.al) R hs ho hm (by rw [D.al]; exact allocEq_refl _) with ⟨w1, h1, R1, _⟩ | ⟨w1, h1, R1, _⟩
    · have hs1 : ({ σ.set a { s with mem := some (σ.nb, (cfg.ty t).size) } with nb := σ.nb + 1 } : Abs).snaps a = some { s with mem := some (σ.nb, (cfg.ty t).size) } := by simp [Abs.set]
      have harg1 : ArgOk ({ σ.set a { s with mem := some (σ.nb, (cfg.ty t).size) } with nb := σ.nb + 1 } : Abs) a arg v :=
        harg.set (fun c hc => by simp [Abs.set, upd, hc])
      have hsuit : Suits cfg { s with mem := some (σ.nb, (cfg.ty t).size) } t := by
        refine ⟨by simp, ?_⟩
        intro b n hbn; simp at hbn; obtain ⟨_, rfl⟩ := hbn; exact ⟨Nat.le_refl _, halign⟩
      rcases constructValue_spec nothrow R1 hs1 ho hsuit (harg1.eval R1) with ⟨w', he, R'⟩ | ⟨hn, w', he, R'⟩
      · refine Or.inl ⟨w', ?_, ?_⟩
        · rw [hunf, bind_apply, h1]
          cases nothrow <;> simp [onFail, he]
        · simp only [placed, hf', Bool.false_eq_true, if_false]
          simpa [Abs.set] using R'
      · obtain ⟨w2, h2, R2, _⟩ := release_spec R' hs1 ho rfl
        refine Or.inr ⟨by simp [hn], w2, σ.nb + 1, ?_, ?_⟩
        · rw [hunf, bind_apply, h1]
          simp only [hn, Bool.false_eq_true, if_false, onFail]
          rw [hn] at he; rw [he]
          simp only [h2]
        · have : ({ s with mem := none } : Snap) = s := by obtain ⟨_, _, _, _⟩ := s; simp_all
          rw [this] at R2
          have hself := Abs.set_self hs
          rw [show ({ σ with nb := σ.nb + 1 } : Abs) = { σ.set a s with nb := σ.nb + 1 } by rw [hself]]
          simpa [Abs.set] using R2
    · refine Or.inr ⟨by rw [hf']; simp, w1, σ.nb, ?_, R1⟩
      rw [hunf, bind_apply, h1]

/-- The state after `emplace<T>`: memory is reused if it is large enough. -/
def emplaced (cfg : Cfg) (σ : Abs) (a : Nat) (s : Snap) (t v : Nat) : Abs :=
  match s.mem with
  | some (_, n) =>
    if n < (cfg.ty t).size then placed cfg σ a { s with obj := none, mem := none } t v false
    else { σ.set a { s with obj := some ⟨σ.no, t, v⟩ } with no := σ.no + 1 }
  | none => placed cfg σ a { s with obj := none } t v false

theorem placed_set (σ : Abs) (a : Nat) (s s' : Snap) (t v : Nat) (f : Bool) :
    placed cfg (σ.set a s') a s t v f = placed cfg σ a s t v f := by
  simp only [placed, Abs.set_set, Abs.set_nb, Abs.set_no]

/-- State after an exception in `emplace`: empty, memory kept or released. -/
def EmplaceFailed (cfg : Cfg) (t : Nat) (σ : Abs) (a : Nat) (s : Snap) (σ' : Abs) : Prop :=
  ∃ nb' m', ((m' = s.mem ∨ m' = none) ∧ ∀ b n, s.mem = some (b, n) → (cfg.ty t).size ≤ n → m' = s.mem ∧ nb' = σ.nb) ∧
    σ' = { σ.set a { s with obj := none, mem := m' } with nb := nb' }

theorem emplaceDecayed_spec {w : World} {σ : Abs} {a t v : Nat} {arg : Arg} {s : Snap}
    (nothrow : Bool) (R : Rep cfg w σ) (hs : σ.snaps a = some s)
    (halign : (cfg.ty t).align ≤ cfg.allocAlign) (harg : ArgOk σ a arg v) :
    (∃ w', emplaceDecayed cfg a t arg nothrow w = .ok () w' ∧ Rep cfg w' (emplaced cfg σ a s t v)) ∨
    ((nothrow && fits cfg t) = false ∧ ∃ w' σ',
      emplaceDecayed cfg a t arg nothrow w = .exn w' ∧ EmplaceFailed cfg t σ a s σ' ∧ Rep cfg w' σ') := by
  obtain ⟨w1, h1, R1, t1⟩ := destroyValue_spec R hs
  have hs1 := Abs.set_snaps σ a { s with obj := none }
  obtain ⟨st1, D1⟩ := R1.det hs1
  have harg1 : ArgOk (σ.set a { s with obj := none }) a arg v :=
    harg.set (fun c hc => Abs.set_other _ _ hc)
  cases hm : s.mem with
  | none =>
    have hunf : ∀ r, (emplaceInEmpty cfg a t false arg nothrow w1 = r) →
        (do
          destroyValue cfg a
          let s ← getAny a
          if !memAlloc a s then emplaceInEmpty cfg a t false arg nothrow
          else
            let n ← readSize a
            if n < (cfg.ty t).size then
              deallocateMemory cfg a
              emplaceInEmpty cfg a t false arg nothrow
            else constructValue cfg a t arg nothrow : M Unit) w = r := by
      intro r hr
      simp [h1, getAny_some D1.get, Rep.memAlloc D1, hm, hr]
    rcases emplaceInEmpty_spec false nothrow R1 hs1 rfl hm halign harg1 with ⟨w', he, R'⟩ | ⟨hn, w', nb', he, R'⟩
    · refine Or.inl ⟨w', noexceptIf_ok (hunf _ he), ?_⟩
      simp only [emplaced, hm]
      rw [placed_set] at R'; simpa [hm] using R'
    · have hn' : (nothrow && fits cfg t) = false := by simpa using hn
      refine Or.inr ⟨hn', w', { σ.set a { s with obj := none } with nb := nb' }, ?_, ?_, R'⟩
      · unfold emplaceDecayed; rw [hn']; exact noexceptIf_exn (hunf _ he)
      · exact ⟨nb', s.mem, ⟨Or.inl rfl, fun b n h => by rw [hm] at h; cases h⟩, rfl⟩
  | some p =>
    obtain ⟨b, n⟩ := p
    have hrs : readSize a w1 = .ok n w1 := readSize_det D1 hm
    by_cases hlt : n < (cfg.ty t).size
    · obtain ⟨w2, h2, R2, t2⟩ := deallocateMemory_spec R1 hs1 rfl hm
      have hs2 := Abs.set_snaps (σ.set a { s with obj := none }) a { s with obj := none, mem := none }
      have harg2 : ArgOk ((σ.set a { s with obj := none }).set a { s with obj := none, mem := none }) a arg v :=
        harg1.set (fun c hc => Abs.set_other _ _ hc)
      have hunf : ∀ r, (emplaceInEmpty cfg a t false arg nothrow w2 = r) →
          (do
            destroyValue cfg a
            let s ← getAny a
            if !memAlloc a s then emplaceInEmpty cfg a t false arg nothrow
            else
              let n ← readSize a
              if n < (cfg.ty t).size then
                deallocateMemory cfg a
                emplaceInEmpty cfg a t false arg nothrow
              else constructValue cfg a t arg nothrow : M Unit) w = r := by
        intro r hr
        simp [h1, getAny_some D1.get, Rep.memAlloc D1, hm, hrs, hlt, h2, hr]
      rcases emplaceInEmpty_spec false nothrow R2 hs2 rfl rfl halign harg2 with ⟨w', he, R'⟩ | ⟨hn, w', nb', he, R'⟩
      · refine Or.inl ⟨w', noexceptIf_ok (hunf _ he), ?_⟩
        simp only [emplaced, hm, hlt, if_true]
        rw [placed_set, placed_set] at R'; exact R'
      · have hn' : (nothrow && fits cfg t) = false := by simpa using hn
        refine Or.inr ⟨hn', w', { σ.set a { s with obj := none, mem := none } with nb := nb' }, ?_, ?_, ?_⟩
        · unfold emplaceDecayed; rw [hn']; exact noexceptIf_exn (hunf _ he)
        · exact ⟨nb', none, ⟨Or.inr rfl, fun b n h h' => by rw [hm] at h; cases h; omega⟩, rfl⟩
        · simpa using R'
    · have hunf : ∀ r, (constructValue cfg a t arg nothrow w1 = r) →
          (do
            destroyValue cfg a
            let s ← getAny a
            if !memAlloc a s then emplaceInEmpty cfg a t false arg nothrow
            else
              let n ← readSize a
              if n < (cfg.ty t).size then
                deallocateMemory cfg a
                emplaceInEmpty cfg a t false arg nothrow
              else constructValue cfg a t arg nothrow : M Unit) w = r := by
        intro r hr
        simp [h1, getAny_some D1.get, Rep.memAlloc D1, hm, hrs, hlt, hr]
      have hsuit : Suits cfg { s with obj := none } t := by
        refine ⟨by simp [hm], ?_⟩
        intro b' n' hbn; simp only [hm, Option.some.injEq, Prod.mk.injEq] at hbn
        obtain ⟨_, rfl⟩ := hbn; exact ⟨by omega, halign⟩
      rcases constructValue_spec nothrow R1 hs1 rfl hsuit (harg1.eval R1) with ⟨w', he, R'⟩ | ⟨hn, w', he, R'⟩
      · refine Or.inl ⟨w', noexceptIf_ok (hunf _ he), ?_⟩
        simp only [emplaced, hm, hlt, if_false]
        simpa [hm] using R'
      · have hn' : (nothrow && fits cfg t) = false := by simp [hn]
        refine Or.inr ⟨hn', w', σ.set a { s with obj := none }, ?_, ?_, R'⟩
        · unfold emplaceDecayed; rw [hn']; exact noexceptIf_exn (hunf _ he)
        · exact ⟨σ.nb, s.mem, ⟨Or.inl rfl, fun _ _ _ _ => ⟨rfl, rfl⟩⟩, rfl⟩

theorem emplace_spec {w : World} {σ : Abs} {a t v : Nat} {arg : Arg} {s : Snap}
    (nothrow : Bool) (R : Rep cfg w σ) (hs : σ.snaps a = some s)
    (halign : (cfg.ty t).align ≤ cfg.allocAlign) (harg : ArgOk σ a arg v) :
    (∃ w', emplace cfg a t arg nothrow w = .ok () w' ∧ Rep cfg w' (emplaced cfg σ a s t v)) ∨
    ((nothrow && fits cfg t) = false ∧ ∃ w' σ',
      emplace cfg a t arg nothrow w = .exn w' ∧ EmplaceFailed cfg t σ a s σ' ∧ Rep cfg w' σ') := by
  rcases emplaceDecayed_spec nothrow R hs halign harg with ⟨w', he, R'⟩ | ⟨hn, w', σ', he, hf, R'⟩
  · exact Or.inl ⟨w', noexceptIf_ok he, R'⟩
  · exact Or.inr ⟨hn, w', σ', by unfold emplace; rw [hn]; exact noexceptIf_exn he, hf, R'⟩

theorem replaceWithBytes_spec {w : World} {σ : Abs} {a n : Nat} {s : Snap} (R : Rep cfg w σ)
    (hs : σ.snaps a = some s) :
    (∃ w' m, replaceWithBytes cfg a n w = .ok () w' ∧
      ((m = s.mem ∧ (match s.mem with | some (_, k) => n ≤ k | none => n ≤ cfg.soos) ∧
          Rep cfg w' (σ.set a { s with obj := none })) ∨
       (m = some (σ.nb, n) ∧ (match s.mem with | some (_, k) => k < n | none => cfg.soos < n) ∧
          Rep cfg w' { σ.set a { s with obj := none, mem := some (σ.nb, n) } with nb := σ.nb + 1 }))) ∨
    (∃ w', replaceWithBytes cfg a n w = .exn w' ∧ Rep cfg w' (σ.set a { s with obj := none })) := by
  obtain ⟨w1, h1, R1, t1⟩ := destroyValue_spec R hs
  have hs1 := Abs.set_snaps σ a { s with obj := none }
  obtain ⟨st1, D1⟩ := R1.det hs1
  cases hm : s.mem with
  | none =>
    by_cases hc : cfg.soos ≥ n
    · refine Or.inl ⟨w1, none, ?_, Or.inl ⟨rfl, hc, by simpa [hm] using R1⟩⟩
      simp [replaceWithBytes, h1, getAny_some D1.get, Rep.memAlloc D1, hm, hc]
    · have hunf : replaceWithBytes cfg a n w = acquire cfg st1.al a n w1 := by
        simp [replaceWithBytes, h1, getAny_some D1.get, Rep.memAlloc D1, hm, hc, acquire]
      rw [hunf]
      rcases acquire_spec (n := n) (al := st1.al) R1 hs1 rfl hm (by rw [D1.al]; exact allocEq_refl _) with ⟨w2, h2, R2, _⟩ | ⟨w2, h2, R2, _⟩
      · refine Or.inl ⟨w2, some (σ.nb, n), h2, Or.inr ⟨rfl, by omega, ?_⟩⟩
        simpa using R2
      · exact Or.inr ⟨w2, h2, by simpa [hm] using R2⟩
  | some p =>
    obtain ⟨b, k⟩ := p
    have hrs : readSize a w1 = .ok k w1 := readSize_det D1 hm
    by_cases hc : k ≥ n
    · refine Or.inl ⟨w1, some (b, k), ?_, Or.inl ⟨rfl, hc, by simpa [hm] using R1⟩⟩
      simp [replaceWithBytes, h1, getAny_some D1.get, Rep.memAlloc D1, hm, hrs, hc]
    · have hunf : replaceWithBytes cfg a n w = (do
          let b ← allocate cfg st1.al n
          deallocateMemory cfg a
          modifyAny a (fun s => { s with vp := .blk b })
          writeSize cfg a n : M Unit) w1 := by
        simp [replaceWithBytes, h1, getAny_some D1.get, Rep.memAlloc D1, hm, hrs, hc]
      rw [hunf]
      rcases swapMem_spec (n := n) R1 hs1 rfl hm D1.get with ⟨w2, h2, R2⟩ | ⟨w2, h2, R2⟩
      · refine Or.inl ⟨w2, some (σ.nb, n), h2, Or.inr ⟨rfl, by simpa using hc, ?_⟩⟩
        simpa using R2
      · exact Or.inr ⟨w2, h2, by simpa [hm] using R2⟩

end AnyAny.Mem
