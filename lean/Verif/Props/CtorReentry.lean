import Verif.Spec.CtorReentry
/-
C116: constructors, copy constructors, destructors and methods that use anys.
-/
namespace AnyAny.CtorReentry

/-- While values for the anys `B` are constructed, those of the anys `D` destroyed; `H`: local variables that may have values. -/
private structure Good (B D H : List Id) (s : St) : Prop where
  own : ∀ a, (s.any a).ptr = .data a ∨ ∃ b, (s.any a).ptr = .blk b ∧ b < s.next ∧ s.freed b = false ∧ s.sizes b = (s.any a).size
  inj : ∀ a c, (s.any a).ptr = (s.any c).ptr → a = c
  cov : ∀ l, s.obj l ≠ none → ∃ a, (s.any a).ptr = l
  has : ∀ a, a ∉ B → a ∉ D → s.obj (s.any a).ptr = (s.any a).vt.map fun v => (v, .alive)
  emp : ∀ a, a ∈ B → (s.any a).vt = none ∧ ∃ v, s.obj (s.any a).ptr = some (v, .building)
  die : ∀ a, a ∈ D → ∃ v, (s.any a).vt = some v ∧ s.obj (s.any a).ptr = some (v, .dying)
  new : ∀ b, s.next ≤ b → s.freed b = false
  leak : ∀ b, b < s.next → s.freed b = false → ∃ a, (s.any a).ptr = .blk b
  tmp : ∀ n, .tmp n ∉ B → .tmp n ∉ D → .tmp n ∉ H → (s.any (.tmp n)).vt = none ∧ (s.any (.tmp n)).ptr = .data (.tmp n)

/-- A variable of the user, or one of these local variables. -/
private def Named (H : List Id) (a : Id) : Prop := ∀ n, a = .tmp n → a ∈ H

private theorem named_var (H : List Id) (a : Nat) : Named H (.var a) := nofun

/-- The contents, without the values that are being destroyed. -/
private def St.view (s : St) (D : List Id) : Vals := fun a => if .var a ∈ D then none else (s.any (.var a)).vt

private theorem view_not {s : St} {D : List Id} {a : Nat} (h : .var a ∉ D) : s.view D a = (s.any (.var a)).vt := if_neg h

private theorem view_nil (s : St) : s.view [] = s.vals := by funext a; simp [St.view, St.vals]

/-- What is in use is not disturbed. -/
private def Keep (K : List Id) (s s' : St) : Prop :=
  s.tmps ≤ s'.tmps ∧ ∀ a, a ∈ K → (s'.any a).ptr = (s.any a).ptr ∧ s'.obj (s.any a).ptr = s.obj (s.any a).ptr ∧ (s'.any a).size = (s.any a).size ∧
    (s'.any a).vt = (s.any a).vt

private theorem Keep.refl (K : List Id) (s : St) : Keep K s s := ⟨Nat.le_refl _, fun _ _ => ⟨rfl, rfl, rfl, rfl⟩⟩

private theorem Keep.trans {K : List Id} {s s' s'' : St} (h : Keep K s s') (h' : Keep K s' s'') : Keep K s s'' := ⟨Nat.le_trans h.1 h'.1, fun a ha => by
  obtain ⟨h1, h2, h5, h7⟩ := h.2 a ha
  obtain ⟨h3, h4, h6, h8⟩ := h'.2 a ha
  rw [h1] at h3 h4
  exact ⟨h3, h4.trans h2, h6.trans h5, h8.trans h7⟩⟩

private theorem Keep.sub {K K' : List Id} {s s' : St} (h : Keep K' s s') (f : ∀ a, a ∈ K → a ∈ K') : Keep K s s' := ⟨h.1, fun a ha => h.2 a (f a ha)⟩

/-- A change of the contents, seen by the user if it is a variable of the user. -/
private def updId (V : Vals) (a : Id) (x : Option Nat) : Vals :=
  match a with
  | .var a => upd V a x
  | .tmp _ => V

/-- The contents after a change of one any. -/
private theorem view_change {s s' : St} {D : List Id} {a : Id} {x : Option Nat} (ha : a ∉ D) (h : (s'.any a).vt = x)
    (ho : ∀ c, c ≠ a → (s'.any c).vt = (s.any c).vt) : s'.view D = updId (s.view D) a x := by
  funext c
  unfold updId
  cases a with
  | tmp n => unfold St.view; rw [ho (.var c) (by simp)]
  | var a =>
    by_cases hc : c = a
    · subst hc; simp only [upd, if_true]; rw [view_not ha, h]
    · simp only [upd, if_neg hc]; unfold St.view; rw [ho (.var c) (by simp [hc])]

private theorem view_same {s s' : St} {D : List Id} (h : ∀ c, (s'.any c).vt = (s.any c).vt) : s'.view D = s.view D := by
  funext c; simp only [St.view, h]

/-- The lists of the specification, and those of the state. -/
private structure Lists (bld dy src : List Nat) (B D H K : List Id) (m : Nat) : Prop where
  b : ∀ a, .var a ∈ B ↔ a ∈ bld
  d : ∀ a, .var a ∈ D ↔ a ∈ dy
  k : ∀ a, .var a ∈ K → (a ∈ bld ∨ a ∈ dy) ∨ a ∈ src
  subB : ∀ a, a ∈ B → a ∈ K
  subD : ∀ a, a ∈ D → a ∈ K
  subH : ∀ a, a ∈ H → a ∈ K
  subS : ∀ a, a ∈ src → .var a ∈ K
  fresh : ∀ n, m ≤ n → .tmp n ∉ K

private theorem Lists.mono {bld dy src B D H K m m'} (h : Lists bld dy src B D H K m) (hm : m ≤ m') : Lists bld dy src B D H K m' :=
  { h with fresh := fun n hn => h.fresh n (Nat.le_trans hm hn) }

private theorem Lists.notB {bld dy src B D H K m a} (h : Lists bld dy src B D H K m) (ha : a ∉ bld) : .var a ∉ B := fun hb => ha ((h.b a).1 hb)
private theorem Lists.notD {bld dy src B D H K m a} (h : Lists bld dy src B D H K m) (ha : a ∉ dy) : .var a ∉ D := fun hb => ha ((h.d a).1 hb)
private theorem Lists.notK {bld dy src B D H K m a} (h : Lists bld dy src B D H K m) (ha : (a ∉ bld ∧ a ∉ dy) ∧ a ∉ src) : .var a ∉ K := fun hk => by
  rcases h.k a hk with (h | h) | h
  · exact ha.1.1 h
  · exact ha.1.2 h
  · exact ha.2 h

private theorem Lists.build {bld dy src B D H K m a} (h : Lists bld dy src B D H K m) : Lists (a :: bld) dy src (.var a :: B) D H (.var a :: K) m where
  b c := by simp [h.b c]
  d := h.d
  k c hc := by
    rcases List.mem_cons.1 hc with e | hc
    · cases e; simp
    · rcases h.k c hc with (h | h) | h <;> simp [h]
  subB c hc := by rcases List.mem_cons.1 hc with rfl | hc <;> simp [h.subB, *]
  subD c hc := List.mem_cons_of_mem _ (h.subD c hc)
  subH c hc := List.mem_cons_of_mem _ (h.subH c hc)
  subS c hc := List.mem_cons_of_mem _ (h.subS c hc)
  fresh c hc := by simp [h.fresh c hc]

private theorem Lists.destroy {bld dy src B D H K m a} (h : Lists bld dy src B D H K m) : Lists bld (a :: dy) src B (.var a :: D) H (.var a :: K) m where
  b := h.b
  d c := by simp [h.d c]
  k c hc := by
    rcases List.mem_cons.1 hc with e | hc
    · cases e; simp
    · rcases h.k c hc with (h | h) | h <;> simp [h]
  subB c hc := List.mem_cons_of_mem _ (h.subB c hc)
  subD c hc := by rcases List.mem_cons.1 hc with rfl | hc <;> simp [h.subD, *]
  subH c hc := List.mem_cons_of_mem _ (h.subH c hc)
  subS c hc := List.mem_cons_of_mem _ (h.subS c hc)
  fresh c hc := by simp [h.fresh c hc]

/-- While a local variable holds a copy. -/
private theorem Lists.hold {bld dy src B D H K m} (h : Lists bld dy src B D H K m) : Lists bld dy src B D (.tmp m :: H) (.tmp m :: K) (m + 1) where
  b := h.b
  d := h.d
  k c hc := h.k c ((List.mem_cons.1 hc).resolve_left (by simp))
  subB c hc := List.mem_cons_of_mem _ (h.subB c hc)
  subD c hc := List.mem_cons_of_mem _ (h.subD c hc)
  subH c hc := by rcases List.mem_cons.1 hc with rfl | hc <;> simp [h.subH, *]
  subS c hc := List.mem_cons_of_mem _ (h.subS c hc)
  fresh c hc := by
    simp only [List.mem_cons, not_or, Id.tmp.injEq]
    exact ⟨fun e => by subst e; exact absurd hc (Nat.not_succ_le_self _), h.fresh c (Nat.le_of_succ_le hc)⟩

/-- While the value of `a` is copied to it. -/
private theorem Lists.copy {bld dy src B D H K m a} (h : Lists bld dy src B D H K m) :
    Lists bld dy (a :: src) (.tmp m :: B) D (.tmp m :: H) (.tmp m :: .var a :: K) (m + 1) where
  b c := by simp [h.b c]
  d := h.d
  k c hc := by
    simp only [List.mem_cons, reduceCtorEq, false_or, Id.var.injEq] at hc
    rcases hc with e | hc
    · cases e; simp
    · rcases h.k c hc with (h | h) | h <;> simp [h]
  subB c hc := by rcases List.mem_cons.1 hc with rfl | hc <;> simp [h.subB, *]
  subD c hc := by simp [h.subD c hc]
  subH c hc := by rcases List.mem_cons.1 hc with rfl | hc <;> simp [h.subH, *]
  subS c hc := by rcases List.mem_cons.1 hc with rfl | hc <;> simp [h.subS, *]
  fresh c hc := by
    simp only [List.mem_cons, not_or, Id.tmp.injEq]
    exact ⟨fun e => by subst e; exact absurd hc (Nat.not_succ_le_self _), (by simp), h.fresh c (Nat.le_of_succ_le hc)⟩

private theorem upd_same {κ α : Type} [DecidableEq κ] (f : κ → α) (a : κ) (x : α) : upd f a x a = x := if_pos rfl
private theorem upd_other {κ α : Type} [DecidableEq κ] (f : κ → α) {a b : κ} (x : α) (h : b ≠ a) : upd f a x b = f b := if_neg h

private theorem release_good {B D H K : List Id} {s : St} {a : Id} (hg : Good B D H s) (ha : a ∉ B) (ha' : a ∉ D) (hH : Named H a) (hK : a ∉ K) (hv : (s.any a).vt = none)
    (hm : (s.any a).ptr ≠ .data a) :
    ∃ s', release a (s.any a).size s = some s' ∧ Good B D H s' ∧ Keep K s s' ∧ s'.view D = s.view D ∧
      (s'.any a).ptr = .data a ∧ (s'.any a).vt = none ∧ s'.obj (s'.any a).ptr = none := by
  rcases hg.own a with h | ⟨b, hb, hlt, hf, hz⟩
  · exact absurd h hm
  have h0 := hg.has a ha ha'
  rw [hv, hb] at h0
  have h0 : s.obj (.blk b) = none := h0
  have hd : s.obj (.data a) = none := by
    cases h : s.obj (.data a) with
    | none => rfl
    | some x =>
      obtain ⟨c, hc⟩ := hg.cov (.data a) (by simp [h])
      rcases hg.own c with h' | ⟨b', h', _⟩
      · rw [hc] at h'; cases h'; exact absurd hc hm
      · rw [hc] at h'; cases h'
  unfold release
  simp only [hb, hf, h0, hz, and_self, if_true]
  have hne : ∀ c, c ≠ a → (s.any c).ptr ≠ (.blk b) := fun c hc e => hc (hg.inj c a (e.trans hb.symm))
  have hnd : ∀ c, c ≠ a → (s.any c).ptr ≠ .data a := fun c hc e => by
    rcases hg.own c with h' | ⟨b', h', _⟩
    · rw [e] at h'; cases h'; exact hc rfl
    · rw [e] at h'; cases h'
  refine ⟨_, rfl, ⟨fun c => ?_, fun c d h => ?_, fun l hl => ?_, fun c hc hc' => ?_, fun c hc => ?_, fun c hc => ?_, fun c hc => ?_, fun c hc hf => ?_, fun n b d hnh => ?_⟩, ⟨Nat.le_refl _, fun c hc => ?_⟩, ?_, ?_, ?_, ?_⟩
  · by_cases h : c = a
    · subst h; simp [upd_same]
    · simp only [upd_other _ _ h]
      rcases hg.own c with h' | ⟨b', h', h1, h2, h3⟩
      · exact Or.inl h'
      · refine Or.inr ⟨b', h', h1, ?_, h3⟩
        rw [upd_other _ _ (by rintro rfl; exact hne c h h')]; exact h2
  · by_cases h1 : c = a <;> by_cases h2 : d = a
    · rw [h1, h2]
    · subst h1; simp only [upd_same, upd_other _ _ h2] at h; exact absurd h.symm (hnd d h2)
    · subst h2; simp only [upd_same, upd_other _ _ h1] at h; exact absurd h (hnd c h1)
    · simp only [upd_other _ _ h1, upd_other _ _ h2] at h; exact hg.inj c d h
  · obtain ⟨c, hc⟩ := hg.cov l hl
    refine ⟨c, ?_⟩
    by_cases h : c = a
    · subst h; rw [hb] at hc; subst hc; exact absurd h0 hl
    · simp only [upd_other _ _ h]; exact hc
  · by_cases h : c = a
    · subst h; simp [upd_same, hd, hv]
    · simp only [upd_other _ _ h]; exact hg.has c hc hc'
  · have h : c ≠ a := fun e => ha (e ▸ hc)
    simp only [upd_other _ _ h]; exact hg.emp c hc
  · have h : c ≠ a := fun e => ha' (e ▸ hc)
    simp only [upd_other _ _ h]; exact hg.die c hc
  · simp only [upd_other _ _ (show c ≠ b by rintro rfl; exact absurd hlt (Nat.not_lt.2 hc))]; exact hg.new c hc
  · have hcb : c ≠ b := fun e => by subst e; simp [upd_same] at hf
    simp only [upd_other _ _ hcb] at hf
    obtain ⟨d, hdc⟩ := hg.leak c hc hf
    have h : d ≠ a := fun e => by subst e; rw [hb] at hdc; cases hdc; exact hcb rfl
    exact ⟨d, by simp only [upd_other _ _ h]; exact hdc⟩
  · by_cases e : .tmp n = a
    · subst e; exact absurd (hH n rfl) hnh
    · simp only [upd_other _ _ e]; exact hg.tmp n b d hnh
  · have h : c ≠ a := fun e => hK (e ▸ hc)
    simp only [upd_other _ _ h, and_self]
  · refine view_same fun c => ?_
    by_cases h : c = a
    · subst h; simp [upd_same]
    · simp [upd_other _ _ h]
  · simp [upd_same]
  · simp [upd_same, hv]
  · simp [upd_same, hd]

private theorem dealloc_good {B D H K : List Id} {s : St} {a : Id} (hg : Good B D H s) (ha : a ∉ B) (ha' : a ∉ D) (hH : Named H a) (hK : a ∉ K) (hv : (s.any a).vt = none)
    (hm : (s.any a).ptr ≠ .data a) :
    ∃ s', deallocate a s = .ok s' ∧ Good B D H s' ∧ Keep K s s' ∧ s'.view D = s.view D ∧
      (s'.any a).ptr = .data a ∧ (s'.any a).vt = none ∧ s'.obj (s'.any a).ptr = none := by
  obtain ⟨s', h, h'⟩ := release_good hg ha ha' hH hK hv hm
  exact ⟨s', by unfold deallocate; rw [if_pos hv, h], h'⟩

/-- The program ends as it should. -/
private def Ends (o : Out) (y : Fin) (P : St → Prop) : Prop :=
  match y.how with
  | .returned => ∃ s', o = .ok s' ∧ P s'
  | .threw => ∃ s', o = .exn s' ∧ P s'
  | .terminated => o = .term

private theorem Ends.mono {o : Out} {y : Fin} {P Q : St → Prop} (h : Ends o y P) (f : ∀ s, P s → Q s) : Ends o y Q := by
  unfold Ends at *
  cases hy : y.how <;> rw [hy] at h <;> simp only at h ⊢
  · obtain ⟨s, h, h'⟩ := h; exact ⟨s, h, f s h'⟩
  · obtain ⟨s, h, h'⟩ := h; exact ⟨s, h, f s h'⟩
  · exact h

private def Sim (T : Nat → Ty) (n : Nat) : Prop :=
  ∀ p bld dy src B D H K s y, Good B D H s → Lists bld dy src B D H K s.tmps → spec T n p bld dy src (s.view D) = some y → y.touched = false →
    Ends (run T n p s) y fun s' => Good B D H s' ∧ Keep K s s' ∧ s'.view D = y.vals

private theorem empty_how {T rec dy a s y} (h : empty T rec dy a s = some y) : y.how ≠ .threw := by
  unfold empty at h
  cases hs : s a <;> rw [hs] at h
  · cases h; simp
  · simp only [Option.map_eq_some_iff] at h
    obtain ⟨x, _, rfl⟩ := h
    cases x.how <;> simp

/-- `destroy_value`. -/
private theorem destroy_good {T : Nat → Ty} {n : Nat} {B D H K : List Id} {s : St} {bld dy src : List Nat} {a : Nat} {i : Id} {y : Fin} (hi : i = .var a) (ih : Sim T n) (hg : Good B D H s) (L : Lists bld dy src B D H K s.tmps)
    (ha : i ∉ B) (ha' : i ∉ D) (hK : i ∉ K) (h : empty T (fun p dy => spec T n p bld dy src) dy a (s.view D) = some y) (ht : y.touched = false) :
    Ends (destroyValue T (run T n) i s) y fun s' => Good B D H s' ∧ Keep K s s' ∧ s'.view D = y.vals ∧
      (s'.any i).ptr = (s.any i).ptr ∧ (s'.any i).size = (s.any i).size ∧ (s'.any i).vt = none ∧ s'.obj (s'.any i).ptr = none := by
  unfold destroyValue
  unfold empty at h
  have h0 := hg.has i ha ha'
  rw [view_not (by rw [← hi]; exact ha'), ← hi] at h
  cases hv : (s.any i).vt with
  | none =>
    rw [hv] at h0 h
    simp only [Option.some.injEq] at h
    subst h
    exact ⟨s, rfl, hg, Keep.refl _ _, rfl, rfl, rfl, hv, h0⟩
  | some v =>
    rw [hv] at h0 h
    have h0 : s.obj (s.any i).ptr = some (v, .alive) := h0
    simp only [Option.map_eq_some_iff] at h
    obtain ⟨x, hx, rfl⟩ := h
    simp only [h0, if_true]
    have hne : ∀ c, c ≠ i → (s.any c).ptr ≠ (s.any i).ptr := fun c hc e => hc (hg.inj c i e)
    have g0 : Good B (i :: D) H { s with obj := upd s.obj (s.any i).ptr (some (v, .dying)) } := by
      refine ⟨hg.own, hg.inj, fun l hl => ?_, fun c hc hc' => ?_, fun c hc => ?_, fun c hc => ?_, hg.new, hg.leak, fun n b d hnh => hg.tmp n b (fun hd => d (List.mem_cons_of_mem _ hd)) hnh⟩
      · by_cases h : l = (s.any i).ptr
        · exact ⟨i, h.symm⟩
        · simp only [upd_other _ _ h] at hl; exact hg.cov l hl
      · simp only [List.mem_cons, not_or] at hc'
        simp only [upd_other _ _ (hne c hc'.1)]; exact hg.has c hc hc'.2
      · have h : c ≠ i := fun e => ha (e ▸ hc)
        simp only [upd_other _ _ (hne c h)]; exact hg.emp c hc
      · by_cases h : c = i
        · subst h; exact ⟨v, hv, by simp [upd_same]⟩
        · simp only [upd_other _ _ (hne c h)]
          exact hg.die c ((List.mem_cons.1 hc).resolve_left h)
    have hvw : St.view { s with obj := upd s.obj (s.any i).ptr (some (v, .dying)) } (i :: D) = upd (s.view D) a none := by
      funext c
      subst hi
      by_cases h : c = a
      · subst h; simp [St.view, upd_same]
      · rw [upd_other _ _ h]; simp [St.view, h]
    rw [← hvw] at hx
    have H := ih _ _ _ _ _ _ _ _ _ _ g0 (by rw [hi]; exact L.destroy) hx ht
    unfold Ends at H ⊢
    cases hy : x.how with
    | terminated => rw [hy] at H; simp only at H ⊢; rw [H]
    | threw => rw [hy] at H; obtain ⟨s1, h1, _⟩ := H; simp only [h1]
    | returned =>
      rw [hy] at H
      obtain ⟨s1, h1, g1, k1, v1⟩ := H
      obtain ⟨p1, o1, z1, e1⟩ := k1.2 i (by rw [hi]; exact List.mem_cons_self ..)
      have o1 : s1.obj (s.any i).ptr = some (v, .dying) := by rw [o1]; simp [upd_same]
      have p1 : (s1.any i).ptr = (s.any i).ptr := p1
      have z1 : (s1.any i).size = (s.any i).size := z1
      simp only [h1, o1, if_true]
      have hp : ∀ c, (upd s1.any i { s1.any i with vt := none } c).ptr = (s1.any c).ptr := fun c => by
        by_cases hc : c = i
        · subst hc; rw [upd_same]
        · rw [upd_other _ _ hc]
      have hz : ∀ c, (upd s1.any i { s1.any i with vt := none } c).size = (s1.any c).size := fun c => by
        by_cases hc : c = i
        · subst hc; rw [upd_same]
        · rw [upd_other _ _ hc]
      have hne1 : ∀ c, c ≠ i → (s1.any c).ptr ≠ (s.any i).ptr := fun c hc e => hc (g1.inj c i (e.trans p1.symm))
      refine ⟨_, rfl, ⟨fun c => ?_, fun c d h => ?_, fun l hl => ?_, fun c hc hc' => ?_, fun c hc => ?_, fun c hc => ?_, g1.new, fun b => ?_, fun n b d hnh => ?_⟩, ⟨k1.1, fun c hc => ?_⟩,
        ?_, (hp i).trans p1, (hz i).trans z1, by simp [upd_same], ?_⟩
      · simp only [hp, hz]; exact g1.own c
      · simp only [hp] at h; exact g1.inj c d h
      · simp only [hp]
        by_cases h : l = (s.any i).ptr
        · exact ⟨i, p1.trans h.symm⟩
        · simp only [upd_other _ _ h] at hl; exact g1.cov l hl
      · simp only [hp]
        by_cases h : c = i
        · subst h; simp [upd_same, p1]
        · simp only [upd_other _ _ h, upd_other _ _ (hne1 c h)]; exact g1.has c hc (by simp [h, hc'])
      · have h : c ≠ i := fun e => ha (e ▸ hc)
        simp only [upd_other _ _ h, upd_other _ _ (hne1 c h)]; exact g1.emp c hc
      · have h : c ≠ i := fun e => ha' (e ▸ hc)
        simp only [upd_other _ _ h, upd_other _ _ (hne1 c h)]; exact g1.die c (List.mem_cons_of_mem _ hc)
      · simp only [hp]; exact g1.leak b
      · have e : Id.tmp n ≠ i := by rw [hi]; simp
        simp only [upd_other _ _ e]; exact g1.tmp n b (by simp [e, d]) hnh
      · have h : c ≠ i := fun e => hK (e ▸ hc)
        obtain ⟨h1, h2, h3, h4⟩ := k1.2 c (List.mem_cons_of_mem _ hc)
        simp only [upd_other _ _ (hne c h)] at h2
        simp only [upd_other _ _ h, upd_other _ _ (hne c h)]
        exact ⟨h1, h2, h3, h4⟩
      · rw [← v1]
        funext c
        subst hi
        by_cases h : c = a
        · subst h; rw [upd_same, view_not ha']; simp [upd_same]
        · have h' : Id.var c ≠ .var a := by simp [h]
          rw [upd_other _ _ h]; simp [St.view, upd_other _ _ h', h]
      · simp only [p1, upd_same]

private theorem reset_good {T : Nat → Ty} {n : Nat} {B D H K : List Id} {s : St} {bld dy src : List Nat} {a : Nat} {i : Id} {y : Fin} (hi : i = .var a) (ih : Sim T n) (hg : Good B D H s) (L : Lists bld dy src B D H K s.tmps)
    (ha : i ∉ B) (ha' : i ∉ D) (hK : i ∉ K) (h : empty T (fun p dy => spec T n p bld dy src) dy a (s.view D) = some y) (ht : y.touched = false) :
    Ends (reset T (run T n) i s) y fun s' => Good B D H s' ∧ Keep K s s' ∧ s'.view D = y.vals ∧
      (s'.any i).ptr = .data i ∧ (s'.any i).vt = none ∧ s'.obj (.data i) = none := by
  have H := destroy_good hi ih hg L ha ha' hK h ht
  unfold reset
  unfold Ends at H ⊢
  cases hy : y.how with
  | terminated => rw [hy] at H; simp only at H ⊢; rw [H]; rfl
  | threw => rw [hy] at H; simp only at H ⊢; exact absurd hy (empty_how h)
  | returned =>
    rw [hy] at H
    obtain ⟨s1, h1, g1, k1, v1, _, _, e1, o1⟩ := H
    rw [h1]
    simp only [Out.bind]
    by_cases hp : (s1.any i).ptr = .data i
    · rw [if_neg (by simp [hp])]
      exact ⟨s1, rfl, g1, k1, v1, hp, e1, by rw [hp] at o1; exact o1⟩
    · rw [if_pos hp]
      obtain ⟨s2, h2, g2, k2, v2, p2, e2, o2⟩ := dealloc_good g1 ha ha' (by rw [hi]; exact named_var _ _) hK e1 hp
      exact ⟨s2, h2, g2, k1.trans k2, v2.trans v1, p2, e2, by rw [p2] at o2; exact o2⟩

/-- How a constructor ends, called for the any `a`. -/
private def Built (nothrow : Bool) (a : Id) (v : Nat) (B D H K : List Id) (s : St) (y : Fin) (o : Out) (P Q : St → Prop) : Prop :=
  match y.how, nothrow with
  | .returned, _ => ∃ s', o = .ok s' ∧ Good B D H s' ∧ Keep K s s' ∧ s'.view D = updId y.vals a (some v) ∧ Q s'
  | .threw, false => ∃ s', o = .exn s' ∧ Good B D H s' ∧ Keep K s s' ∧ s'.view D = updId y.vals a none ∧ P s'
  | .threw, true => o = .term
  | .terminated, _ => o = .term

private theorem Built.mono {nothrow a v B D H K s s0 y o} {P P' Q Q' : St → Prop} (h : Built nothrow a v B D H K s y o P Q) (k : Keep K s0 s) (f : ∀ s, P s → P' s)
    (g : ∀ s, Q s → Q' s) : Built nothrow a v B D H K s0 y o P' Q' := by
  unfold Built at *
  cases hy : y.how <;> cases nothrow <;> rw [hy] at h <;> simp only at h ⊢
  · obtain ⟨s', h1, h2, h3, h4, h5⟩ := h; exact ⟨s', h1, h2, k.trans h3, h4, g _ h5⟩
  · obtain ⟨s', h1, h2, h3, h4, h5⟩ := h; exact ⟨s', h1, h2, k.trans h3, h4, g _ h5⟩
  · obtain ⟨s', h1, h2, h3, h4, h5⟩ := h; exact ⟨s', h1, h2, k.trans h3, h4, f _ h5⟩
  all_goals exact h

/-- The constructor does what it should, whenever it is called with these contents. -/
private def Runs (r : St → Out) (y : Fin) (B D H K : List Id) (V : Vals) (m : Nat) : Prop :=
  ∀ s, Good B D H s → s.view D = V → m ≤ s.tmps → Ends (r s) y fun s' => Good B D H s' ∧ Keep K s s' ∧ s'.view D = y.vals

private theorem runs {T n p bld dy src B D H K m V y} (ih : Sim T n) (L : Lists bld dy src B D H K m) (h : spec T n p bld dy src V = some y)
    (ht : y.touched = false) : Runs (run T n p) y B D H K V m := fun _ hg hv hm => ih _ _ _ _ _ _ _ _ _ _ hg (L.mono hm) (by rw [hv]; exact h) ht

private theorem construct_good {T : Nat → Ty} {rn : Prog → St → Out} {nothrow : Bool} {p : Prog} {vt : St → Option Nat} {B D H K K' : List Id} {s : St} {a : Id} {v : Nat} {y : Fin} (hg : Good B D H s) (ha : a ∉ B) (ha' : a ∉ D)
    (hH : Named H a) (hK : a ∉ K) (hKK : ∀ c, c ∈ K → c ∈ K') (hK' : a ∈ K') (hvt : ∀ s1, (∀ c, c ∈ K' → c ≠ a → (s1.any c).vt = (s.any c).vt) → vt s1 = some v)
    (hv : (s.any a).vt = none) (ho : s.obj (s.any a).ptr = none) (hr : if (s.any a).ptr = .data a then (T v).small = true else (T v).size ≤ (s.any a).size)
    (h : Runs (rn p) y (a :: B) D H K' (s.view D) s.tmps) :
    Built nothrow a v B D H K s y (construct T rn nothrow p vt a v s)
      (fun s' => (s'.any a).ptr = (s.any a).ptr ∧ (s'.any a).size = (s.any a).size ∧ (s'.any a).vt = none)
      fun s' => ((s'.any a).ptr = (s.any a).ptr ∧ (s'.any a).size = (s.any a).size) ∧ (s'.any a).vt = some v := by
  have hne : ∀ c, c ≠ a → (s.any c).ptr ≠ (s.any a).ptr := fun c hc e => hc (hg.inj c a e)
  have g0 : Good (a :: B) D H { s with obj := upd s.obj (s.any a).ptr (some (v, .building)) } := by
    refine ⟨hg.own, hg.inj, fun l hl => ?_, fun c hc hc' => ?_, fun c hc => ?_, fun c hc => ?_, hg.new, hg.leak, fun n b d hnh => hg.tmp n (fun hd => b (List.mem_cons_of_mem _ hd)) d hnh⟩
    · by_cases h : l = (s.any a).ptr
      · exact ⟨a, h.symm⟩
      · simp only [upd_other _ _ h] at hl; exact hg.cov l hl
    · simp only [List.mem_cons, not_or] at hc
      simp only [upd_other _ _ (hne c hc.1)]; exact hg.has c hc.2 hc'
    · by_cases h : c = a
      · subst h; exact ⟨hv, v, by simp [upd_same]⟩
      · simp only [upd_other _ _ (hne c h)]
        exact hg.emp c ((List.mem_cons.1 hc).resolve_left h)
    · have h : c ≠ a := fun e => ha' (e ▸ hc)
      simp only [upd_other _ _ (hne c h)]; exact hg.die c hc
  have h0 := h _ g0 rfl (Nat.le_refl _)
  unfold construct
  simp only
  rw [if_pos ⟨ho, hr⟩]
  unfold Ends at h0
  unfold Built
  cases hy : y.how with
  | terminated => rw [hy] at h0; simp only at h0; rw [h0]
  | returned =>
    rw [hy] at h0
    obtain ⟨s1, h1, g1, k1, v1⟩ := h0
    obtain ⟨p1, o1, z1, _⟩ := k1.2 a hK'
    have o1 : s1.obj (s.any a).ptr = some (v, .building) := by rw [o1]; simp [upd_same]
    have p1 : (s1.any a).ptr = (s.any a).ptr := p1
    have hvt1 : vt s1 = some v := hvt s1 fun c hc _ => (k1.2 c hc).2.2.2
    simp only [h1, p1, o1, hvt1, and_self, if_true]
    have hp : ∀ c, (upd s1.any a ⟨some v, (s.any a).ptr, (s1.any a).size⟩ c).ptr = (s1.any c).ptr := fun c => by
      by_cases hc : c = a
      · subst hc; rw [upd_same]; exact p1.symm
      · rw [upd_other _ _ hc]
    have hz : ∀ c, (upd s1.any a ⟨some v, (s.any a).ptr, (s1.any a).size⟩ c).size = (s1.any c).size := fun c => by
      by_cases hc : c = a
      · subst hc; rw [upd_same]
      · rw [upd_other _ _ hc]
    have hne1 : ∀ c, c ≠ a → (s1.any c).ptr ≠ (s.any a).ptr := fun c hc e => hc (g1.inj c a (e.trans p1.symm))
    refine ⟨_, rfl, ⟨fun c => ?_, fun c d h => ?_, fun l hl => ?_, fun c hc hc' => ?_, fun c hc => ?_, fun c hc => ?_, g1.new, fun b => ?_, fun n b d hnh => ?_⟩, ⟨k1.1, fun c hc => ?_⟩, ?_, ⟨(hp a).trans p1, (hz a).trans z1⟩, by simp only [upd_same]⟩
    · simp only [hp, hz]; exact g1.own c
    · simp only [hp] at h; exact g1.inj c d h
    · simp only [hp]
      by_cases h : l = (s.any a).ptr
      · exact ⟨a, p1.trans h.symm⟩
      · simp only [upd_other _ _ h] at hl; exact g1.cov l hl
    · simp only [hp]
      by_cases h : c = a
      · subst h; simp [upd_same, p1]
      · simp only [upd_other _ _ h, upd_other _ _ (hne1 c h)]; exact g1.has c (by simp [h, hc]) hc'
    · have h : c ≠ a := fun e => ha (e ▸ hc)
      simp only [upd_other _ _ h, upd_other _ _ (hne1 c h)]; exact g1.emp c (List.mem_cons_of_mem _ hc)
    · have h : c ≠ a := fun e => ha' (e ▸ hc)
      simp only [upd_other _ _ h, upd_other _ _ (hne1 c h)]; exact g1.die c hc
    · simp only [hp]; exact g1.leak b
    · by_cases e : .tmp n = a
      · subst e; exact absurd (hH n rfl) hnh
      · simp only [upd_other _ _ e]; exact g1.tmp n (by simp [e, b]) d hnh
    · have h : c ≠ a := fun e => hK (e ▸ hc)
      obtain ⟨h1, h2, h3, h4⟩ := k1.2 c (hKK c hc)
      simp only [upd_other _ _ (hne c h)] at h2
      simp only [upd_other _ _ h, upd_other _ _ (hne c h)]
      exact ⟨h1, h2, h3, h4⟩
    · rw [← v1]
      exact view_change ha' (by simp [upd_same]) fun c h => by simp [upd_other _ _ h]
  | threw =>
    rw [hy] at h0
    obtain ⟨s1, h1, g1, k1, v1⟩ := h0
    obtain ⟨p1, o1, z1, _⟩ := k1.2 a hK'
    have o1 : s1.obj (s.any a).ptr = some (v, .building) := by rw [o1]; simp [upd_same]
    have p1 : (s1.any a).ptr = (s.any a).ptr := p1
    have e1 := (g1.emp a (List.mem_cons_self ..)).1
    cases nothrow with
    | true => simp only [h1, if_true]
    | false =>
    simp only [h1, o1, if_true, Bool.false_eq_true, if_false]
    have hne1 : ∀ c, c ≠ a → (s1.any c).ptr ≠ (s.any a).ptr := fun c hc e => hc (g1.inj c a (e.trans p1.symm))
    refine ⟨_, rfl, ⟨g1.own, g1.inj, fun l hl => ?_, fun c hc hc' => ?_, fun c hc => ?_, fun c hc => ?_, g1.new, g1.leak, fun n b d hnh => ?_⟩, ⟨k1.1, fun c hc => ?_⟩, ?_, p1, z1, e1⟩
    · by_cases h : l = (s.any a).ptr
      · exact ⟨a, p1.trans h.symm⟩
      · simp only [upd_other _ _ h] at hl; exact g1.cov l hl
    · by_cases h : c = a
      · subst h; simp [upd_same, p1, e1]
      · simp only [upd_other _ _ (hne1 c h)]; exact g1.has c (by simp [h, hc]) hc'
    · have h : c ≠ a := fun e => ha (e ▸ hc)
      simp only [upd_other _ _ (hne1 c h)]; exact g1.emp c (List.mem_cons_of_mem _ hc)
    · have h : c ≠ a := fun e => ha' (e ▸ hc)
      simp only [upd_other _ _ (hne1 c h)]; exact g1.die c hc
    · by_cases e : .tmp n = a
      · subst e; exact absurd (hH n rfl) hnh
      · exact g1.tmp n (by simp [e, b]) d hnh
    · have h : c ≠ a := fun e => hK (e ▸ hc)
      obtain ⟨h1, h2, h3, h4⟩ := k1.2 c (hKK c hc)
      simp only [upd_other _ _ (hne c h)] at h2
      simp only [upd_other _ _ (hne c h)]
      exact ⟨h1, h2, h3, h4⟩
    · rw [← v1]
      exact view_change ha' e1 fun c h => rfl

private theorem inEmpty_good {T : Nat → Ty} {rn : Prog → St → Out} {nothrow : Bool} {p : Prog} {vt : St → Option Nat} {B D H K K' : List Id} {s : St} {a : Id} {v : Nat} {y : Fin} (hg : Good B D H s) (ha : a ∉ B) (ha' : a ∉ D)
    (hH : Named H a) (hK : a ∉ K) (hKK : ∀ c, c ∈ K → c ∈ K') (hK' : a ∈ K') (hvt : ∀ s1, (∀ c, c ∈ K' → c ≠ a → (s1.any c).vt = (s.any c).vt) → vt s1 = some v)
    (hv : (s.any a).vt = none) (hp : (s.any a).ptr = .data a) (ho : s.obj (.data a) = none) (h : Runs (rn p) y (a :: B) D H K' (s.view D) s.tmps) :
    Built nothrow a v B D H K s y (inEmpty T rn nothrow p vt a v s) (fun s' => (s'.any a).ptr = .data a ∧ (s'.any a).vt = none)
      fun s' => (((s'.any a).ptr = .data a ↔ (T v).small = true) ∧ ((s'.any a).ptr ≠ .data a → (s'.any a).size = (T v).size)) ∧ (s'.any a).vt = some v := by
  unfold inEmpty
  cases hs : (T v).small with
  | true =>
    simp only [if_true]
    exact (construct_good hg ha ha' hH hK hKK hK' hvt hv (by rw [hp]; exact ho) (by rw [if_pos hp]; exact hs) h).mono (Keep.refl _ _) (fun _ h => ⟨h.1.trans hp, h.2.2⟩)
      fun _ h => ⟨⟨⟨fun _ => trivial, fun _ => h.1.1.trans hp⟩, fun h' => absurd (h.1.1.trans hp) h'⟩, h.2⟩
  | false =>
    simp only [Bool.false_eq_true, if_false]
    have hfresh : s.obj (.blk s.next) = none := by
      cases e : s.obj (.blk s.next) with
      | none => rfl
      | some x =>
        obtain ⟨c, hc⟩ := hg.cov (.blk s.next) (by simp [e])
        rcases hg.own c with h' | ⟨b', h', hlt, _⟩
        · rw [hc] at h'; cases h'
        · rw [hc] at h'; cases h'; exact absurd hlt (Nat.lt_irrefl _)
    have hne : ∀ c, (s.any c).ptr ≠ .blk s.next := fun c e => by
      rcases hg.own c with h' | ⟨b', h', hlt, _⟩
      · rw [e] at h'; cases h'
      · rw [e] at h'; cases h'; exact absurd hlt (Nat.lt_irrefl _)
    generalize hs0 : ({ s with any := upd s.any a { s.any a with ptr := .blk s.next, size := (T v).size }, sizes := upd s.sizes s.next (T v).size, next := s.next + 1 } : St) = s0
    have hvals : s0.view D = s.view D := by
      subst hs0
      refine view_same fun c => ?_
      by_cases h : c = a
      · subst h; simp [upd_same]
      · simp [upd_other _ _ h]
    have g0 : Good B D H s0 := by
      subst hs0
      refine ⟨fun c => ?_, fun c d h => ?_, fun l hl => ?_, fun c hc hc' => ?_, fun c hc => ?_, fun c hc => ?_, fun b hb => hg.new b (Nat.le_of_succ_le hb), fun b hb hf => ?_, fun n b d hnh => ?_⟩
      · by_cases h : c = a
        · subst h
          simp only [upd_same]
          exact Or.inr ⟨s.next, rfl, Nat.lt_succ_self _, hg.new _ (Nat.le_refl _), upd_same ..⟩
        · simp only [upd_other _ _ h]
          rcases hg.own c with h' | ⟨b', h', h1, h2, h3⟩
          · exact Or.inl h'
          · exact Or.inr ⟨b', h', Nat.lt_succ_of_lt h1, h2, by rw [upd_other _ _ (Nat.ne_of_lt h1)]; exact h3⟩
      · by_cases h1 : c = a <;> by_cases h2 : d = a
        · rw [h1, h2]
        · subst h1; simp only [upd_same, upd_other _ _ h2] at h; exact absurd h.symm (hne d)
        · subst h2; simp only [upd_same, upd_other _ _ h1] at h; exact absurd h (hne c)
        · simp only [upd_other _ _ h1, upd_other _ _ h2] at h; exact hg.inj c d h
      · obtain ⟨c, hc⟩ := hg.cov l hl
        refine ⟨c, ?_⟩
        by_cases h : c = a
        · subst h; rw [hp] at hc; subst hc; exact absurd ho hl
        · simp only [upd_other _ _ h]; exact hc
      · by_cases h : c = a
        · subst h; simp [upd_same, hfresh, hv]
        · simp only [upd_other _ _ h]; exact hg.has c hc hc'
      · have h : c ≠ a := fun e => ha (e ▸ hc)
        simp only [upd_other _ _ h]; exact hg.emp c hc
      · have h : c ≠ a := fun e => ha' (e ▸ hc)
        simp only [upd_other _ _ h]; exact hg.die c hc
      · by_cases h : b = s.next
        · exact ⟨a, by simp [upd_same, h]⟩
        · obtain ⟨d, hd⟩ := hg.leak b (Nat.lt_of_le_of_ne (Nat.le_of_lt_succ hb) h) hf
          have hda : d ≠ a := fun e => by subst e; rw [hp] at hd; cases hd
          exact ⟨d, by simp only [upd_other _ _ hda]; exact hd⟩
      · by_cases e : .tmp n = a
        · subst e; exact absurd (hH n rfl) hnh
        · simp only [upd_other _ _ e]; exact hg.tmp n b d hnh
    have k0 : Keep K s s0 := by
      subst hs0
      refine ⟨Nat.le_refl _, fun c hc => ?_⟩
      have h : c ≠ a := fun e => hK (e ▸ hc)
      simp only [upd_other _ _ h, and_self]
    have hb0 : (s0.any a).ptr = .blk s.next ∧ (s0.any a).size = (T v).size ∧ (s0.any a).vt = none := by
      subst hs0; simp [upd_same, hv]
    have htm : s0.tmps = s.tmps := by subst hs0; rfl
    have hvt0 : ∀ s1, (∀ c, c ∈ K' → c ≠ a → (s1.any c).vt = (s0.any c).vt) → vt s1 = some v := fun s1 h1 => hvt s1 fun c hc hca => by
      rw [h1 c hc hca]; subst hs0; simp only [upd_other _ _ hca]
    have hf0 : s0.obj (.blk s.next) = none := by subst hs0; exact hfresh
    have B := construct_good (T := T) (nothrow := nothrow) (v := v) g0 ha ha' hH hK hKK hK' hvt0 hb0.2.2 (by rw [hb0.1]; exact hf0) (by rw [hb0.1]; simp [hb0.2.1]) (by rw [hvals, htm]; exact h)
    cases nothrow with
    | true =>
      simp only [if_true]
      have B := B.mono (P' := fun _ => True) (Q' := fun s' => ((s'.any a).ptr = .blk s.next ∧ (s'.any a).size = (T v).size) ∧ (s'.any a).vt = some v) k0 (fun _ _ => trivial) fun _ h => ⟨⟨h.1.1.trans hb0.1, h.1.2.trans hb0.2.1⟩, h.2⟩
      unfold Built at B ⊢
      cases hy : y.how <;> rw [hy] at B <;> simp only at B ⊢
      · obtain ⟨s', h1, h2, h3, h4, h5⟩ := B
        exact ⟨s', h1, h2, h3, h4, ⟨⟨fun h => (by rw [h5.1.1] at h; cases h), fun h => (by cases h)⟩, fun _ => h5.1.2⟩, h5.2⟩
      · exact B
      · exact B
    | false =>
      simp only [Bool.false_eq_true, if_false]
      have B := B.mono (Q' := fun s' => ((s'.any a).ptr = .blk s.next ∧ (s'.any a).size = (T v).size) ∧ (s'.any a).vt = some v) k0 (fun _ h => h) fun _ h => ⟨⟨h.1.1.trans hb0.1, h.1.2.trans hb0.2.1⟩, h.2⟩
      unfold Built at B ⊢
      cases hy : y.how <;> rw [hy] at B <;> simp only at B ⊢
      · obtain ⟨s', h1, h2, h3, h4, h5⟩ := B
        rw [h1]; exact ⟨s', rfl, h2, h3, h4, ⟨⟨fun h => (by rw [h5.1.1] at h; cases h), fun h => (by cases h)⟩, fun _ => h5.1.2⟩, h5.2⟩
      · obtain ⟨s', h1, g1, k1, v1, p1, z1, e1⟩ := B
        obtain ⟨s2, h2, g2, k2, v2, p2, e2, _⟩ := release_good g1 ha ha' hH hK e1 (by rw [p1, hb0.1]; simp)
        rw [z1, hb0.2.1] at h2
        rw [h1]
        simp only [Out.onExn, h2]
        exact ⟨s2, rfl, g2, k1.trans k2, v2.trans v1, p2, e2⟩
      · rw [B]; rfl

private theorem emplace_good {T : Nat → Ty} {n : Nat} {B D H K : List Id} {s : St} {bld dy src : List Nat} {a v : Nat} {x y : Fin} (ih : Sim T n)
    (hg : Good B D H s) (L : Lists bld dy src B D H K s.tmps) (ha : .var a ∉ B) (ha' : .var a ∉ D) (hK : .var a ∉ K)
    (he : empty T (fun p dy => spec T n p bld dy src) dy a (s.view D) = some x) (hx : x.touched = false) (hr : x.how = .returned)
    (h : spec T n (T v).ctor (a :: bld) dy src x.vals = some y) (ht : y.touched = false) :
    Built (T v).nothrow (.var a) v B D H K s y (emplace T (run T n) (.var a) v s)
      (fun s' => (s'.any (.var a)).ptr = if (s.any (.var a)).ptr ≠ .data (.var a) ∧ (T v).size ≤ (s.any (.var a)).size then (s.any (.var a)).ptr else .data (.var a))
      fun s' => if (s.any (.var a)).ptr ≠ .data (.var a) ∧ (T v).size ≤ (s.any (.var a)).size then (s'.any (.var a)).ptr = (s.any (.var a)).ptr ∧ (s'.any (.var a)).size = (s.any (.var a)).size
        else ((s'.any (.var a)).ptr = .data (.var a) ↔ (T v).small = true) ∧ ((s'.any (.var a)).ptr ≠ .data (.var a) → (s'.any (.var a)).size = (T v).size) := by
  have H' := destroy_good rfl ih hg L ha ha' hK he hx
  unfold Ends at H'
  rw [hr] at H'
  obtain ⟨s1, h1, g1, k1, v1, p1, z1, e1, o1⟩ := H'
  rw [← p1, ← z1]
  have R : Runs (run T n (T v).ctor) y (.var a :: B) D H (.var a :: K) x.vals s1.tmps := runs ih (L.build.mono k1.1) h ht
  have hKK : ∀ c, c ∈ K → c ∈ Id.var a :: K := fun c hc => List.mem_cons_of_mem _ hc
  unfold emplace
  rw [h1]
  simp only [Out.bind]
  by_cases hp : (s1.any (.var a)).ptr = .data (.var a)
  · rw [if_pos hp]
    exact (inEmpty_good (v := v) g1 ha ha' (named_var _ _) hK hKK (List.mem_cons_self ..) (fun _ _ => rfl) e1 hp (by rw [hp] at o1; exact o1) (by rw [v1]; exact R)).mono k1
      (fun _ h => by rw [if_neg (fun h' => h'.1 hp)]; exact h.1) fun _ h => by rw [if_neg (fun h' => h'.1 hp)]; exact h.1
  · rw [if_neg hp]
    by_cases hsz : (s1.any (.var a)).size < (T v).size
    · rw [if_pos hsz]
      obtain ⟨s2, h2, g2, k2, v2, p2, e2, o2⟩ := dealloc_good g1 ha ha' (named_var _ _) hK e1 hp
      rw [h2]
      exact (inEmpty_good (v := v) g2 ha ha' (named_var _ _) hK hKK (List.mem_cons_self ..) (fun _ _ => rfl) e2 p2 (by rw [p2] at o2; exact o2)
        (fun s hg hv hm => R s hg (hv.trans (v2.trans v1)) (Nat.le_trans k2.1 hm))).mono (k1.trans k2)
        (fun _ h => by rw [if_neg (fun h' => absurd hsz (Nat.not_lt.2 h'.2))]; exact h.1) fun _ h => by rw [if_neg (fun h' => absurd hsz (Nat.not_lt.2 h'.2))]; exact h.1
    · rw [if_neg hsz]
      exact (construct_good (v := v) g1 ha ha' (named_var _ _) hK hKK (List.mem_cons_self ..) (fun _ _ => rfl) e1 o1 (by rw [if_neg hp]; exact Nat.not_lt.1 hsz) (by rw [v1]; exact R)).mono k1
        (fun _ h => by rw [if_pos ⟨hp, Nat.not_lt.1 hsz⟩]; exact h.1) fun _ h => by rw [if_pos ⟨hp, Nat.not_lt.1 hsz⟩]; exact h.1

private theorem emplace_term {T : Nat → Ty} {n : Nat} {B D H K : List Id} {s : St} {bld dy src : List Nat} {a v : Nat} {x : Fin} (ih : Sim T n)
    (hg : Good B D H s) (L : Lists bld dy src B D H K s.tmps) (ha : .var a ∉ B) (ha' : .var a ∉ D) (hK : .var a ∉ K)
    (he : empty T (fun p dy => spec T n p bld dy src) dy a (s.view D) = some x) (hx : x.touched = false) (hr : x.how = .terminated) :
    emplace T (run T n) (.var a) v s = .term := by
  have H' := destroy_good rfl ih hg L ha ha' hK he hx
  unfold Ends at H'
  rw [hr] at H'
  unfold emplace
  rw [H']; rfl

/-- The contents after a change of two anys. -/
private theorem view_move {s s' : St} {D : List Id} {a b : Id} {x y : Option Nat} (hab : a ≠ b) (ha : a ∉ D) (hb : b ∉ D) (h : (s'.any a).vt = x)
    (h' : (s'.any b).vt = y) (ho : ∀ c, c ≠ a → c ≠ b → (s'.any c).vt = (s.any c).vt) : s'.view D = updId (updId (s.view D) b y) a x := by
  rw [← view_change (s := s) (s' := { s with any := upd s.any b { s.any b with vt := y } }) hb (by simp [upd_same]) fun c hc => by simp [upd_other _ _ hc]]
  refine view_change ha h fun c hc => ?_
  by_cases hcb : c = b
  · subst hcb; simp [upd_same, h']
  · simp only [upd_other _ _ hcb]; exact ho c hc hcb

private theorem moveFrom_good {B D H K : List Id} {s : St} {a b : Id} (hg : Good B D H s) (ha : a ∉ B) (ha' : a ∉ D) (hH : Named H a) (hK : a ∉ K) (hbd : b ∉ D)
    (hHb : Named H b) (hKb : b ∈ K → (s.any b).vt = none) (hab : a ≠ b)
    (hv : (s.any a).vt = none) (hp : (s.any a).ptr = .data a) (ho : s.obj (.data a) = none) :
    ∃ s', moveValueFrom a b s = .ok s' ∧ Good B D H s' ∧ Keep K s s' ∧ s'.view D = updId (updId (s.view D) b none) a (s.any b).vt ∧
      (s'.any b).vt = none ∧ ((s.any b).vt ≠ none → (s'.any b).ptr = .data b) := by
  unfold moveValueFrom
  rw [if_pos ⟨hv, hp⟩]
  have hba : b ≠ a := fun e => hab e.symm
  cases hb : (s.any b).vt with
  | none =>
    refine ⟨s, rfl, hg, Keep.refl _ _, ?_, hb, fun h => absurd rfl h⟩
    rw [← view_change (s := s) (s' := s) hbd hb fun _ _ => rfl]
    exact view_change ha' hv fun _ _ => rfl
  | some v =>
    have hbb : b ∉ B := fun h => by have := (hg.emp b h).1; rw [hb] at this; cases this
    have hob := hg.has b hbb hbd
    rw [hb] at hob
    have hob : s.obj (s.any b).ptr = some (v, .alive) := hob
    have hKb : b ∉ K := fun h => by have := hKb h; rw [hb] at this; cases this
    simp only
    by_cases hpb : (s.any b).ptr = .data b
    · rw [if_pos hpb]
      rw [hpb] at hob
      rw [if_pos ⟨hob, ho⟩]
      have hptr : ∀ c, (upd (upd s.any a { s.any a with vt := some v }) b { s.any b with vt := none } c).ptr = (s.any c).ptr := fun c => by
        by_cases h : c = b
        · subst h; rw [upd_same]
        · rw [upd_other _ _ h]
          by_cases h' : c = a
          · subst h'; rw [upd_same]
          · rw [upd_other _ _ h']
      have hne : ∀ c, c ≠ a → (s.any c).ptr ≠ .data a := fun c hc e => hc (hg.inj c a (e.trans hp.symm))
      have hne' : ∀ c, c ≠ b → (s.any c).ptr ≠ .data b := fun c hc e => hc (hg.inj c b (e.trans hpb.symm))
      have hsiz : ∀ c, (upd (upd s.any a { s.any a with vt := some v }) b { s.any b with vt := none } c).size = (s.any c).size := fun c => by
        by_cases h : c = b
        · subst h; rw [upd_same]
        · rw [upd_other _ _ h]
          by_cases h' : c = a
          · subst h'; rw [upd_same]
          · rw [upd_other _ _ h']
      refine ⟨_, rfl, ⟨fun c => ?_, fun c d h => ?_, fun l hl => ?_, fun c hc hc' => ?_, fun c hc => ?_, fun c hc => ?_, hg.new, fun k => ?_, fun n nb nd nh => ?_⟩, ⟨Nat.le_refl _, fun c hc => ?_⟩, ?_, by simp [upd_same], fun _ => (hptr b).trans hpb⟩
      · simp only [hptr, hsiz]; exact hg.own c
      · simp only [hptr] at h; exact hg.inj c d h
      · simp only [hptr]
        by_cases h : l = .data a
        · exact ⟨a, hp.trans h.symm⟩
        · simp only [upd_other _ _ h] at hl
          by_cases h' : l = .data b
          · exact ⟨b, hpb.trans h'.symm⟩
          · simp only [upd_other _ _ h'] at hl; exact hg.cov l hl
      · simp only [hptr]
        by_cases h : c = a
        · subst h
          rw [hp, upd_same, upd_other _ _ hab, upd_same]; rfl
        · rw [upd_other _ _ (hne c h)]
          by_cases h' : c = b
          · subst h'
            rw [hpb, upd_same, upd_same]; rfl
          · rw [upd_other _ _ (hne' c h'), upd_other _ _ h', upd_other _ _ h]; exact hg.has c hc hc'
      · have h : c ≠ a := fun e => ha (e ▸ hc)
        have h' : c ≠ b := fun e => hbb (e ▸ hc)
        simp only [upd_other _ _ (hne c h), upd_other _ _ (hne' c h'), upd_other _ _ h, upd_other _ _ h']; exact hg.emp c hc
      · have h : c ≠ a := fun e => ha' (e ▸ hc)
        have h' : c ≠ b := fun e => hbd (e ▸ hc)
        simp only [upd_other _ _ (hne c h), upd_other _ _ (hne' c h'), upd_other _ _ h, upd_other _ _ h']; exact hg.die c hc
      · simp only [hptr]; exact hg.leak k
      · have h : Id.tmp n ≠ a := fun e => nh (e ▸ hH n e.symm)
        have h' : Id.tmp n ≠ b := fun e => nh (e ▸ hHb n e.symm)
        simp only [upd_other _ _ h, upd_other _ _ h']; exact hg.tmp n nb nd nh
      · have h : c ≠ a := fun e => hK (e ▸ hc)
        have h' : c ≠ b := fun e => hKb (e ▸ hc)
        simp only [upd_other _ _ h, upd_other _ _ h', upd_other _ _ (hne c h), upd_other _ _ (hne' c h'), and_self]
      · exact view_move hab ha' hbd (by simp only [upd_other _ _ hab, upd_same]) (by simp only [upd_same]) fun c h h' => by simp only [upd_other _ _ h', upd_other _ _ h]
    · rw [if_neg hpb]
      obtain ⟨k, hk, hk1, hk2⟩ := (hg.own b).resolve_left hpb
      have hne : ∀ c, c ≠ b → (s.any c).ptr ≠ (s.any b).ptr := fun c hc e => hc (hg.inj c b e)
      have hnd : ∀ c, (s.any c).ptr ≠ .data b := fun c e => by
        rcases hg.own c with h' | ⟨b', h', _⟩
        · rw [e] at h'; cases h'; exact hpb e
        · rw [e] at h'; cases h'
      have hdb : s.obj (.data b) = none := by
        cases h : s.obj (.data b) with
        | none => rfl
        | some x =>
          obtain ⟨c, hc⟩ := hg.cov (.data b) (by simp [h])
          exact absurd hc (hnd c)
      have A : ∀ c, c ≠ a → c ≠ b → upd (upd s.any a ⟨some v, (s.any b).ptr, (s.any b).size⟩) b ⟨none, .data b, (s.any b).size⟩ c = s.any c :=
        fun c h h' => by rw [upd_other _ _ h', upd_other _ _ h]
      have Aa : upd (upd s.any a ⟨some v, (s.any b).ptr, (s.any b).size⟩) b ⟨none, .data b, (s.any b).size⟩ a = ⟨some v, (s.any b).ptr, (s.any b).size⟩ := by
        rw [upd_other _ _ hab, upd_same]
      have Ab : upd (upd s.any a ⟨some v, (s.any b).ptr, (s.any b).size⟩) b ⟨none, .data b, (s.any b).size⟩ b = ⟨none, .data b, (s.any b).size⟩ := upd_same ..
      refine ⟨_, rfl, ⟨fun c => ?_, fun c d h => ?_, fun l hl => ?_, fun c hc hc' => ?_, fun c hc => ?_, fun c hc => ?_, hg.new, fun j hj hf => ?_, fun n nb nd nh => ?_⟩, ⟨Nat.le_refl _, fun c hc => ?_⟩, ?_, by simp [upd_same], fun _ => by simp [upd_same]⟩
      · by_cases h : c = a
        · subst h; simp only [Aa]; exact Or.inr ⟨k, hk, hk1, hk2⟩
        · by_cases h' : c = b
          · subst h'; simp only [Ab]; exact Or.inl trivial
          · simp only [A c h h']; exact hg.own c
      · by_cases c1 : c = a <;> by_cases d1 : d = a
        · rw [c1, d1]
        · subst c1
          by_cases d2 : d = b
          · subst d2; simp only [Aa, Ab] at h; exact absurd h hpb
          · simp only [Aa, A d d1 d2] at h; exact absurd h.symm (hne d d2)
        · subst d1
          by_cases c2 : c = b
          · subst c2; simp only [Aa, Ab] at h; exact absurd h.symm hpb
          · simp only [Aa, A c c1 c2] at h; exact absurd h (hne c c2)
        · by_cases c2 : c = b <;> by_cases d2 : d = b
          · rw [c2, d2]
          · subst c2; simp only [Ab, A d d1 d2] at h; exact absurd h.symm (hnd d)
          · subst d2; simp only [Ab, A c c1 c2] at h; exact absurd h (hnd c)
          · simp only [A c c1 c2, A d d1 d2] at h; exact hg.inj c d h
      · obtain ⟨c, hc⟩ := hg.cov l hl
        by_cases h : c = a
        · subst h; rw [hp] at hc; subst hc; exact absurd ho hl
        · by_cases h' : c = b
          · subst h'; exact ⟨a, by simp only [Aa]; exact hc⟩
          · exact ⟨c, by simp only [A c h h']; exact hc⟩
      · by_cases h : c = a
        · subst h; simp only [Aa]; exact hob
        · by_cases h' : c = b
          · subst h'; simp only [Ab]; exact hdb
          · simp only [A c h h']; exact hg.has c hc hc'
      · have h : c ≠ a := fun e => ha (e ▸ hc)
        have h' : c ≠ b := fun e => hbb (e ▸ hc)
        simp only [A c h h']; exact hg.emp c hc
      · have h : c ≠ a := fun e => ha' (e ▸ hc)
        have h' : c ≠ b := fun e => hbd (e ▸ hc)
        simp only [A c h h']; exact hg.die c hc
      · obtain ⟨c, hc⟩ := hg.leak j hj hf
        have h : c ≠ a := fun e => by subst e; rw [hp] at hc; cases hc
        by_cases h' : c = b
        · subst h'; exact ⟨a, by simp only [Aa]; exact hc⟩
        · exact ⟨c, by simp only [A c h h']; exact hc⟩
      · have h : Id.tmp n ≠ a := fun e => nh (e ▸ hH n e.symm)
        have h' : Id.tmp n ≠ b := fun e => nh (e ▸ hHb n e.symm)
        simp only [A _ h h']; exact hg.tmp n nb nd nh
      · have h : c ≠ a := fun e => hK (e ▸ hc)
        have h' : c ≠ b := fun e => hKb (e ▸ hc)
        simp only [A c h h', and_self]
      · exact view_move hab ha' hbd (by simp only [Aa]) (by simp only [Ab]) fun c h h' => by simp only [A c h h']

private theorem using_some {a busy r y} (h : using_ a busy r = some y) (ht : y.touched = false) :
    a ∉ busy ∧ ∃ z, r = some z ∧ z.touched = false ∧ z.vals = y.vals ∧ z.how = y.how := by
  unfold using_ at h
  simp only [Option.map_eq_some_iff] at h
  obtain ⟨z, hz, rfl⟩ := h
  simp only [Bool.or_eq_false_iff] at ht
  exact ⟨fun hb => (by rw [List.contains_iff_mem.2 hb] at ht; cases ht.1), z, hz, ht.2, rfl, rfl⟩

private theorem after_some {x r y} (h : after x r = some y) (ht : y.touched = false) :
    x.touched = false ∧ ∃ z, r = some z ∧ z.touched = false ∧ z.vals = y.vals ∧ z.how = y.how := by
  unfold after at h
  simp only [Option.map_eq_some_iff] at h
  obtain ⟨z, hz, rfl⟩ := h
  simp only [Bool.or_eq_false_iff] at ht
  exact ⟨ht.1, z, hz, ht.2, rfl, rfl⟩

/-- After emptying an any the program goes on or it was terminated. -/
private theorem andThen_some {T rec dy a s f y} (h : andThen (empty T rec dy a s) f = some y) (ht : y.touched = false) :
    ∃ x, empty T rec dy a s = some x ∧ x.touched = false ∧
      ((x.how = .returned ∧ ∃ z, f x.vals = some z ∧ z.touched = false ∧ z.vals = y.vals ∧ z.how = y.how) ∨ (x.how = .terminated ∧ y.how = .terminated)) := by
  unfold andThen at h
  simp only [Option.bind_eq_some_iff] at h
  obtain ⟨x, hx, h⟩ := h
  have hh := empty_how hx
  cases hy : x.how <;> rw [hy] at h hh <;> simp only at h
  · obtain ⟨h1, h2⟩ := after_some h ht
    exact ⟨x, hx, h1, Or.inl ⟨hy, h2⟩⟩
  · exact absurd rfl hh
  · obtain rfl := Option.some.inj h; exact ⟨x, hx, ht, Or.inr ⟨hy, hy⟩⟩

private theorem Ends.of {o : Out} {y z : Fin} {P : St → Prop} (h : Ends o z P) (e : z.how = y.how) : Ends o y P := by
  unfold Ends at *; rw [← e]; exact h

private theorem Ends.term {o : Out} {y : Fin} {P : St → Prop} (h : o = .term) (e : y.how = .terminated) : Ends o y P := by
  unfold Ends; rw [e]; exact h

/-- What remains of the program. -/
private theorem rest_ends {o : Out} {z y : Fin} {B D H K s s1} (k : Keep K s s1)
    (h : Ends o z fun s' => Good B D H s' ∧ Keep K s1 s' ∧ s'.view D = z.vals) (hv : z.vals = y.vals) (hh : z.how = y.how) :
    Ends o y fun s' => Good B D H s' ∧ Keep K s s' ∧ s'.view D = y.vals :=
  (h.of hh).mono fun _ h => ⟨h.1, k.trans h.2.1, h.2.2.trans hv⟩

private def Constructed (nothrow : Bool) (ok exn : Vals → Option Fin) (x y : Fin) : Prop :=
  match x.how, nothrow with
  | .returned, _ => ∃ z, ok x.vals = some z ∧ z.touched = false ∧ z.vals = y.vals ∧ z.how = y.how
  | .threw, false => ∃ z, exn x.vals = some z ∧ z.touched = false ∧ z.vals = y.vals ∧ z.how = y.how
  | .threw, true => y.how = .terminated
  | .terminated, _ => y.how = .terminated

private theorem constructing_some {nothrow r ok exn y} (h : constructing nothrow r ok exn = some y) (ht : y.touched = false) :
    ∃ x, r = some x ∧ x.touched = false ∧ Constructed nothrow ok exn x y := by
  unfold constructing at h
  simp only [Option.bind_eq_some_iff] at h
  obtain ⟨x, hx, h⟩ := h
  refine ⟨x, hx, ?_⟩
  unfold Constructed
  cases hy : x.how <;> cases nothrow <;> rw [hy] at h <;> simp only at h ⊢
  · exact after_some h ht
  · exact after_some h ht
  · exact after_some h ht
  · cases h; exact ⟨ht, rfl⟩
  · cases h; exact ⟨ht, hy⟩
  · cases h; exact ⟨ht, hy⟩

/-- The target of an assignment is emptied, or the program is terminated. -/
private theorem emptying {T : Nat → Ty} {n : Nat} {B D H K : List Id} {s : St} {bld dy src : List Nat} {a : Nat} {z : Fin} {f : Vals → Option Fin}
    (ih : Sim T n) (hg : Good B D H s) (L : Lists bld dy src B D H K s.tmps) (ha : (a ∉ bld ∧ a ∉ dy) ∧ a ∉ src)
    (h : andThen (empty T (fun p dy => spec T n p bld dy src) dy a (s.view D)) f = some z) (hz : z.touched = false) :
    (∃ s1 w, reset T (run T n) (.var a) s = .ok s1 ∧ Good B D H s1 ∧ Keep K s s1 ∧ (s1.any (.var a)).ptr = .data (.var a) ∧ (s1.any (.var a)).vt = none ∧
      s1.obj (.data (.var a)) = none ∧ f (s1.view D) = some w ∧ w.touched = false ∧ w.vals = z.vals ∧ w.how = z.how) ∨
    (reset T (run T n) (.var a) s = .term ∧ z.how = .terminated) := by
  obtain ⟨x, hx, htx, h⟩ := andThen_some h hz
  have H' := reset_good rfl ih hg L (L.notB ha.1.1) (L.notD ha.1.2) (L.notK ha) hx htx
  unfold Ends at H'
  rcases h with ⟨hr, w, h, hw, hwz, hwh⟩ | ⟨hr, hzh⟩ <;> rw [hr] at H'
  · obtain ⟨s1, h1, g1, k1, v1, p1, e1, o1⟩ := H'
    rw [← v1] at h
    exact Or.inl ⟨s1, w, h1, g1, k1, p1, e1, o1, h, hw, hwz, hwh⟩
  · exact Or.inr ⟨H', hzh⟩

/-- The local variable is empty again. -/
private theorem Good.drop {B D H : List Id} {s : St} {m : Nat} (h : Good B D (.tmp m :: H) s) (e : (s.any (.tmp m)).vt = none) (p : (s.any (.tmp m)).ptr = .data (.tmp m)) :
    Good B D H s :=
  ⟨h.own, h.inj, h.cov, h.has, h.emp, h.die, h.new, h.leak, fun n hb hd hh => (by
    by_cases hn : n = m
    · subst hn; exact ⟨e, p⟩
    · exact h.tmp n hb hd (by simp [hn, hh]))⟩

private theorem Good.hold {B D H : List Id} {s : St} (h : Good B D H s) (a : Id) : Good B D (a :: H) s :=
  ⟨h.own, h.inj, h.cov, h.has, h.emp, h.die, h.new, h.leak, fun n hb hd hh => h.tmp n hb hd fun h' => hh (List.mem_cons_of_mem _ h')⟩

private theorem reset_clean {T : Nat → Ty} {f : Prog → St → Out} {t : Id} {s : St} (e : (s.any t).vt = none) (p : (s.any t).ptr = .data t) :
    reset T f t s = .ok s := by
  unfold reset destroyValue
  simp [e, p, Out.bind]

private theorem sim (T : Nat → Ty) (n : Nat) : Sim T n := by
  induction n with
  | zero => intro p bld dy src B D H K s y _ _ h; simp [spec] at h
  | succ n ih =>
    intro p bld dy src B D H K s y hg L h ht
    cases p with
    | done =>
      simp only [spec, Option.some.injEq] at h
      subst h
      exact ⟨s, rfl, hg, Keep.refl _ _, rfl⟩
    | raise =>
      simp only [spec, Option.some.injEq] at h
      subst h
      exact ⟨s, rfl, hg, Keep.refl _ _, rfl⟩
    | reset a k =>
      simp only [spec] at h
      obtain ⟨ha, z, h, hz, hzy, hh⟩ := using_some h ht
      simp only [List.mem_append, not_or] at ha
      simp only [run]
      rcases emptying ih hg L ha h hz with ⟨s1, w, h1, g1, k1, _, _, _, hw, htw, hwz, hwh⟩ | ⟨h1, h2⟩ <;> rw [h1]
      · exact rest_ends k1 (ih _ _ _ _ _ _ _ _ _ _ g1 (L.mono k1.1) hw htw) (hwz.trans hzy) (hwh.trans hh)
      · exact Ends.term rfl (hh.symm.trans h2)
    | emplace a v k =>
      simp only [spec] at h
      obtain ⟨ha, z, h, hz, hzy, hh⟩ := using_some h ht
      simp only [List.mem_append, not_or] at ha
      obtain ⟨x0, hx0, htx0, h⟩ := andThen_some h hz
      rcases h with ⟨hr, w, h, hw, hwz, hwh⟩ | ⟨hr, hzh⟩
      · have hzy := hwz.trans hzy
        have hh := hwh.trans hh
        obtain ⟨x, hx, htx, h⟩ := constructing_some h hw
        have Bt := emplace_good ih hg L (L.notB ha.1.1) (L.notD ha.1.2) (L.notK ha) hx0 htx0 hr hx htx
        unfold Built at Bt
        unfold Constructed at h
        simp only [run]
        cases hy : x.how <;> cases hn : (T v).nothrow <;> rw [hy, hn] at h Bt <;> simp only at h Bt
        · obtain ⟨u, hu, htu, huz, huh⟩ := h
          obtain ⟨s1, h1, g1, k1, v1, _⟩ := Bt
          have v1 : s1.view D = upd x.vals a (some v) := v1
          rw [← v1] at hu
          rw [h1]
          exact rest_ends k1 (ih _ _ _ _ _ _ _ _ _ _ g1 (L.mono k1.1) hu htu) (huz.trans hzy) (huh.trans hh)
        · obtain ⟨u, hu, htu, huz, huh⟩ := h
          obtain ⟨s1, h1, g1, k1, v1, _⟩ := Bt
          have v1 : s1.view D = upd x.vals a (some v) := v1
          rw [← v1] at hu
          rw [h1]
          exact rest_ends k1 (ih _ _ _ _ _ _ _ _ _ _ g1 (L.mono k1.1) hu htu) (huz.trans hzy) (huh.trans hh)
        · obtain ⟨u, hu, htu, huz, huh⟩ := h
          obtain ⟨s1, h1, g1, k1, v1, _⟩ := Bt
          have v1 : s1.view D = upd x.vals a none := v1
          rw [← v1] at hu
          rw [h1]
          exact rest_ends k1 (ih _ _ _ _ _ _ _ _ _ _ g1 (L.mono k1.1) hu htu) (huz.trans hzy) (huh.trans hh)
        · rw [Bt]; exact Ends.term rfl (hh.symm.trans h)
        · rw [Bt]; exact Ends.term rfl (hh.symm.trans h)
        · rw [Bt]; exact Ends.term rfl (hh.symm.trans h)
      · exact Ends.term (by simp only [run, emplace_term ih hg L (L.notB ha.1.1) (L.notD ha.1.2) (L.notK ha) hx0 htx0 hr]) (hh.symm.trans hzh)
    | moveAssign a b k =>
      simp only [spec] at h
      by_cases hab : a = b
      · simp only [hab, if_true] at h
        simp only [run, moveAssign, hab, if_true, Out.bind]
        exact ih _ _ _ _ _ _ _ _ _ _ hg L h ht
      · simp only [hab, if_false] at h
        obtain ⟨ha, z, h, hz, hzy, hh⟩ := using_some h ht
        obtain ⟨hb, z', h, hz', hzy', hh'⟩ := using_some h hz
        simp only [List.mem_append, not_or] at ha hb
        have habi : Id.var a ≠ .var b := by simp [hab]
        simp only [run, moveAssign, habi, if_false]
        rcases emptying ih hg L ha h hz' with ⟨s1, w, h1, g1, k1, p1, e1, o1, hw, htw, hwz, hwh⟩ | ⟨h1, h2⟩
        case inr => rw [h1]; exact Ends.term rfl (hh.symm.trans (hh'.symm.trans h2))
        have hKb : .var b ∈ K → (s1.any (.var b)).vt = none := fun hk => by
          rcases L.k b hk with (h | h) | h
          · exact (g1.emp _ ((L.b b).2 h)).1
          · exact absurd h hb.1
          · exact absurd h hb.2
        obtain ⟨s2, h2, g2, k2, v2, _⟩ := moveFrom_good g1 (L.notB ha.1.1) (L.notD ha.1.2) (named_var _ _) (L.notK ha) (L.notD hb.1) (named_var _ _) hKb habi e1 p1 o1
        have v2 : s2.view D = upd (upd (s1.view D) b none) a (s1.view D b) := by rw [view_not (L.notD hb.1)]; exact v2
        rw [← v2] at hw
        simp only [h1, Out.bind, h2]
        exact rest_ends (k1.trans k2) (ih _ _ _ _ _ _ _ _ _ _ g2 (L.mono (k1.trans k2).1) hw htw) (hwz.trans (hzy'.trans hzy)) (hwh.trans (hh'.trans hh))
    | copyAssign a b k =>
      simp only [spec] at h
      obtain ⟨hb, z, h, hz, hzy, hh⟩ := using_some h ht
      have g0 : Good B D H { s with tmps := s.tmps + 1 } := ⟨hg.own, hg.inj, hg.cov, hg.has, hg.emp, hg.die, hg.new, hg.leak, hg.tmp⟩
      have k0 : Keep K s { s with tmps := s.tmps + 1 } := ⟨Nat.le_succ _, fun _ _ => ⟨rfl, rfl, rfl, rfl⟩⟩
      have nK : Id.tmp s.tmps ∉ K := L.fresh _ (Nat.le_refl _)
      have nB : Id.tmp s.tmps ∉ B := fun h => nK (L.subB _ h)
      have nD : Id.tmp s.tmps ∉ D := fun h => nK (L.subD _ h)
      have nH : Id.tmp s.tmps ∉ H := fun h => nK (L.subH _ h)
      have hat : Id.var a ≠ .tmp s.tmps := by simp
      rw [view_not (L.notD hb)] at h
      simp only [run, copyAssign, copyCtor]
      cases hv : (s.any (.var b)).vt with
      | none =>
        rw [hv] at h
        simp only at h
        obtain ⟨ha, z', h, hz', hzy', hh'⟩ := using_some h hz
        simp only [List.mem_append, not_or] at ha
        simp only [Out.bind, moveAssign, hat, if_false]
        rcases emptying ih g0 (L.mono (Nat.le_succ _)) ha h hz' with ⟨s1, w, h1, g1, k1, p1, e1, o1, hw, htw, hwz, hwh⟩ | ⟨h1, h2⟩
        case inr => simp only [h1]; exact Ends.term rfl (hh.symm.trans (hh'.symm.trans h2))
        obtain ⟨et, pt⟩ := g1.tmp s.tmps nB nD nH
        have hm : moveValueFrom (.var a) (.tmp s.tmps) s1 = .ok s1 := by
          unfold moveValueFrom
          simp [e1, p1, et]
        simp only [h1, hm, reset_clean et pt]
        exact rest_ends (k0.trans k1) (ih _ _ _ _ _ _ _ _ _ _ g1 (L.mono (k0.trans k1).1) hw htw) (hwz.trans (hzy'.trans hzy)) (hwh.trans (hh'.trans hh))
      | some v =>
        rw [hv] at h
        have hbB : Id.var b ∉ B := fun h => by have := (hg.emp _ h).1; rw [hv] at this; cases this
        have hob := hg.has (.var b) hbB (L.notD hb)
        rw [hv] at hob
        have hob : s.obj (s.any (.var b)).ptr = some (v, .alive) := hob
        simp only [hob, if_true] at h ⊢
        obtain ⟨x, hx, htx, h⟩ := constructing_some h hz
        obtain ⟨et, pt⟩ := hg.tmp s.tmps nB nD nH
        have ot : s.obj (.data (.tmp s.tmps)) = none := by
          have := hg.has _ nB nD
          rw [et, pt] at this; exact this
        have Bt := inEmpty_good (T := T) (rn := run T n) (nothrow := (T v).copyNothrow) (p := (T v).copy) (vt := fun s => (s.any (.var b)).vt) (K := K) (v := v)
          (y := x) (K' := .tmp s.tmps :: .var b :: K) (g0.hold (.tmp s.tmps)) nB nD (fun _ _ => List.mem_cons_self ..) nK (fun c hc => by simp [hc])
          (List.mem_cons_self ..) (fun s1 h => (h (.var b) (by simp) (by simp)).trans hv) et pt ot (runs ih L.copy hx htx)
        unfold Built at Bt
        unfold Constructed at h
        cases hn : (T v).copyNothrow <;> cases hy : x.how <;> rw [hy, hn] at h <;> simp only [hy, hn] at h Bt
        case false.threw =>
          obtain ⟨s1, h1, g1, k1, v1, p1, e1⟩ := Bt
          have v1 : s1.view D = x.vals := v1
          obtain ⟨u, hu, htu, huz, huh⟩ := h
          rw [← v1] at hu
          simp only [h1, Out.bind]
          exact rest_ends (k0.trans k1) (ih _ _ _ _ _ _ _ _ _ _ (g1.drop e1 p1) (L.mono (k0.trans k1).1) hu htu) (huz.trans hzy) (huh.trans hh)
        case false.returned | true.returned =>
          obtain ⟨s1, h1, g1, k1, v1, _, e1⟩ := Bt
          have v1 : s1.view D = x.vals := v1
          obtain ⟨u, hu, htu, huz, huh⟩ := h
          obtain ⟨ha, z', h, hz', hzy', hh'⟩ := using_some hu htu
          simp only [List.mem_append, not_or] at ha
          simp only [h1, Out.bind, moveAssign, hat, if_false]
          rw [← v1] at h
          rcases emptying ih g1 (L.hold.mono k1.1) ha h hz' with ⟨s2, w, h2, g2, k2, p2, e2, o2, hw, htw, hwz, hwh⟩ | ⟨h2, h3⟩
          case inr => simp only [h2]; exact Ends.term rfl (hh.symm.trans (huh.symm.trans (hh'.symm.trans h3)))
          have et2 : (s2.any (.tmp s.tmps)).vt = some v := ((k2.2 _ (List.mem_cons_self ..)).2.2.2).trans e1
          have k2' : Keep K s1 s2 := k2.sub fun c hc => List.mem_cons_of_mem _ hc
          obtain ⟨s3, h3, g3, k3, v3, e3, p3⟩ := moveFrom_good (K := K) g2 (L.notB ha.1.1) (L.notD ha.1.2) (named_var _ _) (L.notK ha) nD
            (fun _ _ => List.mem_cons_self ..) (fun h => absurd h nK) hat e2 p2 o2
          have p3 := p3 (by rw [et2]; simp)
          rw [et2] at v3
          have v3 : s3.view D = upd (s2.view D) a (some v) := v3
          rw [← v3] at hw
          simp only [h2, h3, reset_clean e3 p3]
          have k := ((k0.trans k1).trans k2').trans k3
          exact rest_ends k (ih _ _ _ _ _ _ _ _ _ _ (g3.drop e3 p3) (L.mono k.1) hw htw) (hwz.trans (hzy'.trans (huz.trans hzy)))
            (hwh.trans (hh'.trans (huh.trans hh)))
        all_goals simp only [Bt, Out.bind]; exact Ends.term rfl (hh.symm.trans h)
    | hasValue a k =>
      simp only [spec] at h
      obtain ⟨ha, z, h, hz, hzy, hh⟩ := using_some h ht
      rw [view_not (L.notD ha)] at h
      simp only [run]
      exact rest_ends (Keep.refl _ _) (ih _ _ _ _ _ _ _ _ _ _ hg L h hz) hzy hh
    | call a m k =>
      simp only [spec] at h
      obtain ⟨ha, z, h, hz, hzy, hh⟩ := using_some h ht
      rw [view_not (L.notD ha)] at h
      rcases hv : (s.any (.var a)).vt with _ | v
      · rw [hv] at h; cases h; cases hz
      · rw [hv] at h
        dsimp only at h
        obtain ⟨x, hx, htx, h⟩ := constructing_some h hz
        have hB : .var a ∉ B := fun hb => by have := (hg.emp _ hb).1; rw [hv] at this; cases this
        have hal : s.obj (s.any (.var a)).ptr = some (v, .alive) := by rw [hg.has _ hB (L.notD ha), hv]; rfl
        have R := ih _ _ _ _ _ _ _ _ _ _ hg L hx htx
        have e : call T (run T n) (.var a) m s = run T n ((T v).meth m) s := by unfold call; rw [hv]; exact if_pos hal
        simp only [run, e]
        unfold Ends at R
        unfold Constructed at h
        cases hy : x.how <;> rw [hy] at R h <;> simp only at R h
        · obtain ⟨s1, h1, g1, k1, v1⟩ := R
          obtain ⟨u, hu, htu, huz, huh⟩ := h
          rw [← v1] at hu
          rw [h1]
          exact rest_ends k1 (ih _ _ _ _ _ _ _ _ _ _ g1 (L.mono k1.1) hu htu) (huz.trans hzy) (huh.trans hh)
        · obtain ⟨s1, h1, g1, k1, v1⟩ := R
          obtain ⟨u, hu, htu, huz, huh⟩ := h
          rw [← v1] at hu
          rw [h1]
          exact rest_ends k1 (ih _ _ _ _ _ _ _ _ _ _ g1 (L.mono k1.1) hu htu) (huz.trans hzy) (huh.trans hh)
        · rw [R]; exact Ends.term rfl (hh.symm.trans h)

private theorem Rest.good {s : St} (h : Rest s) : Good [] [] [] s :=
  ⟨h.own, h.inj, h.cov, fun a _ _ => h.has a, fun _ h => (by cases h), fun _ h => (by cases h), h.new, h.leak, fun n _ _ _ => h.tmp n⟩

private theorem Good.rest {s : St} (h : Good [] [] [] s) : Rest s :=
  ⟨h.own, h.inj, h.cov, fun a => h.has a (by simp) (by simp), h.new, h.leak, fun n => h.tmp n (by simp) (by simp) (by simp)⟩

private theorem lists_nil (m : Nat) : Lists [] [] [] [] [] [] [] m :=
  ⟨by simp, by simp, by simp, by simp, by simp, by simp, by simp, by simp⟩

theorem start_rest : Rest start :=
  ⟨fun _ => Or.inl rfl, fun _ _ h => by cases h; rfl, fun _ h => absurd rfl h, fun _ => rfl, fun _ _ => rfl, fun _ h => absurd h (Nat.not_lt_zero _),
    fun _ => ⟨rfl, rfl⟩⟩

/-! ### C116 -/

/-- C116, the part that holds. Whatever constructors, copy constructors, destructors and methods do with other anys, to any depth, if methods replace the value they are called on, if constructors look at their own any or move
from it, and if they throw exceptions, caught by others or not: as long as no constructor changes an any that a value is being constructed for, no
copy constructor an any whose value is being copied, no destructor uses an any whose value is being destroyed, and methods are called on anys with values, the program has the expected effect, where the any is empty until the constructor is finished,
if it throws, and before the destructor runs. Each any has its value in its own storage afterwards, nothing else is stored or allocated. -/
theorem C116_partial (T : Nat → Ty) (n : Nat) (p : Prog) (s : St) (hs : Rest s) (w : Fin) (h : spec T n p [] [] [] s.vals = some w)
    (ht : w.touched = false) :
    match w.how with
    | .returned => ∃ s', run T n p s = .ok s' ∧ s'.vals = w.vals ∧ Rest s'
    | .threw => ∃ s', run T n p s = .exn s' ∧ s'.vals = w.vals ∧ Rest s'
    | .terminated => run T n p s = .term := by
  have H := sim T n p [] [] [] [] [] [] [] s w hs.good (lists_nil _) (by rw [view_nil]; exact h) ht
  unfold Ends at H
  cases hw : w.how <;> rw [hw] at H <;> simp only at H ⊢
  · obtain ⟨s', h1, g1, _, v1⟩ := H; rw [view_nil] at v1; exact ⟨s', h1, v1, g1.rest⟩
  · obtain ⟨s', h1, g1, _, v1⟩ := H; rw [view_nil] at v1; exact ⟨s', h1, v1, g1.rest⟩
  · exact H

/-- C116, memory, with the same restriction: `emplace` keeps the memory of the any iff the new value fits in it, also if the constructor throws; otherwise
a value is in memory of its size iff it does not fit in the buffer, and after an exception the any has no memory. -/
theorem C116_memory_partial (T : Nat → Ty) (n : Nat) (a v : Nat) (rest : Bool → Prog) (s : St) (hs : Rest s) (x0 x : Fin)
    (h0 : empty T (fun p dy => spec T n p [] dy []) [] a s.vals = some x0) (ht0 : x0.touched = false) (hr0 : x0.how = .returned)
    (h : spec T n (T v).ctor [a] [] [] x0.vals = some x) (ht : x.touched = false) :
    (x.how = .returned → ∃ s', run T (n + 1) (.emplace a v rest) s = run T n (rest false) s' ∧ s'.vals = upd x.vals a (some v) ∧ Rest s' ∧
      if (s.any (.var a)).ptr ≠ .data (.var a) ∧ (T v).size ≤ (s.any (.var a)).size then (s'.any (.var a)).ptr = (s.any (.var a)).ptr ∧ (s'.any (.var a)).size = (s.any (.var a)).size
      else ((s'.any (.var a)).ptr = .data (.var a) ↔ (T v).small = true) ∧ ((s'.any (.var a)).ptr ≠ .data (.var a) → (s'.any (.var a)).size = (T v).size)) ∧
    (x.how = .threw → (T v).nothrow = false → ∃ s', run T (n + 1) (.emplace a v rest) s = run T n (rest true) s' ∧ s'.vals = upd x.vals a none ∧
      Rest s' ∧ (s'.any (.var a)).ptr = if (s.any (.var a)).ptr ≠ .data (.var a) ∧ (T v).size ≤ (s.any (.var a)).size then (s.any (.var a)).ptr else .data (.var a)) := by
  have B := emplace_good (sim T n) hs.good (lists_nil _) (by simp) (by simp) (by simp) (by rw [view_nil]; exact h0) ht0 hr0 h ht
  unfold Built at B
  simp only [view_nil] at B
  refine ⟨fun hy => ?_, fun hy hn => ?_⟩
  · rw [hy] at B
    simp only at B
    obtain ⟨s', h1, g, _, v1, p⟩ := B
    exact ⟨s', by simp only [run, h1], v1, g.rest, p⟩
  · rw [hy, hn] at B
    simp only at B
    obtain ⟨s', h1, g, _, v1, p⟩ := B
    exact ⟨s', by simp only [run, h1], v1, g.rest, p⟩

/-- A constructor that begins with this, called by `a.emplace(v)`, in whatever state. -/
private theorem Good.fresh {B D H s} (g : Good B D H s) : s.obj (.blk s.next) = none := by
  cases e : s.obj (.blk s.next) with
  | none => rfl
  | some x =>
    obtain ⟨c, hc⟩ := g.cov (.blk s.next) (by simp [e])
    rcases g.own c with h' | ⟨b', h', hlt, _⟩
    · rw [hc] at h'; cases h'
    · rw [hc] at h'; cases h'; exact absurd hlt (Nat.lt_irrefl _)

private theorem onExn_id (o : Out) : o = o.onExn .exn := by cases o <;> rfl

private theorem emplace_cases (T : Nat → Ty) (n : Nat) (a v : Nat) (s : St) (hs : Rest s) (hold : ∀ x, s.vals a = some x → (T x).dtor = .done) :
    ∃ s1 f, emplace T (run T (n + 1)) (.var a) v s = (construct T (run T (n + 1)) (T v).nothrow (T v).ctor (fun _ => some v) (.var a) v s1).onExn f ∧ (s1.obj (s1.any (.var a)).ptr = none ∧ (if (s1.any (.var a)).ptr = .data (.var a) then (T v).small = true else (T v).size ≤ (s1.any (.var a)).size)) ∧ (s1.any (.var a)).vt = none ∧ s1.vals = upd s.vals a none ∧
      (∀ c, c ≠ .var a → s1.any c = s.any c) ∧ ((s1.any (.var a)).ptr = .data (.var a) → (T v).small = true ∧ s1.obj (.data (.var a)) = none) ∧
      ((s1.any (.var a)).ptr ≠ .data (.var a) → ∃ b, (s1.any (.var a)).ptr = .blk b) ∧
      ((s.any (.var a)).ptr = .data (.var a) → (T v).small = true → (s1.any (.var a)).ptr = .data (.var a) ∧ f = .exn ∧ s1.obj (.blk s1.next) = none) := by
  have hemp : empty T (fun p dy => spec T (n + 1) p [] dy []) [] a (s.view []) = some ⟨upd s.vals a none, false, .returned⟩ := by
    rw [view_nil]
    unfold empty
    cases hv : s.vals a with
    | none => simp only [Option.some.injEq, Fin.mk.injEq, and_true]; funext c; by_cases h : c = a <;> simp [upd, h, hv]
    | some x =>
      simp only [hold x hv, spec, Option.map_some, Option.some.injEq, Fin.mk.injEq, and_true]
      funext c; by_cases h : c = a <;> simp [upd, h]
  obtain ⟨s1, h1, g1, _, v1, p1, _, e1, o1⟩ := destroy_good (a := a) rfl (sim T (n + 1)) hs.good (lists_nil _) (by simp) (by simp) (by simp) hemp rfl
  rw [view_nil] at v1
  have oth1 : ∀ c, c ≠ .var a → s1.any c = s.any c := by
    intro c hc
    unfold destroyValue at h1
    cases hv : (s.any (.var a)).vt with
    | none => rw [hv] at h1; cases h1; rfl
    | some x =>
      have := hs.has (.var a)
      rw [hv] at this h1
      have this : s.obj (s.any (.var a)).ptr = some (x, .alive) := this
      simp only [this, if_true, hold x hv, run, upd_same, Out.ok.injEq] at h1
      subst h1; exact upd_other _ _ hc
  have fin : ∀ s2, Good [] [] [] s2 → (s2.any (.var a)).vt = none → (s2.any (.var a)).ptr = .data (.var a) → s2.obj (.data (.var a)) = none → s2.vals = upd s.vals a none →
      (∀ c, c ≠ .var a → s2.any c = s.any c) →
      ∃ s1 f, inEmpty T (run T (n + 1)) (T v).nothrow (T v).ctor (fun _ => some v) (.var a) v s2 = (construct T (run T (n + 1)) (T v).nothrow (T v).ctor (fun _ => some v) (.var a) v s1).onExn f ∧ (s1.obj (s1.any (.var a)).ptr = none ∧ (if (s1.any (.var a)).ptr = .data (.var a) then (T v).small = true else (T v).size ≤ (s1.any (.var a)).size)) ∧ (s1.any (.var a)).vt = none ∧ s1.vals = upd s.vals a none ∧
      (∀ c, c ≠ .var a → s1.any c = s.any c) ∧ ((s1.any (.var a)).ptr = .data (.var a) → (T v).small = true ∧ s1.obj (.data (.var a)) = none) ∧
      ((s1.any (.var a)).ptr ≠ .data (.var a) → ∃ b, (s1.any (.var a)).ptr = .blk b) ∧
      ((s.any (.var a)).ptr = .data (.var a) → (T v).small = true → (s1.any (.var a)).ptr = .data (.var a) ∧ f = .exn ∧ s1.obj (.blk s1.next) = none) := by
    intro s2 g2 e2 p2 o2 v2 oth
    unfold inEmpty
    cases hsm : (T v).small with
    | true =>
      simp only [if_true]
      exact ⟨s2, .exn, onExn_id _, ⟨by rw [p2]; exact o2, by rw [if_pos p2]; trivial⟩, e2, v2, oth, fun _ => ⟨trivial, o2⟩, fun h => absurd p2 h, fun _ _ => ⟨p2, rfl, g2.fresh⟩⟩
    | false =>
      simp only [Bool.false_eq_true, if_false]
      refine ⟨{ s2 with any := upd s2.any (.var a) { s2.any (.var a) with ptr := .blk s2.next, size := (T v).size }, sizes := upd s2.sizes s2.next (T v).size, next := s2.next + 1 }, if (T v).nothrow then .exn else fun s => (match release (.var a) (T v).size s with | some s => .exn s | none => .ub), ?_, ?_, ?_, ?_, fun c hc => ?_, fun h => ?_, fun _ => ⟨s2.next, by simp only [upd_same]⟩, fun _ h => by cases h⟩
      · cases (T v).nothrow
        · rfl
        · exact onExn_id _
      · refine ⟨?_, by simp [upd_same]⟩
        simp only [upd_same]
        cases e : s2.obj (.blk s2.next) with
        | none => rfl
        | some x =>
          obtain ⟨c, hc⟩ := g2.cov (.blk s2.next) (by simp [e])
          rcases g2.own c with h' | ⟨b', h', hlt, _⟩
          · rw [hc] at h'; cases h'
          · rw [hc] at h'; cases h'; exact absurd hlt (Nat.lt_irrefl _)
      · simp only [upd_same]; exact e2
      · rw [← v2]
        funext c
        by_cases hc : c = a
        · subst hc; simp [St.vals, upd_same]
        · have hc' : Id.var c ≠ .var a := by simp [hc]
          simp [St.vals, upd_other _ _ hc']
      · simp only [upd_other _ _ hc]; exact oth c hc
      · simp only [upd_same] at h; cases h
  unfold emplace
  rw [h1]
  simp only [Out.bind]
  by_cases hp : (s1.any (.var a)).ptr = .data (.var a)
  · rw [if_pos hp]
    exact fin s1 g1 e1 hp (by rw [hp] at o1; exact o1) v1 oth1
  · rw [if_neg hp]
    by_cases hsz : (s1.any (.var a)).size < (T v).size
    · rw [if_pos hsz]
      obtain ⟨s2, h2, g2, _, v2, p2, e2, o2⟩ := dealloc_good (K := []) g1 (by simp) (by simp) (named_var _ _) (by simp) e1 hp
      rw [h2]
      rw [view_nil, view_nil] at v2
      have oth2 : ∀ c, c ≠ .var a → s2.any c = s.any c := by
        intro c hc
        unfold deallocate at h2
        rw [if_pos e1] at h2
        unfold release at h2
        obtain ⟨b, hb, _, hf, hz⟩ := (g1.own (.var a)).resolve_left hp
        rw [hb] at h2 o1
        simp only [hf, hz, o1, and_self, if_true, Out.ok.injEq] at h2
        subst h2; exact (upd_other _ _ hc).trans (oth1 c hc)
      exact fin s2 g2 e2 p2 (by rw [p2] at o2; exact o2) (v2.trans v1) oth2
    · rw [if_neg hsz]
      obtain ⟨b, hb, _⟩ := (g1.own (.var a)).resolve_left hp
      exact ⟨s1, .exn, onExn_id _, ⟨o1, by rw [if_neg hp]; exact Nat.not_lt.1 hsz⟩, e1, v1, oth1, fun h => absurd h hp, fun _ => ⟨b, hb⟩, fun h => absurd (p1.trans h) hp⟩

/-- Where an object is under construction in memory, that memory cannot be given up, and nothing else can be constructed in it. -/
private theorem busy_memory {s : St} {a b v : Nat} (hp : (s.any (.var a)).ptr = .blk b) (e : (s.any (.var a)).vt = none) :
    (∀ T f, reset T f (.var a) { s with obj := upd s.obj (s.any (.var a)).ptr (some (v, .building)) } = .ub) ∧
    ∀ T f u, emplace T f (.var a) u { s with obj := upd s.obj (s.any (.var a)).ptr (some (v, .building)) } = .ub := by
  have hd : deallocate (.var a) { s with obj := upd s.obj (s.any (.var a)).ptr (some (v, .building)) } = .ub := by
    unfold deallocate release
    simp [hp, upd_same, e]
  refine ⟨fun T f => ?_, fun T f u => ?_⟩
  · unfold reset destroyValue
    simp only [e, Out.bind, hp]
    rw [if_pos (by simp)]
    rw [hp] at hd
    exact hd
  · unfold emplace destroyValue
    simp only [e, Out.bind]
    rw [if_neg (by simp [hp])]
    split
    · rw [hd]
    · unfold construct
      simp [upd_same]

private theorem emplace_ub {T : Nat → Ty} {n a v : Nat} {rest : Bool → Prog} {s s1 : St} {f : St → Out}
    (h : emplace T (run T n) (.var a) v s = (construct T (run T n) (T v).nothrow (T v).ctor (fun _ => some v) (.var a) v s1).onExn f) (hu : construct T (run T n) (T v).nothrow (T v).ctor (fun _ => some v) (.var a) v s1 = .ub) :
    run T (n + 1) (.emplace a v rest) s = .ub := by
  simp only [run, h, hu, Out.onExn]

/-- C116 fails: a constructor that puts another value in the any it is called for, unless only the first one is in the buffer. The object under
construction and the other one are in the same storage, or the storage of the first one is released. -/
theorem C116_emplace_fails (T : Nat → Ty) (n : Nat) (a v u : Nat) (k rest : Bool → Prog) (s : St) (hs : Rest s) (hold : ∀ x, s.vals a = some x → (T x).dtor = .done)
    (hc : (T v).ctor = .emplace a u k) (h : (T v).small = false ∨ (T u).small = true) : run T (n + 2) (.emplace a v rest) s = .ub := by
  obtain ⟨s1, f, h1, o1, e1, v1, oth, hd, hb, _⟩ := emplace_cases T n a v s hs hold
  refine emplace_ub h1 ?_
  unfold construct
  simp only
  rw [if_pos o1]
  simp only [hc, run]
  have : emplace T (run T n) (.var a) u { s1 with obj := upd s1.obj (s1.any (.var a)).ptr (some (v, .building)) } = .ub := by
    by_cases hp : (s1.any (.var a)).ptr = .data (.var a)
    · have hu : (T u).small = true := by
        rcases h with h | h
        · rw [(hd hp).1] at h; cases h
        · exact h
      unfold emplace destroyValue
      simp only [e1, Out.bind]
      simp [inEmpty, construct, hp, upd_same, hu]
    · obtain ⟨b, hb⟩ := hb hp
      exact (busy_memory hb e1).2 T _ u
  simp [this]

/-- The value of the any when a constructor of a value in the buffer has put a value outside of the buffer in it. -/
private theorem left {T : Nat → Ty} {n a v u : Nat} {s : St} (e : (s.any (.var a)).vt = none) (hp : (s.any (.var a)).ptr = .data (.var a)) (hf : s.obj (.blk s.next) = none)
    (hu : (T u).small = false) (hcu : (T u).ctor = .done) :
    ∃ t, emplace T (run T (n + 1)) (.var a) u { s with obj := upd s.obj (s.any (.var a)).ptr (some (v, .building)) } = .ok t ∧ (t.any (.var a)).ptr ≠ .data (.var a) ∧
      t.vals a = some u ∧ t.obj (.data (.var a)) = some (v, .building) := by
  unfold emplace destroyValue
  simp only [e, Out.bind, hp, if_true, inEmpty, hu, Bool.false_eq_true, if_false, construct, hcu, run, upd_same, reduceCtorEq, Nat.le_refl, and_true]
  have hf : upd s.obj (.data (.var a)) (some (v, .building)) (.blk s.next) = none := by rw [upd_other _ _ (by simp)]; exact hf
  simp only [hf, if_true]
  cases (T u).nothrow <;> exact ⟨_, rfl, by simp [upd_same], by simp [St.vals, upd_same], by simp [upd]⟩

/-- C116 fails: a constructor of a value in the buffer that leaves a value outside of the buffer in its any: the any takes the one for the other. -/
theorem C116_left_fails (T : Nat → Ty) (n : Nat) (a v u : Nat) (k rest : Bool → Prog) (s : St) (hs : Rest s) (hold : ∀ x, s.vals a = some x → (T x).dtor = .done) (hm : (s.any (.var a)).ptr = .data (.var a))
    (hv : (T v).small = true) (hu : (T u).small = false) (hc : (T v).ctor = .emplace a u k) (hk : k false = .done) (hcu : (T u).ctor = .done) :
    run T (n + 3) (.emplace a v rest) s = .ub := by
  obtain ⟨s1, f, h1, o1, e1, v1, oth, hd, hb, hbuf⟩ := emplace_cases T (n + 1) a v s hs hold
  obtain ⟨hp, hf, hfr⟩ := hbuf hm hv
  refine emplace_ub h1 ?_
  obtain ⟨t, ht, htp, _⟩ := left (T := T) (n := n) (v := v) e1 hp hfr hu hcu
  unfold construct
  simp only
  rw [if_pos o1]
  simp only [hc, run, ht, hk]
  rw [if_neg (by rw [hp]; exact fun h => htp h.1)]

/-- C116 fails: if such a constructor throws an exception the any is not empty after it: it has the value that the constructor put in it. -/
theorem C116_throw_fails (T : Nat → Ty) (n : Nat) (a v u : Nat) (k rest : Bool → Prog) (s : St) (hs : Rest s) (hold : ∀ x, s.vals a = some x → (T x).dtor = .done) (hm : (s.any (.var a)).ptr = .data (.var a))
    (hv : (T v).small = true) (hn : (T v).nothrow = false) (hu : (T u).small = false) (hc : (T v).ctor = .emplace a u k) (hk : k false = .raise)
    (hcu : (T u).ctor = .done) :
    ∃ s', run T (n + 3) (.emplace a v rest) s = run T (n + 2) (rest true) s' ∧ s'.vals a = some u := by
  obtain ⟨s1, f, h1, o1, e1, v1, oth, hd, hb, hbuf⟩ := emplace_cases T (n + 1) a v s hs hold
  obtain ⟨hp, hf, hfr⟩ := hbuf hm hv
  obtain ⟨t, ht, htp, htv, hto⟩ := left (T := T) (n := n) (v := v) e1 hp hfr hu hcu
  have : emplace T (run T (n + 2)) (.var a) v s = .exn { t with obj := upd t.obj (.data (.var a)) none } := by
    rw [h1, hf, ← onExn_id]
    unfold construct
    simp only
    rw [if_pos o1]
    simp only [hc, run, ht, hk]
    simp only [hn, hp, hto, Bool.false_eq_true, if_false, if_true]
  exact ⟨{ t with obj := upd t.obj (.data (.var a)) none }, by simp only [run, this], htv⟩

/-- C116 fails: a constructor that resets the any it is called for, if the value is not in the buffer: the memory of the object under construction is
released. -/
theorem C116_reset_fails (T : Nat → Ty) (n : Nat) (a v : Nat) (k : Prog) (rest : Bool → Prog) (s : St) (hs : Rest s) (hold : ∀ x, s.vals a = some x → (T x).dtor = .done)
    (hc : (T v).ctor = .reset a k) (h : (T v).small = false) : run T (n + 2) (.emplace a v rest) s = .ub := by
  obtain ⟨s1, f, h1, o1, e1, v1, oth, hd, hb, _⟩ := emplace_cases T n a v s hs hold
  refine emplace_ub h1 ?_
  unfold construct
  simp only
  rw [if_pos o1]
  simp only [hc, run]
  have hp : (s1.any (.var a)).ptr ≠ .data (.var a) := fun hp => by rw [(hd hp).1] at h; cases h
  obtain ⟨b, hb⟩ := hb hp
  simp only [(busy_memory (v := v) hb e1).1 T _, Out.bind]

/-- C116 fails: a constructor that assigns another any to the any it is called for, if the value is not in the buffer, or both are. -/
theorem C116_assign_fails (T : Nat → Ty) (n : Nat) (a b v : Nat) (k : Prog) (rest : Bool → Prog) (s : St) (hs : Rest s) (hold : ∀ x, s.vals a = some x → (T x).dtor = .done) (hab : a ≠ b)
    (hc : (T v).ctor = .moveAssign a b k) (h : (T v).small = false ∨ ((s.any (.var b)).ptr = .data (.var b) ∧ s.vals b ≠ none)) :
    run T (n + 2) (.emplace a v rest) s = .ub := by
  obtain ⟨s1, f, h1, o1, e1, v1, oth, hd, hb, _⟩ := emplace_cases T n a v s hs hold
  refine emplace_ub h1 ?_
  unfold construct
  simp only
  rw [if_pos o1]
  simp only [hc, run]
  have : moveAssign T (run T n) (.var a) (.var b) { s1 with obj := upd s1.obj (s1.any (.var a)).ptr (some (v, .building)) } = .ub := by
    unfold moveAssign
    rw [if_neg (by simp [hab])]
    by_cases hp : (s1.any (.var a)).ptr = .data (.var a)
    · have h := h.resolve_left (by rw [(hd hp).1]; simp)
      have hr : reset T (run T n) (.var a) { s1 with obj := upd s1.obj (s1.any (.var a)).ptr (some (v, .building)) } = .ok { s1 with obj := upd s1.obj (s1.any (.var a)).ptr (some (v, .building)) } := by
        unfold reset destroyValue
        simp [e1, Out.bind, hp]
      rw [hr]
      simp only [Out.bind, moveValueFrom, e1, hp, true_and, if_true]
      rw [oth (.var b) (by simp [Ne.symm hab])]
      cases hvb : (s.any (.var b)).vt with
      | none => exact absurd hvb h.2
      | some x => simp [h.1, upd_same]
    · obtain ⟨c, hb⟩ := hb hp
      rw [(busy_memory (v := v) hb e1).1 T _]
      rfl
  simp [this, Out.bind]

/-- C116 fails: a destructor that resets its own any, puts a value in it, or assigns to it: the value is destroyed a second time. -/
theorem C116_dtor_fails (T : Nat → Ty) (n : Nat) (a v : Nat) (rest : Prog) (s : St) (hs : Rest s) (hv : s.vals a = some v)
    (hd : (∃ k, (T v).dtor = .reset a k) ∨ (∃ u k, (T v).dtor = .emplace a u k) ∨ ∃ b k, a ≠ b ∧ (T v).dtor = .moveAssign a b k) :
    run T (n + 2) (.reset a rest) s = .ub := by
  have hv : (s.any (.var a)).vt = some v := hv
  have ho : s.obj (s.any (.var a)).ptr = some (v, .alive) := by rw [hs.has (.var a), hv]; rfl
  have again : ∀ f, destroyValue T f (.var a) { s with obj := upd s.obj (s.any (.var a)).ptr (some (v, .dying)) } = .ub := fun f => by
    unfold destroyValue
    simp [hv, upd_same]
  have : run T (n + 1) (T v).dtor { s with obj := upd s.obj (s.any (.var a)).ptr (some (v, .dying)) } = .ub := by
    rcases hd with ⟨k, h⟩ | ⟨u, k, h⟩ | ⟨b, k, hb, h⟩ <;> rw [h]
    · simp only [run, reset, again, Out.bind]
    · simp only [run, emplace, again, Out.bind]
    · simp only [run, moveAssign, Id.var.injEq, hb, if_false, reset, again, Out.bind]
  simp only [run, reset]
  unfold destroyValue
  simp only [hv, ho, if_true, this, Out.bind]

/-- C116 fails: a destructor that moves its own any to an empty one. If the value is in the buffer, it is moved while it is being destroyed. If it is not,
the other any takes the memory along: it has a value that is destroyed. -/
theorem C116_dtor_moved_fails (T : Nat → Ty) (n : Nat) (a b v : Nat) (s : St) (hs : Rest s) (hab : a ≠ b) (hv : s.vals a = some v)
    (hb : s.vals b = none) (hd : (T v).dtor = .moveAssign b a .done) :
    ((s.any (.var a)).ptr = .data (.var a) → run T (n + 3) (.reset a .done) s = .ub) ∧
    ((s.any (.var a)).ptr ≠ .data (.var a) → ∃ s', run T (n + 3) (.reset a .done) s = .ok s' ∧ s'.vals a = none ∧ s'.vals b = some v ∧ s'.obj (s'.any (.var b)).ptr = none) := by
  have hv : (s.any (.var a)).vt = some v := hv
  have hb : (s.any (.var b)).vt = none := hb
  have ho : s.obj (s.any (.var a)).ptr = some (v, .alive) := by rw [hs.has (.var a), hv]; rfl
  have hob : s.obj (s.any (.var b)).ptr = none := by rw [hs.has (.var b), hb]; rfl
  have hab' : Id.var a ≠ .var b := by simp [hab]
  have hne : (s.any (.var b)).ptr ≠ (s.any (.var a)).ptr := fun e => hab' (hs.inj (.var a) (.var b) e.symm)
  have g0 : Good [] [.var a] [] { s with obj := upd s.obj (s.any (.var a)).ptr (some (v, .dying)) } := by
    refine ⟨hs.own, hs.inj, fun l hl => ?_, fun c _ hc => ?_, fun c hc => (by cases hc), fun c hc => ?_, hs.new, hs.leak, fun n _ _ _ => hs.tmp n⟩
    · by_cases h : l = (s.any (.var a)).ptr
      · exact ⟨.var a, h.symm⟩
      · simp only [upd_other _ _ h] at hl; exact hs.cov l hl
    · simp only [List.mem_singleton] at hc
      simp only [upd_other _ _ (fun e : (s.any c).ptr = (s.any (.var a)).ptr => hc (hs.inj c (.var a) e))]; exact hs.has c
    · rw [List.mem_singleton.1 hc]
      exact ⟨v, hv, by simp [upd_same]⟩
  have he : empty T (fun p dy => spec T (n + 1) p [] dy []) [a] b (St.view { s with obj := upd s.obj (s.any (.var a)).ptr (some (v, .dying)) } [.var a]) = some ⟨St.view s [.var a], false, .returned⟩ := by
    unfold empty
    rw [view_not (by simpa using Ne.symm hab)]
    simp only [hb]
    rfl
  obtain ⟨s1, h1, g1, k1, _, p1, e1, o1⟩ := reset_good (a := b) rfl (sim T (n + 1)) g0 ((lists_nil _).destroy (a := a)) (by simp) (by simpa using Ne.symm hab) (by simpa using Ne.symm hab) he rfl
  obtain ⟨p2, o2, _, e2⟩ := k1.2 (.var a) (by simp)
  have p2 : (s1.any (.var a)).ptr = (s.any (.var a)).ptr := p2
  have e2 : (s1.any (.var a)).vt = some v := e2.trans hv
  have o2 : s1.obj (s.any (.var a)).ptr = some (v, .dying) := o2.trans (by simp [upd_same])
  refine ⟨fun hp => ?_, fun hp => ?_⟩
  · rw [hp] at o2 p2
    have hm : moveValueFrom (.var b) (.var a) s1 = .ub := by
      unfold moveValueFrom
      simp [e1, p1, e2, p2, o2]
    have : run T (n + 2) (T v).dtor { s with obj := upd s.obj (s.any (.var a)).ptr (some (v, .dying)) } = .ub := by
      simp only [hd, run, moveAssign, Ne.symm hab', if_false, h1, Out.bind, hm]
    simp only [run, reset]
    unfold destroyValue
    simp only [hv, ho, if_true, this, Out.bind]
  · have hm : moveValueFrom (.var b) (.var a) s1 = .ok { s1 with any := upd (upd s1.any (.var b) ⟨some v, (s1.any (.var a)).ptr, (s1.any (.var a)).size⟩) (.var a) ⟨none, .data (.var a), (s1.any (.var a)).size⟩ } := by
      unfold moveValueFrom
      simp [e1, p1, e2, p2, hp]
    have : run T (n + 2) (T v).dtor { s with obj := upd s.obj (s.any (.var a)).ptr (some (v, .dying)) }
        = .ok { s1 with any := upd (upd s1.any (.var b) ⟨some v, (s1.any (.var a)).ptr, (s1.any (.var a)).size⟩) (.var a) ⟨none, .data (.var a), (s1.any (.var a)).size⟩ } := by
      simp only [hd, run, moveAssign, Ne.symm hab', if_false, h1, Out.bind, hm]
    refine ⟨{ s1 with any := upd (upd (upd s1.any (.var b) ⟨some v, (s1.any (.var a)).ptr, (s1.any (.var a)).size⟩) (.var a) ⟨none, .data (.var a), (s1.any (.var a)).size⟩) (.var a) ⟨none, .data (.var a), (s1.any (.var a)).size⟩, obj := upd s1.obj (s.any (.var a)).ptr none }, ?_, ?_, ?_, ?_⟩
    · simp only [run, reset]
      unfold destroyValue
      simp only [hv, ho, if_true, this, o2, Out.bind, upd_same]
      simp
    · simp [St.vals, upd_same]
    · simp [St.vals, upd_same, upd_other _ _ (Ne.symm hab')]
    · simp [upd_same, upd_other _ _ (Ne.symm hab'), p2]

/-- A copy constructor is called, of a value in the buffer, for a copy assignment to the empty any `a`. -/
private theorem copying {s : St} {a b v : Nat} (hs : Rest s) (hb : s.vals b = some v) :
    Good [.tmp s.tmps] [] [.tmp s.tmps] { s with tmps := s.tmps + 1, obj := upd s.obj (s.any (.tmp s.tmps)).ptr (some (v, .building)) } ∧
    Lists [] [] [a] [.tmp s.tmps] [] [.tmp s.tmps] [.tmp s.tmps, .var a] (s.tmps + 1) ∧ s.obj (s.any (.var b)).ptr = some (v, .alive) ∧
    s.obj (.data (.tmp s.tmps)) = none := by
  obtain ⟨et, pt⟩ := hs.tmp s.tmps
  have ot := hs.has (.tmp s.tmps)
  rw [et, pt] at ot
  have hb : (s.any (.var b)).vt = some v := hb
  refine ⟨⟨hs.own, hs.inj, fun l hl => ?_, fun c hc _ => ?_, fun c hc => ?_, fun c hc => (by cases hc), hs.new, hs.leak, fun n _ _ _ => hs.tmp n⟩, ?_, ?_, ot⟩
  · by_cases h : l = (s.any (.tmp s.tmps)).ptr
    · exact ⟨_, h.symm⟩
    · simp only [upd_other _ _ h] at hl; exact hs.cov l hl
  · simp only [List.mem_singleton] at hc
    simp only [upd_other _ _ (fun e : (s.any c).ptr = (s.any (.tmp s.tmps)).ptr => hc (hs.inj c _ e))]; exact hs.has c
  · rw [List.mem_singleton.1 hc]
    exact ⟨et, v, by simp [upd_same]⟩
  · refine ⟨by simp, by simp, by simp, by simp, by simp, by simp, by simp, fun n hn => ?_⟩
    simp only [List.mem_cons, List.not_mem_nil, or_false, reduceCtorEq, Id.tmp.injEq]
    intro e; subst e; exact absurd hn (Nat.not_succ_le_self _)
  · rw [hs.has, hb]; rfl

/-- The copy assignment, when the copy is made. -/
private theorem copy_made {T : Nat → Ty} {n a b v : Nat} {rest : Bool → Prog} {s s1 : St} (hs : Rest s) (hb : s.vals b = some v) (hv : (T v).small = true)
    (ha : s.vals a = none) (hm : (s.any (.var a)).ptr = .data (.var a))
    (hr : run T n (T v).copy { s with tmps := s.tmps + 1, obj := upd s.obj (s.any (.tmp s.tmps)).ptr (some (v, .building)) } = .ok s1)
    (k : Keep [.tmp s.tmps, .var a] { s with tmps := s.tmps + 1, obj := upd s.obj (s.any (.tmp s.tmps)).ptr (some (v, .building)) } s1) :
    ∃ s2, run T (n + 1) (.copyAssign a b rest) s =
        (match (moveValueFrom (.var a) (.tmp s.tmps) s2).bind (reset T (run T n) (.tmp s.tmps)) with
        | .ok s => run T n (rest false) s
        | .exn s => run T n (rest true) s
        | o => o) ∧
      (s2.any (.tmp s.tmps)).vt = s1.vals b ∧ (s2.any (.tmp s.tmps)).ptr = .data (.tmp s.tmps) ∧ s2.obj (.data (.tmp s.tmps)) = some (v, .alive) ∧
      (s2.any (.var a)).vt = none ∧ (s2.any (.var a)).ptr = .data (.var a) ∧ s2.vals = s1.vals := by
  obtain ⟨_, _, ob, ot⟩ := copying (a := a) hs hb
  obtain ⟨et, pt⟩ := hs.tmp s.tmps
  have hb : (s.any (.var b)).vt = some v := hb
  have ha : (s.any (.var a)).vt = none := ha
  obtain ⟨p1, o1, _, _⟩ := k.2 (.tmp s.tmps) (by simp)
  obtain ⟨p2, _, _, e2⟩ := k.2 (.var a) (by simp)
  simp only [upd_same] at o1 p1 e2 p2
  have hat : Id.var a ≠ .tmp s.tmps := by simp
  have p1 : (s1.any (.tmp s.tmps)).ptr = .data (.tmp s.tmps) := p1.trans pt
  rw [pt] at o1
  refine ⟨{ s1 with any := upd s1.any (.tmp s.tmps) { s1.any (.tmp s.tmps) with vt := (s1.any (.var b)).vt }, obj := upd s1.obj (.data (.tmp s.tmps)) (some (v, .alive)) },
    ?_, by simp [upd_same, St.vals], by simp [upd_same, p1], by simp [upd_same], by simp [upd_other _ _ hat, e2, ha], by simp [upd_other _ _ hat, p2, hm], ?_⟩
  · have hc : copyCtor T (run T n) (.tmp s.tmps) (.var b) { s with tmps := s.tmps + 1 } =
        .ok { s1 with any := upd s1.any (.tmp s.tmps) { s1.any (.tmp s.tmps) with vt := (s1.any (.var b)).vt }, obj := upd s1.obj (.data (.tmp s.tmps)) (some (v, .alive)) } := by
      unfold copyCtor
      simp only [hb, ob, if_true, inEmpty, hv, construct]
      rw [pt] at hr
      simp only [pt, ot, and_self, if_true, hr, p1, o1]
    have hra : reset T (run T n) (.var a)
        { s1 with any := upd s1.any (.tmp s.tmps) { s1.any (.tmp s.tmps) with vt := (s1.any (.var b)).vt }, obj := upd s1.obj (.data (.tmp s.tmps)) (some (v, .alive)) } =
        .ok { s1 with any := upd s1.any (.tmp s.tmps) { s1.any (.tmp s.tmps) with vt := (s1.any (.var b)).vt }, obj := upd s1.obj (.data (.tmp s.tmps)) (some (v, .alive)) } :=
      reset_clean (by simp only [upd_other _ _ hat, e2, ha]) (by simp only [upd_other _ _ hat, p2, hm])
    simp only [run, copyAssign, hc, Out.bind, moveAssign, hat, if_false, hra]
    rfl
  · funext c
    simp [St.vals, upd]

/-- C116 fails: a copy constructor that resets the any it copies from. The copy is made, but the target of the assignment is empty afterwards, and the
object is never destroyed. -/
theorem C116_copy_reset_fails (T : Nat → Ty) (n : Nat) (a b v : Nat) (rest : Bool → Prog) (s : St) (hs : Rest s) (hab : a ≠ b) (ha : s.vals a = none)
    (hm : (s.any (.var a)).ptr = .data (.var a)) (hb : s.vals b = some v) (hv : (T v).small = true) (hc : (T v).copy = .reset b .done)
    (hd : (T v).dtor = .done) :
    ∃ s' i, run T (n + 3) (.copyAssign a b rest) s = run T (n + 2) (rest false) s' ∧ s'.vals a = none ∧ s'.vals b = none ∧
      s'.obj (.data (.tmp i)) = some (v, .alive) := by
  obtain ⟨g0, L, _⟩ := copying (a := a) hs hb
  have hbv : (s.any (.var b)).vt = some v := hb
  have he : empty T (fun p dy => spec T (n + 1) p [] dy [a]) [] b
      (St.view { s with tmps := s.tmps + 1, obj := upd s.obj (s.any (.tmp s.tmps)).ptr (some (v, .building)) } []) = some ⟨upd s.vals b none, false, .returned⟩ := by
    unfold empty
    rw [view_nil]
    simp only [St.vals, hbv, hd, spec, Option.map_some, Option.some.injEq, Fin.mk.injEq, and_true]
    funext c; by_cases h : c = b <;> simp [upd, h, St.vals]
  obtain ⟨s1, h1, g1, k1, v1, _⟩ := reset_good (a := b) rfl (sim T (n + 1)) g0 L (by simp) (by simp) (by simp [Ne.symm hab]) he rfl
  rw [view_nil] at v1
  have hr : run T (n + 2) (T v).copy { s with tmps := s.tmps + 1, obj := upd s.obj (s.any (.tmp s.tmps)).ptr (some (v, .building)) } = .ok s1 := by
    simp only [hc, run, h1, Out.bind]
  obtain ⟨s2, h2, et, pt, ot, ea, pa, v2⟩ := copy_made (rest := rest) hs hb hv ha hm hr k1
  rw [v1] at v2 et
  simp only [upd_same] at et
  have hmv : moveValueFrom (.var a) (.tmp s.tmps) s2 = .ok s2 := by
    unfold moveValueFrom
    simp [ea, pa, et]
  refine ⟨s2, s.tmps, ?_, ?_, ?_, ot⟩
  · rw [h2, hmv]
    simp only [Out.bind, reset_clean et pt]
  · rw [v2]; simp [upd, hab, ha]
  · rw [v2]; simp [upd]

/-- C116 fails: a copy constructor that puts a value of another type in the any it copies from. The copy is taken for a value of that type. -/
theorem C116_copy_replaced_fails (T : Nat → Ty) (n : Nat) (a b v u : Nat) (rest : Bool → Prog) (s : St) (hs : Rest s) (hab : a ≠ b) (ha : s.vals a = none)
    (hm : (s.any (.var a)).ptr = .data (.var a)) (hb : s.vals b = some v) (hv : (T v).small = true) (hu : u ≠ v)
    (hc : (T v).copy = .emplace b u fun _ => .done) (hd : (T v).dtor = .done) (hcu : (T u).ctor = .done) :
    run T (n + 3) (.copyAssign a b rest) s = .ub := by
  obtain ⟨g0, L, _⟩ := copying (a := a) hs hb
  have hbv : (s.any (.var b)).vt = some v := hb
  have he : empty T (fun p dy => spec T (n + 1) p [] dy [a]) [] b
      (St.view { s with tmps := s.tmps + 1, obj := upd s.obj (s.any (.tmp s.tmps)).ptr (some (v, .building)) } []) = some ⟨upd s.vals b none, false, .returned⟩ := by
    unfold empty
    rw [view_nil]
    simp only [St.vals, hbv, hd, spec, Option.map_some, Option.some.injEq, Fin.mk.injEq, and_true]
    funext c; by_cases h : c = b <;> simp [upd, h, St.vals]
  obtain ⟨s1, h1, g1, k1, v1, _⟩ := emplace_good (a := b) (v := u) (y := ⟨upd s.vals b none, false, .returned⟩) (sim T (n + 1)) g0 L (by simp) (by simp)
    (by simp [Ne.symm hab]) he rfl rfl (by rw [hcu]; rfl) rfl
  rw [view_nil] at v1
  have v1 : s1.vals = upd (upd s.vals b none) b (some u) := v1
  have hr : run T (n + 2) (T v).copy { s with tmps := s.tmps + 1, obj := upd s.obj (s.any (.tmp s.tmps)).ptr (some (v, .building)) } = .ok s1 := by
    simp only [hc, run, h1]
  obtain ⟨s2, h2, et, pt, ot, ea, pa, v2⟩ := copy_made (rest := rest) hs hb hv ha hm hr k1
  rw [v1] at et
  simp only [upd_same] at et
  have hmv : moveValueFrom (.var a) (.tmp s.tmps) s2 = .ub := by
    unfold moveValueFrom
    simp [ea, pa, et, pt, ot, Ne.symm hu]
  rw [h2, hmv]
  rfl

/-- Constructors: value 0 looks whether any 0 is empty; value 1 resets any 0; value 2, in memory, fills any 1 and moves its value to any 2; value 3 moves
from any 0; values 5 and 6 fill any 0; value 9, in memory, fills any 5 and throws; value 10, in memory, tries to put 9 in any 6, and then 7 if this fails;
value 11 is `noexcept` and throws; value 12 puts 8 in any 0 and throws. Destructors: that of value 13 puts 2 in any 7 and 4 in any 0; that of 14
throws; that of 15 resets any 0; that of 16, in memory, moves any 0 to any 1. Copy constructors: that of 17 looks at any 0, fills any 8 and copies it to
any 9; that of 18 throws; that of 19 resets any 0; that of 20 puts 8 in it. -/
def exT : Nat → Ty
  | 0 => ⟨true, 4, false, .hasValue 0 fun b => if b then .reset 0 .done else .emplace 4 7 fun _ => .done, .done, true, .done, fun _ => .done⟩
  | 1 => ⟨false, 100, false, .reset 0 .done, .done, true, .done, fun _ => .done⟩
  | 2 => ⟨false, 100, false, .emplace 1 0 fun _ => .moveAssign 2 1 .done, .done, true, .done, fun _ => .done⟩
  | 3 => ⟨true, 4, false, .moveAssign 1 0 .done, .done, true, .done, fun _ => .done⟩
  | 5 => ⟨true, 4, false, .emplace 0 7 fun _ => .done, .done, true, .done, fun _ => .done⟩
  | 6 => ⟨true, 4, false, .emplace 0 8 fun _ => .done, .done, true, .done, fun _ => .done⟩
  | 8 => ⟨false, 50, true, .done, .done, true, .done, fun _ => .done⟩
  | 9 => ⟨false, 100, false, .emplace 5 7 fun _ => .raise, .done, true, .done, fun _ => .done⟩
  | 10 => ⟨false, 100, false, .emplace 6 9 fun b => if b then .emplace 6 7 fun _ => .done else .done, .done, true, .done, fun _ => .done⟩
  | 11 => ⟨true, 4, true, .raise, .done, true, .done, fun _ => .done⟩
  | 12 => ⟨true, 4, false, .emplace 0 8 fun _ => .raise, .done, true, .done, fun _ => .done⟩
  | 13 => ⟨false, 60, true, .done, .emplace 7 2 fun _ => .emplace 0 4 fun _ => .done, true, .done, fun _ => .done⟩
  | 14 => ⟨true, 4, true, .done, .raise, true, .done, fun _ => .done⟩
  | 15 => ⟨true, 4, true, .done, .reset 0 .done, true, .done, fun _ => .done⟩
  | 16 => ⟨false, 60, true, .done, .moveAssign 1 0 .done, true, .done, fun _ => .done⟩
  | 17 => ⟨true, 4, true, .done, .done, false, .hasValue 0 fun b => if b then .emplace 8 7 fun _ => .copyAssign 9 8 fun _ => .done else .raise, fun _ => .done⟩
  | 18 => ⟨false, 60, true, .done, .done, false, .raise, fun _ => .done⟩
  | 19 => ⟨true, 4, true, .done, .done, true, .reset 0 .done, fun _ => .done⟩
  | 20 => ⟨true, 4, true, .done, .done, true, .emplace 0 8 fun _ => .done, fun _ => .done⟩
  | 21 => ⟨true, 4, true, .done, .emplace 2 7 fun _ => .done, true, .done, fun m => if m = 0 then .emplace 1 9 fun _ => .reset 0 (.emplace 0 8 fun _ => .done) else .raise⟩
  | _ => ⟨true, 4, true, .done, .done, true, .done, fun _ => .done⟩

/-- A program of constructors that use other anys, and look at and move from their own. -/
example : ∃ w, spec exT 9 (.emplace 0 2 fun _ => .emplace 3 0 fun _ => .emplace 0 3 fun _ => .done) [] [] [] start.vals = some w ∧ w.touched = false ∧
    w.how = .returned ∧ w.vals 0 = some 3 ∧ w.vals 1 = none ∧ w.vals 2 = some 0 ∧ w.vals 3 = some 0 ∧ w.vals 4 = some 7 :=
  ⟨_, rfl, rfl, rfl, rfl, rfl, rfl, rfl, rfl⟩

/-- The constructor of value 9, for an any without memory and for one with memory. -/
example : (∃ x, spec exT 9 (exT 9).ctor [0] [] [] start.vals = some x ∧ x.touched = false ∧ x.how = .threw ∧ (exT 9).nothrow = false) ∧
    ∃ s, run exT 9 (.emplace 0 2 fun _ => .done) start = .ok s ∧ (s.any (.var 0)).ptr ≠ .data (.var 0) ∧ (exT 9).size ≤ (s.any (.var 0)).size :=
  ⟨⟨_, rfl, rfl, rfl, rfl⟩, ⟨_, rfl, by decide, by decide⟩⟩

/-- Constructors that throw exceptions: caught, not caught, and not allowed. -/
example : (∃ w, spec exT 9 (.emplace 0 10 fun b => if b then .raise else .done) [] [] [] start.vals = some w ∧ w.touched = false ∧ w.how = .returned ∧
      w.vals 0 = some 10 ∧ w.vals 5 = some 7 ∧ w.vals 6 = some 7) ∧
    (∃ w, spec exT 9 (.emplace 0 2 fun _ => .emplace 0 9 fun b => if b then .raise else .done) [] [] [] start.vals = some w ∧ w.touched = false ∧
      w.how = .threw ∧ w.vals 0 = none ∧ w.vals 5 = some 7) ∧
    (∃ w, spec exT 9 (.emplace 0 11 fun _ => .done) [] [] [] start.vals = some w ∧ w.touched = false ∧ w.how = .terminated) :=
  ⟨⟨_, rfl, rfl, rfl, rfl, rfl, rfl⟩, ⟨_, rfl, rfl, rfl, rfl, rfl⟩, ⟨_, rfl, rfl, rfl⟩⟩

/-- Destructors that fill other anys, with constructors that use anys, and that throw. -/
example : (∃ w, spec exT 9 (.emplace 3 13 fun _ => .emplace 3 10 fun _ => .done) [] [] [] start.vals = some w ∧ w.touched = false ∧ w.how = .returned ∧
      w.vals 0 = some 4 ∧ w.vals 2 = some 0 ∧ w.vals 3 = some 10 ∧ w.vals 7 = some 2) ∧
    (∃ w, spec exT 9 (.emplace 3 14 fun _ => .emplace 3 0 fun _ => .done) [] [] [] start.vals = some w ∧ w.touched = false ∧ w.how = .terminated) :=
  ⟨⟨_, rfl, rfl, rfl, rfl, rfl, rfl, rfl⟩, ⟨_, rfl, rfl, rfl⟩⟩

/-- An any whose destructor uses it. -/
example : (∃ s, run exT 9 (.emplace 0 15 fun _ => .done) start = .ok s ∧ run exT 9 (.reset 0 .done) s = .ub) ∧
    ∃ s, run exT 9 (.emplace 0 16 fun _ => .done) start = .ok s ∧ ∃ s', run exT 9 (.reset 0 .done) s = .ok s' ∧ s'.vals 1 = some 16 := by
  have h : ∀ v, exT v = ⟨true, 4, true, .done, (exT v).dtor, (exT v).copyNothrow, (exT v).copy, (exT v).meth⟩ ∨ exT v = ⟨false, 60, true, .done, (exT v).dtor, (exT v).copyNothrow, (exT v).copy, (exT v).meth⟩ → ∃ s, run exT 9 (.emplace 0 v fun _ => .done) start = .ok s ∧ Rest s ∧ s.vals = upd start.vals 0 (some v) ∧
      ((exT v).small = false → (s.any (.var 0)).ptr ≠ .data (.var 0)) := by
    intro v hv
    have hc : (exT v).ctor = .done := by rcases hv with h | h <;> rw [h]
    obtain ⟨s, h1, h2, h3, h4⟩ := (C116_memory_partial exT 8 0 v (fun _ => .done) start start_rest ⟨start.vals, false, .returned⟩ ⟨start.vals, false, .returned⟩ rfl rfl rfl
      (by rw [hc]; rfl) rfl).1 rfl
    exact ⟨s, h1, h3, h2, fun hs hp => by rw [if_neg (fun h => h.1 rfl)] at h4; rw [h4.1.1 hp] at hs; cases hs⟩
  obtain ⟨s, h1, h2, h3, _⟩ := h 15 (Or.inl rfl)
  obtain ⟨t, h4, h5, h6, h7⟩ := h 16 (Or.inr rfl)
  refine ⟨⟨s, h1, C116_dtor_fails exT 7 0 15 _ s h2 (by rw [h3]; rfl) (Or.inl ⟨_, rfl⟩)⟩, t, h4, ?_⟩
  obtain ⟨t', h8, _, h9, _⟩ := (C116_dtor_moved_fails exT 6 0 1 16 t h5 (by decide) (by rw [h6]; rfl) (by rw [h6]; rfl) rfl).2 (h7 rfl)
  exact ⟨t', h8, h9⟩

example : run exT 3 (.emplace 0 1 fun _ => .done) start = .ub ∧ run exT 3 (.emplace 0 5 fun _ => .done) start = .ub ∧
    run exT 3 (.emplace 0 6 fun _ => .done) start = .ub :=
  ⟨C116_reset_fails exT 1 0 1 .done _ start start_rest nofun rfl rfl, C116_emplace_fails exT 1 0 5 7 (fun _ => .done) _ start start_rest nofun rfl (Or.inr rfl),
    C116_left_fails exT 0 0 6 8 (fun _ => .done) _ start start_rest nofun rfl rfl rfl rfl rfl rfl⟩

example : ∃ s', run exT 3 (.emplace 0 12 fun b => if b then .done else .raise) start = .ok s' ∧ s'.vals 0 = some 8 := by
  obtain ⟨s', h1, h2⟩ := C116_throw_fails exT 0 0 12 8 (fun _ => .raise) (fun b => if b then .done else .raise) start start_rest nofun rfl rfl rfl rfl rfl rfl rfl
  exact ⟨s', h1, h2⟩

/-- Copy constructors that look at the any they copy from and fill other anys, and that throw: the target has its value still. -/
example : (∃ w, spec exT 9 (.emplace 0 17 fun _ => .emplace 3 13 fun _ => .copyAssign 3 0 fun _ => .done) [] [] [] start.vals = some w ∧ w.touched = false ∧
      w.vals 0 = some 4 ∧ w.vals 3 = some 17 ∧ w.vals 7 = some 2) ∧
    (∃ w, spec exT 9 (.emplace 0 17 fun _ => .copyAssign 1 0 fun _ => .copyAssign 0 0 fun _ => .done) [] [] [] start.vals = some w ∧ w.touched = false ∧
      w.how = .returned ∧ w.vals 0 = some 17 ∧ w.vals 1 = some 17 ∧ w.vals 8 = some 7 ∧ w.vals 9 = some 7) ∧
    (∃ w, spec exT 9 (.emplace 0 18 fun _ => .emplace 1 8 fun _ => .copyAssign 1 0 fun b => if b then .raise else .done) [] [] [] start.vals = some w ∧
      w.touched = false ∧ w.how = .threw ∧ w.vals 0 = some 18 ∧ w.vals 1 = some 8) :=
  ⟨⟨_, rfl, rfl, rfl, rfl, rfl⟩, ⟨_, rfl, rfl, rfl, rfl, rfl, rfl, rfl⟩, ⟨_, rfl, rfl, rfl, rfl, rfl⟩⟩

/-- A method that replaces the value it is called on, whose destructor fills a third any; and one that throws an exception. -/
example : (∃ w, spec exT 9 (.emplace 0 21 fun _ => .call 0 0 fun b => if b then .raise else .done) [] [] [] start.vals = some w ∧ w.touched = false ∧
      w.how = .returned ∧ w.vals 0 = some 8 ∧ w.vals 1 = none ∧ w.vals 2 = some 7 ∧ w.vals 5 = some 7) ∧
    (∃ w, spec exT 9 (.emplace 0 21 fun _ => .call 0 1 fun b => if b then .raise else .done) [] [] [] start.vals = some w ∧ w.touched = false ∧
      w.how = .threw ∧ w.vals 0 = some 21) ∧
    ∃ w, spec exT 9 (.call 0 0 fun _ => .done) [] [] [] start.vals = some w ∧ w.touched = true :=
  ⟨⟨_, rfl, rfl, rfl, rfl, rfl, rfl, rfl⟩, ⟨_, rfl, rfl, rfl, rfl⟩, _, rfl, rfl⟩

/-- Copy constructors that change the any they copy from. -/
example : (∃ s, run exT 9 (.emplace 0 19 fun _ => .done) start = .ok s ∧ ∃ s', run exT 9 (.copyAssign 1 0 fun _ => .done) s = .ok s' ∧ s'.vals 1 = none) ∧
    ∃ s, run exT 9 (.emplace 0 20 fun _ => .done) start = .ok s ∧ run exT 9 (.copyAssign 1 0 fun _ => .done) s = .ub := by
  have h : ∀ v, v = 19 ∨ v = 20 → ∃ s, run exT 9 (.emplace 0 v fun _ => .done) start = .ok s ∧ Rest s ∧
      s.vals = upd start.vals 0 (some v) ∧ (s.any (.var 1)).ptr = .data (.var 1) := by
    intro v hv
    have e : run exT 9 (.emplace 0 v fun _ => .done) start = .ok ⟨upd start.any (.var 0) ⟨some v, .data (.var 0), 0⟩, upd (upd start.obj (.data (.var 0)) (some (v, .building))) (.data (.var 0)) (some (v, .alive)), start.freed, start.sizes, 0, 0⟩ := by
      rcases hv with rfl | rfl <;> rfl
    obtain ⟨s, h1, h2, h3, _⟩ := (C116_memory_partial exT 8 0 v (fun _ => .done) start start_rest ⟨start.vals, false, .returned⟩ ⟨start.vals, false, .returned⟩ rfl rfl rfl
      (by rcases hv with rfl | rfl <;> rfl) rfl).1 rfl
    refine ⟨_, e, ?_⟩
    rw [e] at h1
    have h1 := Out.ok.inj h1
    subst h1
    exact ⟨h3, h2, rfl⟩
  obtain ⟨s, h1, h2, h3, h4⟩ := h 19 (Or.inl rfl)
  obtain ⟨t, h5, h6, h7, h8⟩ := h 20 (Or.inr rfl)
  obtain ⟨s', i, h9, h10, _⟩ := C116_copy_reset_fails exT 6 1 0 19 (fun _ => .done) s h2 (by decide) (by rw [h3]; rfl) h4 (by rw [h3]; rfl) rfl rfl rfl
  exact ⟨⟨s, h1, s', h9, h10⟩, t, h5, C116_copy_replaced_fails exT 6 1 0 20 8 (fun _ => .done) t h6 (by decide) (by rw [h7]; rfl) h8 (by rw [h7]; rfl) rfl (by decide) rfl rfl rfl⟩

end AnyAny.CtorReentry
