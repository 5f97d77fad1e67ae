import Verif.Spec.Reentry
/-
C96: destructors that use anys.
-/
namespace AnyAny.Reentry

private def St.visible (s : St) : Vals := fun a => if s.dying a then none else s.vals a

private structure Good (busy : List Nat) (s : St) : Prop where
  iff : ∀ a, s.dying a = true ↔ a ∈ busy
  full : ∀ a, s.dying a = true → s.vals a ≠ none

private theorem seq_some {r f y} (h : seq r f = some y) (ht : y.touched = false) :
    ∃ x z, r = some x ∧ x.touched = false ∧ f x.vals = some z ∧ z.touched = false ∧ z.vals = y.vals := by
  unfold seq at h
  match r, h with
  | some x, h =>
    simp only [Option.bind_some, Option.map_eq_some_iff] at h
    obtain ⟨z, hz, rfl⟩ := h
    simp only [Bool.or_eq_false_iff] at ht
    exact ⟨x, z, rfl, ht.1, hz, ht.2, rfl⟩

private theorem using_some {xs busy r y} (h : using_ xs busy r = some y) (ht : y.touched = false) :
    (∀ a ∈ xs, a ∉ busy) ∧ ∃ z, r = some z ∧ z.touched = false ∧ z.vals = y.vals := by
  unfold using_ at h
  simp only [Option.map_eq_some_iff] at h
  obtain ⟨z, hz, rfl⟩ := h
  simp only [Bool.or_eq_false_iff, List.any_eq_false] at ht
  exact ⟨fun a ha hb => ht.1 a ha (List.contains_iff_mem.2 hb), z, hz, ht.2, rfl⟩

private def Sim (D : Nat → Prog) (n : Nat) : Prop :=
  ∀ p busy s y, Good busy s → spec D n p busy s.visible = some y → y.touched = false →
    ∃ s', run D n p s = .ok s' ∧ Good busy s' ∧ s'.visible = y.vals

private theorem empty_sim {D n busy a s x} (ih : Sim D n) (hg : Good busy s) (ha : a ∉ busy)
    (h : empty D (spec D n) busy a s.visible = some x) (ht : x.touched = false) :
    ∃ s', destroyValue D (run D n) a s = .ok s' ∧ Good busy s' ∧ s'.visible = x.vals := by
  have hd : s.dying a = false := by
    cases h : s.dying a with
    | false => rfl
    | true => exact absurd ((hg.iff a).1 h) ha
  have hv : s.visible a = s.vals a := by simp [St.visible, hd]
  unfold empty at h
  unfold destroyValue
  rw [hv] at h
  cases hva : s.vals a with
  | none =>
    simp only [hva, Option.some.injEq] at h
    subst h
    exact ⟨s, rfl, hg, rfl⟩
  | some v =>
    simp only [hva] at h
    simp only [hd, Bool.false_eq_true, if_false]
    have hvis : St.visible { s with dying := upd s.dying a true } = upd s.visible a none := by
      funext b
      by_cases hb : b = a
      · simp [St.visible, upd, hb]
      · simp [St.visible, upd, hb]
    rw [← hvis] at h
    obtain ⟨s', hr, hg', hx⟩ := ih _ _ _ _ ⟨fun b => by
        by_cases hb : b = a
        · simp [upd, hb]
        · simp [upd, hb, hg.iff b], fun b hb => by
        by_cases hba : b = a
        · simp [hba, hva]
        · simp only [upd, hba, if_false] at hb
          exact hg.full b hb⟩ h ht
    refine ⟨_, by simp only [hr, Out.bind]; rfl, ⟨fun b => ?_, fun b hb => ?_⟩, ?_⟩
    · by_cases hb : b = a
      · subst hb; simp [upd, ha]
      · have := hg'.iff b
        simp only [List.mem_cons, hb, false_or] at this
        simpa [upd, hb] using this
    · by_cases hba : b = a
      · simp [upd, hba] at hb
      · simp only [upd, hba, if_false] at hb ⊢
        exact hg'.full b hb
    · rw [← hx]
      funext b
      by_cases hb : b = a
      · subst hb
        have := (hg'.iff b).2 (List.mem_cons_self ..)
        simp [St.visible, upd, this]
      · simp [St.visible, upd, hb]

private theorem put_good {busy s a v} (hg : Good busy s) (ha : a ∉ busy) :
    Good busy { s with vals := upd s.vals a (some v) } ∧ St.visible { s with vals := upd s.vals a (some v) } = upd s.visible a (some v) := by
  have hd : ¬ s.dying a = true := fun h => ha ((hg.iff a).1 h)
  refine ⟨⟨hg.iff, fun b hb => ?_⟩, ?_⟩
  · by_cases h : b = a
    · simp [upd, h]
    · simp only [upd, h, if_false]; exact hg.full b hb
  · funext b
    by_cases h : b = a
    · subst h; simp [St.visible, upd, hd]
    · simp [St.visible, upd, h]

private theorem sim (D : Nat → Prog) (n : Nat) : Sim D n := by
  induction n with
  | zero => intro p busy s y _ h; simp [spec] at h
  | succ n ih =>
    intro p busy s y hg h ht
    cases p with
    | done =>
      simp only [spec, Option.some.injEq] at h
      subst h
      exact ⟨s, rfl, hg, rfl⟩
    | reset a k =>
      simp only [spec] at h
      obtain ⟨hm, z, h, hz, hzy⟩ := using_some h ht
      obtain ⟨x, w, h1, hx, h2, hw, hwz⟩ := seq_some h hz
      obtain ⟨s1, hr1, hg1, hv1⟩ := empty_sim ih hg (hm a (by simp)) h1 hx
      rw [← hv1] at h2
      obtain ⟨s2, hr2, hg2, hv2⟩ := ih _ _ _ _ hg1 h2 hw
      exact ⟨s2, by simp only [run, hr1, Out.bind, hr2], hg2, by rw [hv2, hwz, hzy]⟩
    | emplace a v k =>
      simp only [spec] at h
      obtain ⟨hm, z, h, hz, hzy⟩ := using_some h ht
      obtain ⟨x, w, h1, hx, h2, hw, hwz⟩ := seq_some h hz
      obtain ⟨s1, hr1, hg1, hv1⟩ := empty_sim ih hg (hm a (by simp)) h1 hx
      obtain ⟨hg1', hv1'⟩ := put_good (v := v) hg1 (hm a (by simp))
      rw [← hv1, ← hv1'] at h2
      obtain ⟨s2, hr2, hg2, hv2⟩ := ih _ _ _ _ hg1' h2 hw
      exact ⟨s2, by simp only [run, hr1, Out.bind, hr2], hg2, by rw [hv2, hwz, hzy]⟩
    | moveAssign a b k =>
      simp only [spec] at h
      obtain ⟨hm, z, h, hz, hzy⟩ := using_some h ht
      by_cases hab : a = b
      · simp only [hab, if_true] at h
        obtain ⟨s2, hr2, hg2, hv2⟩ := ih _ _ _ _ hg h hz
        exact ⟨s2, by simp only [run, hab, if_true, hr2], hg2, by rw [hv2, hzy]⟩
      · simp only [hab, if_false] at h
        obtain ⟨x, w, h1, hx, h2, hw, hwz⟩ := seq_some h hz
        obtain ⟨s1, hr1, hg1, hv1⟩ := empty_sim ih hg (hm a (by simp)) h1 hx
        have hbb : b ∉ busy := hm b (by simp)
        have hdb : s1.dying b = false := by
          cases h : s1.dying b with
          | false => rfl
          | true => exact absurd ((hg1.iff b).1 h) hbb
        have hvb : x.vals b = s1.vals b := by rw [← hv1]; simp [St.visible, hdb]
        rw [hvb] at h2
        cases hs : s1.vals b with
        | none =>
          simp only [hs] at h2
          rw [← hv1] at h2
          obtain ⟨s2, hr2, hg2, hv2⟩ := ih _ _ _ _ hg1 h2 hw
          exact ⟨s2, by simp only [run, hab, if_false, hr1, Out.bind, moveValueFrom, hs, hr2], hg2, by rw [hv2, hwz, hzy]⟩
        | some v =>
          simp only [hs] at h2
          have hg1' : Good busy { s1 with vals := upd s1.vals b none } :=
            ⟨hg1.iff, fun c hc => by
              by_cases h : c = b
              · subst h; simp [hdb] at hc
              · simp only [upd, h, if_false]; exact hg1.full c hc⟩
          have hv1' : St.visible { s1 with vals := upd s1.vals b none } = upd s1.visible b none := by
            funext c
            by_cases h : c = b
            · subst h; simp [St.visible, upd]
            · simp [St.visible, upd, h]
          obtain ⟨hg2, hv2⟩ := put_good (v := v) hg1' (hm a (by simp))
          rw [← hv1, ← hv1', ← hv2] at h2
          obtain ⟨s3, hr3, hg3, hv3⟩ := ih _ _ _ _ hg2 h2 hw
          refine ⟨s3, ?_, hg3, by rw [hv3, hwz, hzy]⟩
          simp only [run, hab, if_false, hr1, Out.bind, moveValueFrom, hs, hdb, Bool.false_eq_true, hr3]
    | hasValue a k =>
      simp only [spec] at h
      obtain ⟨hm, z, h, hz, hzy⟩ := using_some h ht
      have hda : s.dying a = false := by
        cases h : s.dying a with
        | false => rfl
        | true => exact absurd ((hg.iff a).1 h) (hm a (by simp))
      have hva : s.visible a = s.vals a := by simp [St.visible, hda]
      rw [hva] at h
      obtain ⟨s2, hr2, hg2, hv2⟩ := ih _ _ _ _ hg h hz
      exact ⟨s2, by simp only [run, hr2], hg2, by rw [hv2, hzy]⟩

/-- C96, the part that holds. Whatever destructors do with other anys, to any depth: if none of them uses an any whose value is just being destroyed, the
program does what it would do if every any were emptied before its value is destroyed. No object is destroyed twice or used after its destruction. -/
theorem C96_partial (D : Nat → Prog) (n : Nat) (p : Prog) (s : Vals) (w : Fin) (h : spec D n p [] s = some w) (ht : w.touched = false) :
    run D n p (.start s) = .ok (.start w.vals) := by
  have hg : Good [] (St.start s) := ⟨fun a => by simp [St.start], fun a h => by simp [St.start] at h⟩
  have hv : (St.start s).visible = s := by funext a; simp [St.visible, St.start]
  rw [← hv] at h
  obtain ⟨s', hr, hg', hw⟩ := sim D n p [] _ w hg h ht
  rw [hr]
  have hd : s'.dying = fun _ => false := by
    funext a
    cases h : s'.dying a with
    | false => rfl
    | true => exact absurd ((hg'.iff a).1 h) (by simp)
  have : s'.visible = s'.vals := by funext a; simp [St.visible, hd]
  rw [this] at hw
  cases s' with
  | mk vals dying =>
    simp only at hd hw
    subst hd hw
    rfl

/-- Not so when the destructor of the value of `a` resets `a`, puts a new value in it, assigns to it or moves from it: the value is destroyed (or moved
from) a second time, whatever the other values and anys are. Emptying `a` first there would be nothing special. -/
theorem C96_fails (D : Nat → Prog) (n : Nat) (a v : Nat) (k rest : Prog) (s : Vals) (hs : s a = some v)
    (hD : D v = .reset a rest ∨ (∃ u, D v = .emplace a u rest) ∨ (∃ b, b ≠ a ∧ D v = .moveAssign a b rest)
      ∨ ∃ b, b ≠ a ∧ s b = none ∧ D v = .moveAssign b a rest) :
    run D (n + 2) (.reset a k) (.start s) = .ub := by
  have hbusy : ∀ r : Prog → St → Out, destroyValue D r a { St.start s with dying := upd (St.start s).dying a true } = .ub := by
    intro r; simp [destroyValue, St.start, hs, upd]
  have key : run D (n + 1) (D v) { St.start s with dying := upd (St.start s).dying a true } = .ub := by
    rcases hD with h | ⟨u, h⟩ | ⟨b, hb, h⟩ | ⟨b, hb, hsb, h⟩
    · rw [h]; simp only [run, hbusy, Out.bind]
    · rw [h]; simp only [run, hbusy, Out.bind]
    · rw [h]; simp only [run, if_neg (Ne.symm hb), hbusy, Out.bind]
    · rw [h]
      simp [run, hb, destroyValue, moveValueFrom, St.start, hsb, hs, upd, Out.bind]
  have hd : (St.start s).dying a = false := rfl
  have hva : (St.start s).vals a = some v := hs
  rw [run, destroyValue]
  simp only [hva, hd, Bool.false_eq_true, if_false, key, Out.bind]

private theorem seq_touched {r f y} (h : seq r f = some y) :
    ∃ x z, r = some x ∧ f x.vals = some z ∧ y.touched = (x.touched || z.touched) := by
  unfold seq at h
  match r, h with
  | some x, h =>
    simp only [Option.bind_some, Option.map_eq_some_iff] at h
    obtain ⟨z, hz, rfl⟩ := h
    exact ⟨x, z, rfl, hz, rfl⟩

private theorem using_touched {xs busy r y} (h : using_ xs busy r = some y) (ht : y.touched = true) :
    ∃ z, r = some z ∧ ((∃ a ∈ xs, a ∈ busy) ∨ ((∀ a ∈ xs, a ∉ busy) ∧ z.touched = true)) := by
  unfold using_ at h
  simp only [Option.map_eq_some_iff] at h
  obtain ⟨z, hz, rfl⟩ := h
  refine ⟨z, hz, ?_⟩
  by_cases hx : ∃ a ∈ xs, a ∈ busy
  · exact .inl hx
  · right
    have hn : ∀ a ∈ xs, a ∉ busy := fun a ha hb => hx ⟨a, ha, hb⟩
    refine ⟨hn, ?_⟩
    simp only [Bool.or_eq_true, List.any_eq_true] at ht
    rcases ht with ⟨a, ha, hb⟩ | ht
    · exact absurd (List.contains_iff_mem.1 hb) (hn a ha)
    · exact ht

private def Clash (D : Nat → Prog) (n : Nat) : Prop :=
  ∀ p busy s y, p.Acts → Good busy s → spec D n p busy s.visible = some y → y.touched = true → run D n p s = .ub

private theorem busy_ub {D : Nat → Prog} {r busy a s} (hg : Good busy s) (ha : a ∈ busy) : destroyValue D r a s = .ub := by
  have hd := (hg.iff a).2 ha
  unfold destroyValue
  cases hv : s.vals a with
  | none => exact absurd hv (hg.full a hd)
  | some v => simp only [hd, if_true]

private theorem empty_clash {D n busy a s x} (hD : ∀ v, (D v).Acts) (ih : Clash D n) (hg : Good busy s) (ha : a ∉ busy)
    (h : empty D (spec D n) busy a s.visible = some x) (ht : x.touched = true) : destroyValue D (run D n) a s = .ub := by
  have hd : s.dying a = false := by
    cases h : s.dying a with
    | false => rfl
    | true => exact absurd ((hg.iff a).1 h) ha
  have hv : s.visible a = s.vals a := by simp [St.visible, hd]
  unfold empty at h
  unfold destroyValue
  rw [hv] at h
  cases hva : s.vals a with
  | none =>
    simp only [hva, Option.some.injEq] at h
    subst h
    cases ht
  | some v =>
    simp only [hva] at h
    simp only [hd, Bool.false_eq_true, if_false]
    have hvis : St.visible { s with dying := upd s.dying a true } = upd s.visible a none := by
      funext b
      by_cases hb : b = a <;> simp [St.visible, upd, hb]
    rw [← hvis] at h
    rw [ih _ _ _ _ (hD v) ⟨fun b => by
        by_cases hb : b = a
        · simp [upd, hb]
        · simp [upd, hb, hg.iff b], fun b hb => by
        by_cases hba : b = a
        · simp [hba, hva]
        · simp only [upd, hba, if_false] at hb
          exact hg.full b hb⟩ h ht]
    rfl

private theorem clash (D : Nat → Prog) (hD : ∀ v, (D v).Acts) (n : Nat) : Clash D n := by
  induction n with
  | zero => intro p busy s y _ _ h; simp [spec] at h
  | succ n ih =>
    intro p busy s y hp hg h ht
    -- the value of `a` is destroyed, then the rest runs
    have step : ∀ {a x}, a ∉ busy → empty D (spec D n) busy a s.visible = some x → ∀ (f : St → Out),
        (x.touched = false → ∀ s1, Good busy s1 → s1.visible = x.vals → f s1 = .ub) → (destroyValue D (run D n) a s).bind f = .ub := by
      intro a x ha h1 f hf
      cases hx : x.touched with
      | true => rw [empty_clash hD ih hg ha h1 hx]; rfl
      | false =>
        obtain ⟨s1, hr1, hg1, hv1⟩ := empty_sim (sim D n) hg ha h1 hx
        rw [hr1]
        exact hf hx s1 hg1 hv1
    cases p with
    | done =>
      simp only [spec, Option.some.injEq] at h
      subst h
      cases ht
    | reset a k =>
      simp only [spec] at h
      simp only [run]
      obtain ⟨z, h, ⟨c, hc, hb⟩ | ⟨hm, hz⟩⟩ := using_touched h ht
      · simp only [List.mem_singleton] at hc
        subst hc
        rw [busy_ub hg hb]; rfl
      · obtain ⟨x, w, h1, h2, e⟩ := seq_touched h
        rw [e] at hz
        refine step (hm a (by simp)) h1 _ fun hx s1 hg1 hv1 => ?_
        rw [← hv1] at h2
        exact ih _ _ _ _ hp hg1 h2 (by simpa [hx] using hz)
    | emplace a v k =>
      simp only [spec] at h
      simp only [run]
      obtain ⟨z, h, ⟨c, hc, hb⟩ | ⟨hm, hz⟩⟩ := using_touched h ht
      · simp only [List.mem_singleton] at hc
        subst hc
        rw [busy_ub hg hb]; rfl
      · obtain ⟨x, w, h1, h2, e⟩ := seq_touched h
        rw [e] at hz
        refine step (hm a (by simp)) h1 _ fun hx s1 hg1 hv1 => ?_
        obtain ⟨hg1', hv1'⟩ := put_good (v := v) hg1 (hm a (by simp))
        rw [← hv1, ← hv1'] at h2
        exact ih _ _ _ _ hp hg1' h2 (by simpa [hx] using hz)
    | moveAssign a b k =>
      obtain ⟨hab, hk⟩ := hp
      simp only [spec, hab, if_false] at h
      simp only [run, hab, if_false]
      by_cases ha : a ∈ busy
      · rw [busy_ub hg ha]; rfl
      · obtain ⟨z, h, hor⟩ := using_touched h ht
        obtain ⟨x, w, h1, h2, e⟩ := seq_touched h
        refine step ha h1 _ fun hx s1 hg1 hv1 => ?_
        by_cases hb : b ∈ busy
        · have hd := (hg1.iff b).2 hb
          unfold moveValueFrom
          cases hv : s1.vals b with
          | none => exact absurd hv (hg1.full b hd)
          | some v => simp only [hd, if_true, Out.bind]
        · have hw : w.touched = true := by
            rcases hor with ⟨c, hc, hcb⟩ | ⟨_, hz⟩
            · simp only [List.mem_cons, List.not_mem_nil, or_false] at hc
              rcases hc with rfl | rfl
              · exact absurd hcb ha
              · exact absurd hcb hb
            · rw [e] at hz
              simpa [hx] using hz
          have hdb : s1.dying b = false := by
            cases h : s1.dying b with
            | false => rfl
            | true => exact absurd ((hg1.iff b).1 h) hb
          have hvb : x.vals b = s1.vals b := by rw [← hv1]; simp [St.visible, hdb]
          rw [hvb] at h2
          unfold moveValueFrom
          cases hs : s1.vals b with
          | none =>
            simp only [hs] at h2
            rw [← hv1] at h2
            exact ih _ _ _ _ hk hg1 h2 hw
          | some v =>
            simp only [hs] at h2
            have hg1' : Good busy { s1 with vals := upd s1.vals b none } :=
              ⟨hg1.iff, fun c hc => by
                by_cases h : c = b
                · subst h; simp [hdb] at hc
                · simp only [upd, h, if_false]; exact hg1.full c hc⟩
            have hv1' : St.visible { s1 with vals := upd s1.vals b none } = upd s1.visible b none := by
              funext c
              by_cases h : c = b
              · subst h; simp [St.visible, upd]
              · simp [St.visible, upd, h]
            obtain ⟨hg2, hv2⟩ := put_good (v := v) hg1' ha
            rw [← hv1, ← hv1', ← hv2] at h2
            simp only [hdb, Bool.false_eq_true, if_false, Out.bind]
            exact ih _ _ _ _ hk hg2 h2 hw
    | hasValue a k => exact hp.elim

/-- **C96, exactly**, for programs and destructors that only change anys: the behaviour is defined, and as if every any were emptied first, if and only if no destructor,
at any depth, uses an any whose value is just being destroyed. -/
theorem C96_exact (D : Nat → Prog) (hD : ∀ v, (D v).Acts) (n : Nat) (p : Prog) (hp : p.Acts) (s : Vals) (w : Fin) (h : spec D n p [] s = some w) :
    (run D n p (.start s) = .ok (.start w.vals) ↔ w.touched = false) ∧ (run D n p (.start s) = .ub ↔ w.touched = true) := by
  have hg : Good [] (St.start s) := ⟨fun a => by simp [St.start], fun a h => by simp [St.start] at h⟩
  have hv : (St.start s).visible = s := by funext a; simp [St.visible, St.start]
  cases ht : w.touched with
  | false =>
    have := C96_partial D n p s w h ht
    simp [this]
  | true =>
    have : run D n p (.start s) = .ub := clash D hD n p [] _ w hp hg (by rw [hv]; exact h) ht
    simp [this]

-- the destructor of value 1 empties any 7, the destructor of value 2 the any 0 it is in
example : let D : Nat → Prog := fun v => if v = 1 then .reset 7 .done else if v = 2 then .reset 0 .done else .done
    (∀ v, (D v).Acts) ∧ (spec D 9 (.reset 0 .done) [] (upd (fun _ => none) 0 (some 1))).map (·.touched) = some false ∧
      (spec D 9 (.reset 0 .done) [] (upd (fun _ => none) 0 (some 2))).map (·.touched) = some true := by
  refine ⟨fun v => ?_, by decide, by decide⟩
  dsimp only
  split
  · trivial
  · split <;> trivial

/-- While the destructor of its value runs, an any says that it has a value. -/
theorem C96_has_value_fails (D : Nat → Prog) (n : Nat) (a v : Nat) (k : Prog) (f : Bool → Prog) (s : Vals) (hs : s a = some v)
    (hD : D v = .hasValue a f) :
    run D (n + 2) (.reset a k) (.start s)
      = (run D n (f true) ⟨s, upd (fun _ => false) a true⟩).bind fun t => run D (n + 1) k ⟨upd t.vals a none, upd t.dying a false⟩ := by
  have hd : (St.start s).dying a = false := rfl
  have hva : (St.start s).vals a = some v := hs
  rw [run, destroyValue]
  simp only [hva, hd, Bool.false_eq_true, if_false, hD, run, Option.isSome_some]
  simp only [St.start]
  cases run D n (f true) ⟨s, upd (fun _ => false) a true⟩ <;> rfl

/-! Examples. Values 1, 2 are listeners: the destructor of 1 resets any 7 and puts value 2 in any 8; that of 2 does nothing. -/

private def D0 : Nat → Prog
  | 1 => .reset 7 (.emplace 8 2 .done)
  | 3 => .reset 0 .done
  | _ => .done

example : ∃ w, spec D0 5 (.reset 0 .done) [] (upd (upd (fun _ => none) 0 (some 1)) 7 (some 2)) = some w ∧ w.touched = false
    ∧ w.vals 0 = none ∧ w.vals 7 = none ∧ w.vals 8 = some 2 :=
  ⟨_, rfl, by decide +kernel, by decide +kernel, by decide +kernel, by decide +kernel⟩

/-- A value that resets its own any when it is destroyed: with the any emptied first this would end well. -/
example : ∃ w, spec D0 5 (.reset 0 .done) [] (upd (fun _ => none) 0 (some 3)) = some w ∧ w.touched = true ∧ w.vals 0 = none :=
  ⟨_, rfl, by decide +kernel, by decide +kernel⟩
example : run D0 5 (.reset 0 .done) (.start (upd (fun _ => none) 0 (some 3))) = .ub :=
  C96_fails D0 3 0 3 .done .done _ (by simp [upd]) (.inl rfl)

end AnyAny.Reentry
