import Verif.Lemmas.AnyMemRun
import Verif.Spec.Fate
namespace AnyAny.Mem
open AnyAny.TypeList
variable {cfg : Cfg}

/-- `f` says where every object of `σ` is in `σ'`; all other objects of `σ'` are new. -/
structure Heir (σ σ' : Abs) (f : Nat → Option Nat) : Prop where
  keep : ∀ a b s ob, σ.snaps a = some s → s.obj = some ob → f a = some b →
    ∃ s' ob', σ'.snaps b = some s' ∧ s'.obj = some ob' ∧ ob'.id = ob.id ∧ ob'.ty = ob.ty ∧ s'.loc b = s.loc a
  only : ∀ c s' ob', σ'.snaps c = some s' → s'.obj = some ob' → ob'.id < σ.no →
    ∃ a s ob, f a = some c ∧ σ.snaps a = some s ∧ s.obj = some ob ∧ ob.id = ob'.id

theorem Heir.refl (σ : Abs) {σ' : Abs} (h : σ'.snaps = σ.snaps) : Heir σ σ' some :=
  ⟨fun a b s ob h1 h2 h3 => by cases h3; exact ⟨s, ob, by rw [h]; exact h1, h2, rfl, rfl, rfl⟩,
   fun c s ob h1 h2 _ => ⟨c, s, ob, rfl, by rw [← h]; exact h1, h2, rfl⟩⟩

theorem Heir.congr {σ σ' : Abs} {f g : Nat → Option Nat} (H : Heir σ σ' f)
    (h : ∀ a s ob, σ.snaps a = some s → s.obj = some ob → f a = g a) : Heir σ σ' g :=
  ⟨fun a b s ob h1 h2 h3 => H.keep a b s ob h1 h2 (by rw [h a s ob h1 h2]; exact h3),
   fun c s' ob' h1 h2 h3 => by
    obtain ⟨a, s, ob, k1, k2, k3, k4⟩ := H.only c s' ob' h1 h2 h3
    exact ⟨a, s, ob, by rw [← h a s ob k2 k3]; exact k1, k2, k3, k4⟩⟩

theorem Heir.comp {σ σ1 σ2 : Abs} {f g : Nat → Option Nat} (H : Heir σ σ1 f) (K : Heir σ1 σ2 g) (hn : σ.no ≤ σ1.no) :
    Heir σ σ2 (fun a => (f a).bind g) :=
  ⟨fun a b s ob h1 h2 h3 => by
    obtain ⟨m, k1, k2⟩ := Option.bind_eq_some_iff.1 h3
    obtain ⟨s1, ob1, e1, e2, e3, e4, e5⟩ := H.keep a m s ob h1 h2 k1
    obtain ⟨s2, ob2, d1, d2, d3, d4, d5⟩ := K.keep m b s1 ob1 e1 e2 k2
    exact ⟨s2, ob2, d1, d2, d3.trans e3, d4.trans e4, d5.trans e5⟩,
   fun c s' ob' h1 h2 h3 => by
    obtain ⟨m, s1, ob1, e1, e2, e3, e4⟩ := K.only c s' ob' h1 h2 (Nat.lt_of_lt_of_le h3 hn)
    obtain ⟨a, s, ob, d1, d2, d3, d4⟩ := H.only m s1 ob1 e2 e3 (by omega)
    exact ⟨a, s, ob, by simp [d1, e1], d2, d3, d4.trans e4⟩⟩

/-- Only `x` has changed, and what it contains now (if anything) is a new object. -/
theorem Heir.fresh {σ σ' : Abs} {x : Nat} (h : ∀ c, c ≠ x → σ'.snaps c = σ.snaps c)
    (hx : ∀ s' ob', σ'.snaps x = some s' → s'.obj = some ob' → σ.no ≤ ob'.id) :
    Heir σ σ' (fun a => if a = x then none else some a) :=
  ⟨fun a b s ob h1 h2 h3 => by
    by_cases hc : a = x
    · simp [hc] at h3
    · simp only [if_neg hc, Option.some.injEq] at h3
      subst h3
      exact ⟨s, ob, by rw [h a hc]; exact h1, h2, rfl, rfl, rfl⟩,
   fun c s' ob' h1 h2 h3 => by
    by_cases hc : c = x
    · subst hc
      exact absurd (hx s' ob' h1 h2) (by omega)
    · exact ⟨c, s', ob', by simp [hc], by rw [← h c hc]; exact h1, h2, rfl⟩⟩

/-- The same if `x` did not contain an object before. -/
theorem Heir.made {σ σ' : Abs} {x : Nat} (h : ∀ c, c ≠ x → σ'.snaps c = σ.snaps c)
    (hx : ∀ s' ob', σ'.snaps x = some s' → s'.obj = some ob' → σ.no ≤ ob'.id) (h0 : σ.snaps x = none) : Heir σ σ' some :=
  (Heir.fresh h hx).congr fun a s ob h1 _ => by
    rw [if_neg]; rintro rfl; rw [h0] at h1; cases h1

/-- Only `x` has changed, and contains the same object, perhaps with another value. -/
theorem Heir.same {σ σ' : Abs} {x : Nat} {s s' : Snap} (h : σ'.snaps = upd σ.snaps x (some s')) (hs : σ.snaps x = some s)
    (hm : s'.mem = s.mem) (ho : s'.obj.map (fun o => (o.id, o.ty)) = s.obj.map fun o => (o.id, o.ty)) : Heir σ σ' some := by
  refine ⟨fun a b u ob h1 h2 h3 => ?_, fun c u ob h1 h2 h3 => ?_⟩
  · cases h3
    by_cases hc : a = x
    · subst hc
      rw [hs] at h1; cases h1
      rw [h2] at ho
      obtain ⟨ob', e1, e2⟩ := Option.map_eq_some_iff.1 ho
      exact ⟨s', ob', by rw [h, upd_same], e1, congrArg Prod.fst e2, congrArg Prod.snd e2, by simp [Snap.loc, hm]⟩
    · exact ⟨u, ob, by rw [h, upd_other _ _ _ _ hc]; exact h1, h2, rfl, rfl, rfl⟩
  · by_cases hc : c = x
    · subst hc
      rw [h, upd_same] at h1; cases h1
      rw [h2] at ho
      obtain ⟨ob', e1, e2⟩ := Option.map_eq_some_iff.1 ho.symm
      exact ⟨c, s, ob', rfl, hs, e1, congrArg Prod.fst e2⟩
    · rw [h, upd_other _ _ _ _ hc] at h1
      exact ⟨c, u, ob, rfl, h1, h2, rfl⟩

/-- Where the objects are after the value of `o` was moved to `a`: `st` says if its memory was passed on. -/
def movedTo (a o : Nat) (st : Bool) (c : Nat) : Option Nat :=
  if c = a then none else if c = o then (if st then some a else none) else some c

theorem heir_move {σ σ' : Abs} {a o : Nat} {t s' t' : Snap} {st : Bool} (hne : a ≠ o) (ht : σ.snaps o = some t)
    (ga : σ'.snaps a = some s') (go : σ'.snaps o = some t') (hn : t'.obj = none)
    (oth : ∀ c, c ≠ a → c ≠ o → σ'.snaps c = σ.snaps c)
    (hk : st = true → t.obj.isSome → s'.obj = t.obj ∧ s'.mem = t.mem ∧ t.mem.isSome)
    (hf : st = false → ∀ ob, s'.obj = some ob → σ.no ≤ ob.id)
    (he : t.obj = none → s'.obj = none) : Heir σ σ' (movedTo a o st) := by
  refine ⟨fun c b s ob h1 h2 h3 => ?_, fun c u ob h1 h2 h3 => ?_⟩
  · unfold movedTo at h3
    by_cases hc : c = a
    · simp [hc] at h3
    · rw [if_neg hc] at h3
      by_cases ho : c = o
      · rw [if_pos ho] at h3
        cases st with
        | false => simp at h3
        | true =>
          cases h3
          subst ho
          rw [ht] at h1; cases h1
          obtain ⟨k1, k2, k3⟩ := hk rfl (by simp [h2])
          obtain ⟨p, hp⟩ := Option.isSome_iff_exists.1 k3
          exact ⟨s', ob, ga, by rw [k1]; exact h2, rfl, rfl, by simp [Snap.loc, k2, hp]⟩
      · rw [if_neg ho] at h3
        cases h3
        exact ⟨s, ob, by rw [oth c hc ho]; exact h1, h2, rfl, rfl, rfl⟩
  · by_cases hc : c = a
    · subst hc
      rw [ga] at h1; cases h1
      cases st with
      | false => exact absurd (hf rfl ob h2) (by omega)
      | true =>
        cases hto : t.obj with
        | none => rw [he hto] at h2; cases h2
        | some ob0 =>
          obtain ⟨k1, _, _⟩ := hk rfl (by simp [hto])
          rw [k1, hto] at h2
          cases h2
          exact ⟨o, t, _, by simp [movedTo, Ne.symm hne], ht, hto, rfl⟩
    · by_cases ho : c = o
      · subst ho
        rw [go] at h1; cases h1
        rw [hn] at h2; cases h2
      · rw [oth c hc ho] at h1
        exact ⟨c, u, ob, by simp [movedTo, hc, ho], h1, h2, rfl⟩

theorem moved_no {σ : Abs} {a o : Nat} {s t : Snap} : σ.no ≤ (moved σ a s o t).no := by
  unfold moved; split <;> simp [Abs.set2, Abs.set]

theorem moved_no' {σ : Abs} {a o : Nat} {s t : Snap} : σ.no ≤ (moved (σ.set a s) a s o t).no :=
  moved_no (σ := σ.set a s)

/-- A move into an empty any without memory. -/
theorem heir_moved {σ : Abs} {a o : Nat} {s t : Snap} (hne : a ≠ o) (ht : σ.snaps o = some t) (hs : s.obj = none)
    (hm : s.mem = none) : Heir σ (moved (σ.set a s) a s o t) (movedTo a o t.mem.isSome) := by
  obtain ⟨s', t', g1, g2, _, _, _, _, gv, g4, g5, _, _, g6, g7, g8⟩ := moved_facts hne ht hs hm
  refine heir_move hne ht g1 g2 g4 g5 (fun h ho => ?_) (fun h ob hob => ?_) (fun h => by rw [(g8 h).2]; exact hs)
  · obtain ⟨k1, k2, _⟩ := g6 ho h
    exact ⟨k2, k1, h⟩
  · have hmn : t.mem = none := by cases hh : t.mem <;> simp [hh] at h ⊢
    have e := g1
    unfold moved at e
    split at e
    · rename_i h0; rw [(g8 h0).2, hs] at hob; cases hob
    · rename_i h1; rw [hmn] at h1; cases h1
    · simp only [Abs.set2_fst] at e
      cases e
      cases hob
      exact Nat.le_refl _

/-- A move assignment. -/
theorem moveAssigned_obj {σ : Abs} {a o : Nat} {s t s' : Snap} {ob : Obj} (hne : a ≠ o)
    (hal : cfg.soos = 0 → t.obj.isSome → ¬ Unequal cfg s t)
    (g : (moveAssigned cfg σ a s o t).snaps a = some s') (hob : s'.obj = some ob) :
    (¬ Unequal cfg s t ∧ t.mem.isSome ∧ s'.obj = t.obj ∧ s'.mem = t.mem) ∨ ((Unequal cfg s t ∨ t.mem = none) ∧ σ.no ≤ ob.id) := by
  unfold moveAssigned at g
  split at g
  · rename_i hU
    refine Or.inr ⟨Or.inl hU, ?_⟩
    simp only at g
    split at g
    · rename_i ob1 b k c n h1 h2 h3
      split at g
      · rw [Abs.set2_fst] at g
        cases g; cases hob
        exact Nat.le_refl _
      · simp only [movedFresh, h1, h2] at g
        split at g
        · rename_i h0; exact absurd hU (hal h0 (by simp [h1]))
        · rw [Abs.set2_fst] at g
          cases g; cases hob
          exact Nat.le_refl _
    · unfold movedFresh at g
      split at g
      · rename_i ob1 b n h1 h2
        split at g
        · rename_i h0; exact absurd hU (hal h0 (by simp [h1]))
        · rw [Abs.set2_fst] at g
          cases g; cases hob
          exact Nat.le_refl _
      · unfold moved at g
        split at g
        · rw [Abs.set_snaps] at g
          cases g; cases hob
        · rename_i q _ _ ob1 p h1 h2
          exact (q ob1 p.1 p.2 h1 h2).elim
        · rw [Abs.set2_fst] at g
          cases g; cases hob
          exact Nat.le_refl _
  · rename_i hU
    simp only at g
    unfold moved at g
    split at g
    · rw [Abs.set_snaps] at g
      cases g; cases hob
    · rename_i ob1 p h1 h2
      rw [Abs.set2_fst] at g
      cases g
      exact Or.inl ⟨hU, by simp [h2], rfl, rfl⟩
    · rename_i ob1 h1 h2
      rw [Abs.set2_fst] at g
      cases g; cases hob
      exact Or.inr ⟨Or.inr h2, Nat.le_refl _⟩

theorem heir_moveAssigned {σ : Abs} {a o : Nat} {s t : Snap} (hne : a ≠ o) (ht : σ.snaps o = some t)
    (hal : cfg.soos = 0 → t.obj.isSome → ¬ Unequal cfg s t) :
    Heir σ (moveAssigned cfg σ a s o t) (movedTo a o (t.mem.isSome && !decide (Unequal cfg s t))) := by
  obtain ⟨s', t', M⟩ := moveAssigned_facts (cfg := cfg) (s := s) hne ht
  refine heir_move hne ht M.geta M.geto M.objo M.other (fun h ho => ?_) (fun h ob hob => ?_) (fun h => ?_)
  · simp only [Bool.and_eq_true, Bool.not_eq_true', decide_eq_false_iff_not] at h
    obtain ⟨k1, k2, _⟩ := M.stable h.2 ho h.1
    exact ⟨k2, k1, h.1⟩
  · rcases moveAssigned_obj hne hal M.geta hob with ⟨h1, h2, _⟩ | ⟨_, h1⟩
    · simp [h1, h2] at h
    · exact h1
  · have := M.vala
    simp only [Snap.val, h, Option.map_none, Option.map_eq_none_iff] at this
    exact this

theorem moveAssigned_no {σ : Abs} {a o : Nat} {s t : Snap} : σ.no ≤ (moveAssigned cfg σ a s o t).no := by
  unfold moveAssigned
  split
  · simp only
    split
    · split
      · simp [Abs.set2, Abs.set]
      · unfold movedFresh
        split
        · split
          · exact moved_no'
          · simp [Abs.set2, Abs.set]
        · exact moved_no'
    · unfold movedFresh
      split
      · split
        · exact moved_no'
        · simp [Abs.set2, Abs.set]
      · exact moved_no'
  · exact moved_no'

theorem placed_obj {σ : Abs} {a t v : Nat} {s s' : Snap} {f : Bool} {ob : Obj}
    (g : (placed cfg σ a s t v f).snaps a = some s') (hob : s'.obj = some ob) : σ.no ≤ ob.id := by
  unfold placed at g
  split at g
  · simp only [Abs.set, upd_same] at g; cases g; cases hob; exact Nat.le_refl _
  · simp only [Abs.set, upd_same] at g; cases g; cases hob; exact Nat.le_refl _

theorem emplaced_obj {σ : Abs} {a t v : Nat} {s s' : Snap} {ob : Obj}
    (g : (emplaced cfg σ a s t v).snaps a = some s') (hob : s'.obj = some ob) : σ.no ≤ ob.id := by
  unfold emplaced at g
  split at g
  · split at g
    · exact placed_obj g hob
    · simp only [Abs.set, upd_same] at g; cases g; cases hob; exact Nat.le_refl _
  · exact placed_obj g hob

theorem copied_obj {σ : Abs} {a : Nat} {s s' : Snap} {ob ob' : Obj}
    (g : (copied cfg σ a s ob).snaps a = some s') (hob : s'.obj = some ob') : σ.no ≤ ob'.id := by
  unfold copied at g
  split at g
  · simp only [Abs.set, upd_same] at g; cases g; cases hob; exact Nat.le_refl _
  · simp only [Abs.set, upd_same] at g; cases g; cases hob; exact Nat.le_refl _

theorem copyConstructed_no (σ : Abs) (a : Nat) (ms : List Method) (t : Snap) : σ.no ≤ (copyConstructed cfg σ a ms t).no := by
  unfold copyConstructed copied
  split
  · simp [Abs.set]
  · split <;> simp [Abs.set]

theorem stablePtrs_snap {w : World} {a : Nat} {s : Snap} (h : snap w a = some s) : stablePtrs w a = s.mem.isSome := by
  unfold stablePtrs; rw [(of_snap h).2.2.1]

theorem diffAlloc_snap {w : World} {a b : Nat} {s t : Snap} (h : snap w a = some s) (h' : snap w b = some t) :
    diffAlloc cfg w a b = decide (AllocsDiffer cfg s.al t.al) := by
  unfold diffAlloc; rw [(of_snap h).2.2.2.2.1, (of_snap h').2.2.2.2.1]

theorem bind_some_map {α} (x : Option α) : (x.bind fun a => some a) = x := by cases x <;> rfl

/-- All objects after a successful operation. -/
theorem heir_step (C : CfgOk cfg) {w w' : World} {op : Op} (W : WF cfg w) (L : Legal cfg w op)
    (he : exec cfg op w = .ok () w') :
    ∃ σ', Rep cfg w' σ' ∧ Heir ⟨snap w, w.nextBlk, w.nextObj, w.copies⟩ σ' (fun a => fate cfg w a op) := by
  have R := Rep.of_wf W
  generalize hσ : (⟨snap w, w.nextBlk, w.nextObj, w.copies⟩ : Abs) = σ at R
  have hsn : snap w = σ.snaps := by rw [← hσ]
  clear hσ
  cases op with
  | allocCtor a ms al =>
    obtain ⟨h1, h2⟩ := L
    rw [R.snaps] at h1
    obtain ⟨u, h', R'⟩ := allocCtor_spec (al := al) R h1 h2
    rw [show exec cfg (.allocCtor a ms al) w = allocCtor a ms al w from rfl, h'] at he; cases he
    refine ⟨_, R', Heir.made (x := a) (fun c hc => Abs.set_other _ _ hc) (fun s' ob g hob => ?_) h1⟩
    rw [Abs.set_snaps] at g; cases g; cases hob
  | valueCtor a ms al t arg n =>
    obtain ⟨h1, h2, h3⟩ := L
    rw [R.snaps] at h1
    obtain ⟨ar, har, harg⟩ := argOf_spec R h3
    rcases valueCtor_spec (al := al) n R h1 h2 (C.align t) harg with ⟨u, h', R'⟩ | ⟨_, u, nb', h', R'⟩
    · simp [exec, har, h'] at he; subst he
      obtain ⟨s', g1, _⟩ := placed_facts (cfg := cfg) σ a ⟨ms, al, none, none⟩ t (arg.value σ.vals) false
      exact ⟨_, R', Heir.made (x := a) (fun c hc => by unfold constructed; rw [g1, upd_other _ _ _ _ hc])
        (fun s' ob g hob => placed_obj g hob) h1⟩
    · simp [exec, har, h'] at he
  | forceCtor a ms t arg n =>
    obtain ⟨h1, h2, h3⟩ := L
    rw [R.snaps] at h1
    obtain ⟨ar, har, harg⟩ := argOf_spec R h3
    rcases forceCtor_spec n R h1 h2 (C.align t) harg with ⟨u, h', R'⟩ | ⟨_, u, nb', h', R'⟩ | ⟨ht, h'⟩
    · simp [exec, har, h'] at he; subst he
      obtain ⟨s', g1, _⟩ := placed_facts (cfg := cfg) σ a ⟨ms, cfg.defaultAlloc, none, none⟩ t (arg.value σ.vals) true
      exact ⟨_, R', Heir.made (x := a) (fun c hc => by unfold constructed; rw [g1, upd_other _ _ _ _ hc])
        (fun s' ob g hob => placed_obj g hob) h1⟩
    · simp [exec, har, h'] at he
    · simp [exec, har, h'] at he
  | copyCtor a ms o =>
    obtain ⟨h1, h2, t, h3, h4, h5⟩ := L
    rw [R.snaps] at h1 h3
    rcases copyCtor_spec C R h1 h3 h2 h4 h5 with ⟨u, h', R'⟩ | ⟨_, u, nb', h', R'⟩
    · simp [exec, h'] at he; subst he
      obtain ⟨g1, _⟩ := copyConstructed_eq (cfg := cfg) σ a ms t
      refine ⟨_, R', Heir.made (x := a) (fun c hc => by rw [g1, upd_other _ _ _ _ hc]) (fun s' ob g hob => ?_) h1⟩
      rw [g1, upd_same] at g
      cases g
      simp only [copySnap, Option.map_eq_some_iff] at hob
      obtain ⟨_, _, rfl⟩ := hob
      exact Nat.le_refl _
    · simp [exec, h'] at he
  | moveCtor a o =>
    obtain ⟨h1, t, h3, h4⟩ := L
    have h3' := h3
    rw [R.snaps] at h1 h3
    have hne : a ≠ o := by rintro rfl; simp [h1] at h3
    obtain ⟨u, h', R'⟩ := moveCtor_spec R h1 h3 h4
    simp [exec, h'] at he; subst he
    refine ⟨_, R', (heir_moved (s := ⟨t.ms, t.al, none, none⟩) hne h3 rfl rfl).congr fun c s ob k1 _ => ?_⟩
    have : c ≠ a := by rintro rfl; rw [h1] at k1; cases k1
    simp only [movedTo, fate, if_neg this, stablePtrs_snap h3']
  | transMoveCtor a ms o =>
    obtain ⟨h1, h2, t, h3, h4, h5, h6⟩ := L
    have h3' := h3
    rw [R.snaps] at h1 h3
    have hne : a ≠ o := by rintro rfl; simp [h1] at h3
    obtain ⟨u, h', R'⟩ := transMoveCtor_spec R h1 h3 h2 (fun _ h => h6 h) (fun _ _ => h4) h5
    simp [exec, h'] at he; subst he
    refine ⟨_, R', (heir_moved (s := ⟨ms, cfg.defaultAlloc, none, none⟩) hne h3 rfl rfl).congr fun c s ob k1 _ => ?_⟩
    have : c ≠ a := by rintro rfl; rw [h1] at k1; cases k1
    simp only [movedTo, fate, if_neg this, stablePtrs_snap h3']
  | dtor a =>
    have L' : (snap w a).isSome := L
    rw [R.snaps] at L'
    obtain ⟨s, hs⟩ := Option.isSome_iff_exists.1 L'
    obtain ⟨u, h', R'⟩ := destructor_spec R hs
    simp [exec, h'] at he; subst he
    refine ⟨_, R', Heir.fresh (x := a) (fun c hc => by simp only [Abs.del]; exact upd_other _ _ _ _ hc) (fun s' ob g hob => ?_)⟩
    simp [Abs.del] at g
  | copyAssign a o tmp =>
    obtain ⟨h1, s, h2, t, h3, h4, h5, h6⟩ := L
    rw [R.snaps] at h1 h2 h3
    have hne : a ≠ tmp := by rintro rfl; simp [h1] at h2
    have hpal : (propagated cfg s t).al = propagatedAl cfg s.al t.al := by
      unfold propagated propagatedAl
      by_cases hc : (!cfg.alwaysEq && cfg.pocca) = true
      · by_cases he : s.al = t.al
        · simp [he]
        · simp [hc, he]
      · simp [hc]
    have hU : Unequal cfg (propagated cfg s t) (copySnap cfg σ t.ms t) ↔
        AllocsDiffer cfg (propagatedAl cfg s.al t.al) (cfg.soccc t.al) := by
      unfold Unequal; rw [hpal]; rfl
    rcases copyAssign_spec C R h1 h2 h3 h4 h5 (fun h0 _ => by rw [hU]; exact h6 h0) with
      ⟨u, h', R'⟩ | ⟨_, u, nb', h', R'⟩ | ⟨_, hu, u, σ', h', R', g⟩ | ⟨hu, ob, hob, hn, h'⟩
    · simp [exec, h'] at he; subst he
      obtain ⟨g1, g2⟩ := copyConstructed_eq (cfg := cfg) σ tmp t.ms t
      have hp2 : ((copyConstructed cfg σ tmp t.ms t).set a (propagated cfg s t)).snaps tmp = some (copySnap cfg σ t.ms t) := by
        rw [Abs.set_other _ _ (Ne.symm hne), g1, upd_same]
      obtain ⟨s', t', M⟩ := moveAssigned_facts (cfg := cfg) (s := propagated cfg s t) hne hp2
      refine ⟨_, R', Heir.fresh (x := a) (fun c hc => ?_) (fun s'' ob g hob => ?_)⟩
      · simp only [copyAssigned, Abs.del, upd]
        by_cases hct : c = tmp
        · subst c; simp [h1]
        · simp only [hct, if_false]
          rw [M.other c hc hct, Abs.set_other _ _ hc, g1, upd_other _ _ _ _ hct]
      · simp only [copyAssigned, Abs.del, upd_other _ _ _ _ hne] at g
        rcases moveAssigned_obj hne (fun h0 _ => by rw [hU]; exact h6 h0) g hob with ⟨_, _, k, _⟩ | ⟨_, k⟩
        · rw [k] at hob
          simp only [copySnap, Option.map_eq_some_iff] at hob
          obtain ⟨_, _, rfl⟩ := hob
          exact Nat.le_refl _
        · exact Nat.le_trans (copyConstructed_no σ tmp t.ms t) k
    · simp [exec, h'] at he
    · simp [exec, h'] at he
    · simp [exec, h'] at he
  | moveAssign a o =>
    obtain ⟨s, h2, t, h3, h4, h5, h6⟩ := L
    have h2' := h2
    have h3' := h3
    rw [R.snaps] at h2 h3
    by_cases hne : a = o
    · subst hne
      rw [show exec cfg (.moveAssign a a) w = moveAssign cfg a a w from rfl, moveAssign_self] at he; cases he
      refine ⟨σ, R, (Heir.refl σ rfl).congr fun c _ _ _ _ => by simp [fate]⟩
    · rcases moveAssign_spec C R hne h2 h3 h4 h5.movable (fun h _ => h6 h) with
        ⟨u, h', R', _⟩ | ⟨hu, _, _, u, h', R', _⟩ | ⟨hu, ob, hob, hn, h', hm, _⟩
      · simp [exec, h'] at he; subst he
        refine ⟨_, R', (heir_moveAssigned hne h3 (fun h _ => h6 h)).congr fun c _ _ _ _ => ?_⟩
        simp only [movedTo, fate, if_neg hne, stablePtrs_snap h3', diffAlloc_snap h2' h3']
      · simp [exec, h'] at he
      · simp [exec, h'] at he
  | emplace a t arg n =>
    obtain ⟨h1, h3⟩ := L
    rw [R.snaps] at h1
    obtain ⟨s, hs⟩ := Option.isSome_iff_exists.1 h1
    obtain ⟨ar, har, harg⟩ := argOf_spec R h3
    rcases emplace_spec n R hs (C.align t) harg with ⟨u, h', R'⟩ | ⟨_, u, σ', h', ⟨nb', m', _, rfl⟩, R'⟩
    · simp [exec, har, h'] at he; subst he
      obtain ⟨s', g1, _⟩ := emplaced_facts (cfg := cfg) σ a s t (arg.value σ.vals)
      exact ⟨_, R', Heir.fresh (x := a) (fun c hc => by rw [g1, upd_other _ _ _ _ hc]) (fun s' ob g hob => emplaced_obj g hob)⟩
    · simp [exec, har, h'] at he
  | reset a =>
    have L' : (snap w a).isSome := L
    rw [R.snaps] at L'
    obtain ⟨s, hs⟩ := Option.isSome_iff_exists.1 L'
    obtain ⟨u, h', R', _⟩ := reset_spec R hs
    simp [exec, h'] at he; subst he
    refine ⟨_, R', Heir.fresh (x := a) (fun c hc => Abs.set_other _ _ hc) (fun s' ob g hob => ?_)⟩
    rw [Abs.set_snaps] at g; cases g; cases hob
  | destroyValue a =>
    have L' : (snap w a).isSome := L
    rw [R.snaps] at L'
    obtain ⟨s, hs⟩ := Option.isSome_iff_exists.1 L'
    obtain ⟨u, h', R', _⟩ := destroyValue_spec R hs
    simp [exec, h'] at he; subst he
    refine ⟨_, R', Heir.fresh (x := a) (fun c hc => Abs.set_other _ _ hc) (fun s' ob g hob => ?_)⟩
    rw [Abs.set_snaps] at g; cases g; cases hob
  | replaceWithBytes a n =>
    have L' : (snap w a).isSome := L
    rw [R.snaps] at L'
    obtain ⟨s, hs⟩ := Option.isSome_iff_exists.1 L'
    rcases replaceWithBytes_spec (n := n) R hs with ⟨u, m, h', ⟨_, _, R'⟩ | ⟨_, _, R'⟩⟩ | ⟨u, h', R'⟩
    · simp [exec, h'] at he; subst he
      refine ⟨_, R', Heir.fresh (x := a) (fun c hc => Abs.set_other _ _ hc) (fun s' ob g hob => ?_)⟩
      rw [Abs.set_snaps] at g; cases g; cases hob
    · simp [exec, h'] at he; subst he
      refine ⟨_, R', Heir.fresh (x := a) (fun c hc => Abs.set_other _ _ hc) (fun s' ob g hob => ?_)⟩
      simp only [Abs.set, upd_same] at g; cases g; cases hob
    · simp [exec, h'] at he
  | mutate a t v =>
    obtain ⟨s, hs, hti⟩ := L
    rw [R.snaps] at hs
    have hc := anyCastPtr_spec (t := t) R hs (fun _ => hti)
    by_cases hty : s.obj.map (·.ty) = some t
    · obtain ⟨ob, hob, rfl⟩ := Option.map_eq_some_iff.1 hty
      obtain ⟨u, h', R'⟩ := writeObj_spec (x := v) R hs hob
      simp [exec, hc, hty, h'] at he; subst he
      exact ⟨_, R', Heir.same rfl hs rfl (by simp [hob])⟩
    · simp [exec, hc, hty] at he; subst he
      exact ⟨_, R, Heir.refl σ rfl⟩
  | castCopy a t =>
    obtain ⟨s, hs, hti⟩ := L
    rw [R.snaps] at hs
    rcases anyCastCopy_spec (t := t) R hs (fun _ => hti) with ⟨ob, u, _, _, h', R'⟩ | ⟨_, u, h', R'⟩
    · simp [exec, h'] at he; subst he
      exact ⟨_, R', Heir.refl σ rfl⟩
    · simp [exec, h'] at he
  | castMove a t =>
    obtain ⟨s, hs, hti⟩ := L
    rw [R.snaps] at hs
    rcases anyCastMove_spec (t := t) R hs (fun _ => hti) with ⟨ob, u, hob, hty, h', R'⟩ | ⟨_, u, h', R'⟩
    · simp [exec, h'] at he; subst he
      exact ⟨_, R', Heir.same rfl hs rfl (by simp [hob])⟩
    · simp [exec, h'] at he
  | invoke a m x =>
    obtain ⟨s, hs, hm, ho⟩ := L
    rw [R.snaps] at hs
    obtain ⟨ob, hob⟩ := Option.isSome_iff_exists.1 ho
    rcases invokeUser_spec (x := x) R hs hob hm with ⟨u, h', R'⟩ | ⟨_, _, u, h', R'⟩ | ⟨hn, u, h', R'⟩
    · simp [exec, h'] at he; subst he
      refine ⟨_, R', Heir.same rfl hs rfl ?_⟩
      simp only [hob, Option.map_some, invoked]
      split <;> rfl
    · simp [exec, h'] at he
    · simp [exec, h'] at he
  | swap a b tmp =>
    obtain ⟨h1, s, h2, t, h3, h4, h5, h6⟩ := L
    have h2' := h2
    have h3' := h3
    rw [R.snaps] at h1 h2 h3
    have hne : a ≠ tmp := by rintro rfl; simp [h1] at h2
    have hneb : b ≠ tmp := by rintro rfl; simp [h1] at h3
    have hmvs : Movable cfg s.ms := by rw [h4]; exact h5.movable
    replace he : swapAny cfg a b tmp w = .ok () w' := he
    simp only [swapAny, bind_apply] at he
    obtain ⟨w1, e1, R1⟩ := moveCtor_spec R h1 h2 hmvs
    have H1 := heir_moved (σ := σ) (s := ⟨s.ms, s.al, none, none⟩) (Ne.symm hne) h2 rfl rfl
    have n1 : σ.no ≤ (moved (σ.set tmp ⟨s.ms, s.al, none, none⟩) tmp ⟨s.ms, s.al, none, none⟩ a s).no := moved_no'
    obtain ⟨u1, s1, gu1, gs1, mu1, ms1, au1, as1, vu1, os1, oth1, cp1, nb1, g6, g7, g8⟩ :=
      moved_facts (s := ⟨s.ms, s.al, none, none⟩) (Ne.symm hne) h2 rfl rfl
    generalize hσ1 : moved (σ.set tmp ⟨s.ms, s.al, none, none⟩) tmp ⟨s.ms, s.al, none, none⟩ a s = σ1 at *
    simp only [e1] at he
    -- the memory of the value in `tmp`
    have hum : s.obj.isSome → u1.mem.isSome = s.mem.isSome := fun ho => by
      cases hm : s.mem with
      | none => rw [g7 hm]
      | some p => rw [(g6 ho (by simp [hm])).1, hm]
    by_cases hab : a = b
    · subst hab
      have hst : s = t := by rw [h2] at h3; exact Option.some.inj h3
      subst hst
      have hnU : ¬ AllocsDiffer cfg s.al s.al := fun h => h.2.2 rfl
      have hnU' : ¬ Unequal cfg s1 u1 := by
        unfold Unequal; rw [au1, as1]; exact hnU
      rcases moveAssign_spec C R1 hne gs1 gu1 (by rw [mu1, ms1]) (by rw [mu1]; exact hmvs) (fun _ _ => hnU') with
        ⟨w2, e2, R2, _⟩ | ⟨hU, _⟩ | ⟨hU, _⟩
      · obtain ⟨s', t', M⟩ := moveAssigned_facts (cfg := cfg) (s := s1) hne gu1
        obtain ⟨w3, e3, R3⟩ := destructor_spec R2 M.geto
        have e4 := finallyDo_ok (x := ()) (m := (do moveAssign cfg a a; moveAssign cfg a tmp : Mem.M Unit)) (w := w1) (w1 := w2)
          (by simp only [bind_apply, moveAssign_self, e2]) e3
        rw [e4] at he
        cases he
        have H2 := heir_moveAssigned (cfg := cfg) (s := s1) hne gu1 (fun _ _ => hnU')
        have H3 : Heir (moveAssigned cfg σ1 a s1 tmp u1) ((moveAssigned cfg σ1 a s1 tmp u1).del tmp) _ :=
          Heir.fresh (x := tmp) (fun c hc => by simp only [Abs.del]; exact upd_other _ _ _ _ hc)
            (fun s' ob g hob => by simp [Abs.del] at g)
        refine ⟨_, R3, ((H1.comp H2 n1).comp H3 (Nat.le_trans n1 moveAssigned_no)).congr fun c q ob k1 k2 => ?_⟩
        have hct : c ≠ tmp := by rintro rfl; rw [h1] at k1; cases k1
        by_cases hca : c = a
        · subst hca
          rw [h2] at k1; cases k1
          have hum := hum (by simp [k2])
          simp only [movedTo, fate, if_neg hct, if_true, hum, stablePtrs_snap h2', diffAlloc_snap h2' h2',
            decide_eq_false hnU, decide_eq_false hnU']
          cases s.mem.isSome <;> simp [movedTo, Ne.symm hct, hct]
        · simp [movedTo, fate, hct, hca]
      · exact absurd hU hnU'
      · exact absurd hU hnU'
    · have gt1 : σ1.snaps b = some t := by rw [oth1 b hneb (Ne.symm hab)]; exact h3
      have hU1 : Unequal cfg s1 t ↔ AllocsDiffer cfg s.al t.al := by unfold Unequal; rw [as1]
      rcases moveAssign_spec C R1 hab gs1 gt1 (by rw [ms1]; exact h4) h5.movable (fun h0 _ => by rw [hU1]; exact h6 h0) with
        ⟨w2, e2, R2, _⟩ | ⟨hU, _, _, w2, e2, R2, _⟩ | ⟨hU, ob, hob, hn, e2, _⟩
      · obtain ⟨s2, t2, M⟩ := moveAssigned_facts (cfg := cfg) (s := s1) hab gt1
        have gu2 : (moveAssigned cfg σ1 a s1 b t).snaps tmp = some u1 := by
          rw [M.other tmp (Ne.symm hne) (Ne.symm hneb)]; exact gu1
        have hU2 : Unequal cfg t2 u1 ↔ AllocsDiffer cfg s.al t.al := by
          unfold Unequal; rw [M.alo, au1]; exact ⟨AllocsDiffer.symm, AllocsDiffer.symm⟩
        rcases moveAssign_spec C R2 hneb M.geto gu2 (by rw [M.mso, mu1]; exact h4.symm) (by rw [mu1]; exact hmvs)
          (fun h0 _ => by rw [hU2]; exact h6 h0) with
          ⟨w3, e3, R3, _⟩ | ⟨hU, _, _, w3, e3, R3, _⟩ | ⟨hU, ob, hob, hn, e3, _⟩
        · obtain ⟨t3, u3, N⟩ := moveAssigned_facts (cfg := cfg) (s := t2) hneb gu2
          obtain ⟨w4, e4, R4⟩ := destructor_spec R3 N.geto
          have e5 := finallyDo_ok (x := ()) (m := (do moveAssign cfg a b; moveAssign cfg b tmp : Mem.M Unit)) (w := w1) (w1 := w3)
            (by simp only [bind_apply, e2, e3]) e4
          rw [e5] at he
          cases he
          have H2 := heir_moveAssigned (cfg := cfg) (s := s1) hab gt1 (fun h0 _ => by rw [hU1]; exact h6 h0)
          have H3 := heir_moveAssigned (cfg := cfg) (s := t2) hneb gu2 (fun h0 _ => by rw [hU2]; exact h6 h0)
          have H4 : Heir (moveAssigned cfg (moveAssigned cfg σ1 a s1 b t) b t2 tmp u1) _ _ :=
            Heir.fresh (x := tmp) (σ' := (moveAssigned cfg (moveAssigned cfg σ1 a s1 b t) b t2 tmp u1).del tmp)
              (fun c hc => by simp only [Abs.del]; exact upd_other _ _ _ _ hc) (fun s' ob g hob => by simp [Abs.del] at g)
          have n2 := Nat.le_trans n1 (moveAssigned_no (cfg := cfg) (σ := σ1) (a := a) (o := b) (s := s1) (t := t))
          have n3 := Nat.le_trans n2 (moveAssigned_no (cfg := cfg) (σ := moveAssigned cfg σ1 a s1 b t) (a := b) (o := tmp) (s := t2) (t := u1))
          refine ⟨_, R4, (((H1.comp H2 n1).comp H3 n2).comp H4 n3).congr fun c q ob k1 k2 => ?_⟩
          have hct : c ≠ tmp := by rintro rfl; rw [h1] at k1; cases k1
          by_cases hca : c = a
          · subst hca
            rw [h2] at k1; cases k1
            have hum := hum (by simp [k2])
            simp only [movedTo, fate, if_neg hct, if_true, hum, stablePtrs_snap h2', diffAlloc_snap h2' h3', decide_eq_decide.2 hU2]
            cases s.mem.isSome <;> cases hd : decide (AllocsDiffer cfg s.al t.al) <;>
              simp [movedTo, Ne.symm hct, Ne.symm hneb, hneb, hct]
          · by_cases hcb : c = b
            · subst hcb
              rw [h3] at k1; cases k1
              simp only [movedTo, fate, if_neg hct, if_neg hca, if_true, Option.bind_some, stablePtrs_snap h3', diffAlloc_snap h2' h3',
                decide_eq_decide.2 hU1]
              cases t.mem.isSome <;> cases hd : decide (AllocsDiffer cfg s.al t.al) <;> simp [movedTo, hab, hne]
            · simp [movedTo, fate, hct, hca, hcb]
        · simp [finallyDo, bind_apply, e2, e3] at he
          split at he <;> simp at he
        · simp [finallyDo, bind_apply, e2, e3] at he
      · simp [finallyDo, bind_apply, e2] at he
        split at he <;> simp at he
      · simp [finallyDo, bind_apply, e2] at he
  | materialize a ms al o =>
    obtain ⟨h1, h2, hcp, t, h3, hi, ob, hob, hnt⟩ := L
    rw [R.snaps] at h1 h3
    obtain ⟨tt, v, v', htt, hv, hr, _⟩ := refTo_spec R h3 hob hi
    rcases materialize_spec (al := al) C R h1 h3 h2 hcp hi hob hr hnt with ⟨u, h', R'⟩ | ⟨_, u, nb', h', R'⟩
    · simp [exec, hr, h'] at he; subst he
      refine ⟨_, R', Heir.made (x := a) (fun c hc => ?_) (fun s' ob g hob => copied_obj g hob) h1⟩
      unfold copied
      split
      · simp only [Abs.set]; exact upd_other _ _ _ _ hc
      · simp only [Abs.set]; exact upd_other _ _ _ _ hc
    · simp [exec, hr, h'] at he

end AnyAny.Mem
