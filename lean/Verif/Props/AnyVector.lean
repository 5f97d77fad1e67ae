import Verif.Model.AnyVector
import Verif.Props.AnyOps
/-
C111: a `std::vector` of anys grows by moving them. Partial: not when instances of the allocator can be
unequal and are not propagated on move assignment (`std::pmr::polymorphic_allocator`): the move
constructor is then not declared `noexcept`, although it never throws (C06), and the vector copies.
-/
namespace AnyAny.Mem
variable {cfg : Cfg}

/-- `ps` describes a vector in `w` about to grow: pairs of an address in the new storage, where no any is
yet, and the address of an element; all addresses are different, all elements are anys of the class with
methods `ms`, which can be moved. -/
structure Growing (cfg : Cfg) (w : World) (ms : List Method) (ps : List (Nat × Nat)) : Prop where
  news : (ps.map (·.1)).Nodup
  olds : (ps.map (·.2)).Nodup
  free : ∀ p ∈ ps, snap w p.1 = none
  elems : ∀ p ∈ ps, ∃ t, snap w p.2 = some t ∧ t.ms = ms
  movable : Movable cfg ms
  destroy : .destroy ∈ ms

/-- Is `c` an element, in the old or in the new storage? -/
def OfVector (ps : List (Nat × Nat)) (c : Nat) : Prop := ∃ p ∈ ps, c = p.1 ∨ c = p.2

/-- How many elements have a value. -/
def valued (w : World) (ps : List (Nat × Nat)) : Nat := (ps.filter fun p => (content w p.2).isSome).length

/-! ### Auxiliary -/

/-- Did the operation throw? -/
def Res.threw {α : Type} : Res α → Bool
  | .exn _ => true
  | _ => false

theorem destroyAll_spec : ∀ (os : List Nat) {w : World} {σ : Abs}, Rep cfg w σ → os.Nodup →
    (∀ o ∈ os, (σ.snaps o).isSome) →
    ∃ w' σ', destroyAll cfg os w = .ok () w' ∧ Rep cfg w' σ' ∧ (∀ o ∈ os, σ'.snaps o = none) ∧
      (∀ c, c ∉ os → σ'.snaps c = σ.snaps c) ∧ σ'.cp = σ.cp ∧ σ'.nb = σ.nb ∧ σ'.no = σ.no
  | [], w, σ, R, _, _ => ⟨w, σ, rfl, R, by simp, fun _ _ => rfl, rfl, rfl, rfl⟩
  | o :: os, w, σ, R, hn, ha => by
    obtain ⟨hno, hn'⟩ := List.nodup_cons.1 hn
    obtain ⟨s, hs⟩ := Option.isSome_iff_exists.1 (ha o (List.mem_cons_self ..))
    obtain ⟨w1, h1, R1⟩ := destructor_spec R hs
    have hsn : ∀ c, c ≠ o → (σ.del o).snaps c = σ.snaps c := fun c hc => upd_other _ _ _ _ hc
    obtain ⟨w', σ', h2, R2, g1, g2, g3, g4, g5⟩ := destroyAll_spec os R1 hn' (fun x hx => by
      rw [hsn x (by rintro rfl; exact hno hx)]; exact ha x (List.mem_cons_of_mem _ hx))
    refine ⟨w', σ', by simp only [destroyAll, bind_apply, h1, h2], R2, ?_, ?_, g3, g4, g5⟩
    · intro x hx
      rcases List.mem_cons.1 hx with rfl | hx
      · rw [g2 _ hno]; exact upd_same _ _ _
      · exact g1 x hx
    · intro c hc
      rw [g2 c (fun h => hc (List.mem_cons_of_mem _ h)), hsn c (by rintro rfl; exact hc (List.mem_cons_self ..))]

/-- The conditions for the rest of the elements, after a step that changed only the first pair. -/
theorem rest_free {σ σ1 : Nat → Option Snap} {n o : Nat} {ps : List (Nat × Nat)}
    (hn : (((n, o) :: ps).map (·.1)).Nodup)
    (ho : (((n, o) :: ps).map (·.2)).Nodup) (hf : ∀ p ∈ (n, o) :: ps, σ p.1 = none)
    (ha : ∀ p ∈ (n, o) :: ps, ∃ t, σ p.2 = some t)
    (hoth : ∀ c, c ≠ n → c ≠ o → σ1 c = σ c) :
    (∀ p ∈ ps, p.1 ≠ n ∧ p.1 ≠ o ∧ p.2 ≠ n ∧ p.2 ≠ o) ∧ n ≠ o := by
  simp only [List.map_cons, List.nodup_cons, List.mem_map, not_exists, not_and] at hn ho
  have h1 := hf (n, o) (List.mem_cons_self ..)
  obtain ⟨t, h2⟩ := ha (n, o) (List.mem_cons_self ..)
  refine ⟨fun p hp => ⟨fun e => hn.1 p hp e, ?_, ?_, fun e => ho.1 p hp e⟩, ?_⟩
  · intro e; have := hf p (List.mem_cons_of_mem _ hp); rw [e] at this; rw [this] at h2; cases h2
  · intro e; obtain ⟨t, h⟩ := ha p (List.mem_cons_of_mem _ hp); rw [e] at h; rw [h] at h1; cases h1
  · intro e; subst e; rw [h1] at h2; cases h2

theorem growCtors_move {ms : List Method} (hg : growsByMoving cfg ms = true) (hmv : Movable cfg ms) :
    ∀ (ps : List (Nat × Nat)) {w : World} {σ : Abs}, Rep cfg w σ →
    (ps.map (·.1)).Nodup → (ps.map (·.2)).Nodup → (∀ p ∈ ps, σ.snaps p.1 = none) →
    (∀ p ∈ ps, ∃ t, σ.snaps p.2 = some t ∧ t.ms = ms) →
    ∃ w' σ', growCtors cfg ms ps w = .ok () w' ∧ Rep cfg w' σ' ∧
      (∀ p ∈ ps, ∀ t, σ.snaps p.2 = some t → ∃ s' t', σ'.snaps p.1 = some s' ∧ σ'.snaps p.2 = some t' ∧
        s'.ms = ms ∧ s'.al = t.al ∧ s'.val = t.val ∧
        (t.obj.isSome → t.mem.isSome → s'.mem = t.mem ∧ s'.obj = t.obj)) ∧
      (∀ c, ¬ OfVector ps c → σ'.snaps c = σ.snaps c) ∧ σ'.cp = σ.cp ∧ σ'.nb = σ.nb
  | [], w, σ, R, _, _, _, _ => ⟨w, σ, rfl, R, by simp, fun _ _ => rfl, rfl, rfl⟩
  | (n, o) :: ps, w, σ, R, hn, ho, hf, ha => by
    have ha' : ∀ p ∈ (n, o) :: ps, ∃ t, σ.snaps p.2 = some t := fun p hp => by
      obtain ⟨t, h, _⟩ := ha p hp; exact ⟨t, h⟩
    obtain ⟨hd, hne⟩ := rest_free (σ1 := σ.snaps) hn ho hf ha' (fun _ _ _ => rfl)
    obtain ⟨t, ht, htm⟩ := ha (n, o) (List.mem_cons_self ..)
    have hfn := hf (n, o) (List.mem_cons_self ..)
    obtain ⟨w1, h1, R1⟩ := moveCtor_spec R hfn ht (by rw [htm]; exact hmv)
    obtain ⟨s', t', g1, g2, m1, m2, l1, l2, g3, g4, g5, g6, g7, g8, _⟩ :=
      moved_facts (σ := σ) (a := n) (s := ⟨t.ms, t.al, none, none⟩) hne ht rfl rfl
    simp only [List.map_cons, List.nodup_cons] at hn ho
    obtain ⟨w', σ', h2, R2, k1, k2, k3, k4⟩ := growCtors_move hg hmv ps R1 hn.2 ho.2
      (fun p hp => by rw [g5 _ (hd p hp).1 (hd p hp).2.1]; exact hf p (List.mem_cons_of_mem _ hp))
      (fun p hp => by rw [g5 _ (hd p hp).2.2.1 (hd p hp).2.2.2]; exact ha p (List.mem_cons_of_mem _ hp))
    have hnv : ¬ OfVector ps n := by
      rintro ⟨p, hp, e | e⟩
      · exact (hd p hp).1 e.symm
      · exact (hd p hp).2.2.1 e.symm
    have hov : ¬ OfVector ps o := by
      rintro ⟨p, hp, e | e⟩
      · exact (hd p hp).2.1 e.symm
      · exact (hd p hp).2.2.2 e.symm
    refine ⟨w', σ', ?_, R2, ?_, ?_, by rw [k3, g6], by rw [k4, g7]⟩
    · simp only [growCtors, growOne, hg, if_true, bind_apply, h1, onFail, h2]
    · intro p hp u hu
      rcases List.mem_cons.1 hp with rfl | hp
      · simp only at hu ht
        rw [ht] at hu; cases hu
        refine ⟨s', t', by rw [k2 _ hnv, g1], by rw [k2 _ hov, g2], by rw [m1]; exact htm, l1, g3, fun x y => ?_⟩
        exact ⟨(g8 x y).1, (g8 x y).2.1⟩
      · exact k1 p hp u (by rw [g5 _ (hd p hp).2.2.1 (hd p hp).2.2.2]; exact hu)
    · intro c hc
      have hc' : ¬ OfVector ps c := fun ⟨p, hp, e⟩ => hc ⟨p, List.mem_cons_of_mem _ hp, e⟩
      rw [k2 c hc', g5 c]
      · intro e; exact hc ⟨(n, o), List.mem_cons_self .., Or.inl e⟩
      · intro e; exact hc ⟨(n, o), List.mem_cons_self .., Or.inr e⟩

theorem growCtors_copy (C : CfgOk cfg) {ms : List Method} (hg : growsByMoving cfg ms = false)
    (hd0 : .destroy ∈ ms) (hcp : .copy 0 ∈ ms) :
    ∀ (ps : List (Nat × Nat)) {w : World} {σ : Abs}, Rep cfg w σ →
    (ps.map (·.1)).Nodup → (ps.map (·.2)).Nodup → (∀ p ∈ ps, σ.snaps p.1 = none) →
    (∀ p ∈ ps, ∃ t, σ.snaps p.2 = some t ∧ t.ms = ms) →
    (∃ w' σ', growCtors cfg ms ps w = .ok () w' ∧ Rep cfg w' σ' ∧
      (∀ p ∈ ps, ∀ t, σ.snaps p.2 = some t → ∃ s', σ'.snaps p.1 = some s' ∧ s'.ms = ms ∧
        s'.al = cfg.soccc t.al ∧ s'.val = t.val ∧ (∀ ob, s'.obj = some ob → σ.no ≤ ob.id)) ∧
      (∀ c, (∀ p ∈ ps, c ≠ p.1) → σ'.snaps c = σ.snaps c) ∧
      σ'.cp = σ.cp + (ps.filter fun p => (σ.snaps p.2).any (·.obj.isSome)).length ∧ σ.no ≤ σ'.no) ∨
    ((∃ p ∈ ps, (σ.snaps p.2).any (·.obj.isSome) = true) ∧
      ∃ w' σ', growCtors cfg ms ps w = .exn w' ∧ Rep cfg w' σ' ∧ σ'.snaps = σ.snaps)
  | [], w, σ, R, _, _, _, _ => Or.inl ⟨w, σ, rfl, R, by simp, fun _ _ => rfl, rfl, Nat.le_refl _⟩
  | (n, o) :: ps, w, σ, R, hn, ho, hf, ha => by
    have ha' : ∀ p ∈ (n, o) :: ps, ∃ t, σ.snaps p.2 = some t := fun p hp => by
      obtain ⟨t, h, _⟩ := ha p hp; exact ⟨t, h⟩
    obtain ⟨hd, hne⟩ := rest_free (σ1 := σ.snaps) hn ho hf ha' (fun _ _ _ => rfl)
    obtain ⟨t, ht, htm⟩ := ha (n, o) (List.mem_cons_self ..)
    have hfn := hf (n, o) (List.mem_cons_self ..)
    simp only [List.map_cons, List.nodup_cons] at hn ho
    simp only at ht hfn
    rcases copyCtor_spec C R hfn ht hd0 (by rw [htm]; exact hcp) (by rw [htm]; exact List.infix_refl _) with
      ⟨w1, h1, R1⟩ | ⟨hob, w1, nb', h1, R1⟩
    · obtain ⟨g1, g2⟩ := copyConstructed_eq (cfg := cfg) σ n ms t
      have hno : σ.no ≤ (copyConstructed cfg σ n ms t).no := by
        unfold copyConstructed copied
        split
        · exact Nat.le_refl _
        · split <;> exact Nat.le_succ _
      have g5 : ∀ c, c ≠ n → (copyConstructed cfg σ n ms t).snaps c = σ.snaps c := fun c hc => by
        rw [g1]; exact upd_other _ _ _ _ hc
      have gn : (copyConstructed cfg σ n ms t).snaps n = some (copySnap cfg σ ms t) := by rw [g1]; exact upd_same _ _ _
      rcases growCtors_copy C hg hd0 hcp ps R1 hn.2 ho.2
        (fun p hp => by rw [g5 _ (hd p hp).1]; exact hf p (List.mem_cons_of_mem _ hp))
        (fun p hp => by rw [g5 _ (hd p hp).2.2.1]; exact ha p (List.mem_cons_of_mem _ hp)) with
        ⟨w', σ', h2, R2, k1, k2, k3, k4⟩ | ⟨⟨p, hp, hpv⟩, w', σ', h2, R2, k1⟩
      · refine Or.inl ⟨w', σ', ?_, R2, ?_, ?_, ?_, Nat.le_trans hno k4⟩
        · simp only [growCtors, growOne, hg, Bool.false_eq_true, if_false, bind_apply, h1, onFail, h2]
        · intro p hp u hu
          rcases List.mem_cons.1 hp with rfl | hp
          · simp only at hu
            rw [ht] at hu; cases hu
            refine ⟨_, by rw [k2 _ (fun p hp e => (hd p hp).1 e.symm)]; exact gn, rfl, rfl, ?_, ?_⟩
            · simp [Snap.val, copySnap, Function.comp_def]
            · intro ob hob
              simp only [copySnap, Option.map_eq_some_iff] at hob
              obtain ⟨_, _, rfl⟩ := hob
              exact Nat.le_refl _
          · obtain ⟨s', q1, q2, q3, q4, q5⟩ := k1 p hp u (by rw [g5 _ (hd p hp).2.2.1]; exact hu)
            exact ⟨s', q1, q2, q3, q4, fun ob h => Nat.le_trans hno (q5 ob h)⟩
        · intro c hc
          rw [k2 c (fun p hp => hc p (List.mem_cons_of_mem _ hp)), g5 c (hc (n, o) (List.mem_cons_self ..))]
        · have e : (ps.filter fun p => ((copyConstructed cfg σ n ms t).snaps p.2).any (·.obj.isSome)) =
              (ps.filter fun p => (σ.snaps p.2).any (·.obj.isSome)) :=
            List.filter_congr (fun p hp => by rw [g5 _ (hd p hp).2.2.1])
          rw [k3, g2, e, List.filter_cons]
          simp only [ht, Option.any_some]
          split <;> simp <;> omega
      · have hsn : σ'.snaps n = some (copySnap cfg σ ms t) := by rw [k1]; exact gn
        obtain ⟨w3, h3, R3⟩ := destructor_spec R2 hsn
        refine Or.inr ⟨⟨p, List.mem_cons_of_mem _ hp, by rw [← g5 _ (hd p hp).2.2.1]; exact hpv⟩, w3, _, ?_, R3, ?_⟩
        · simp only [growCtors, growOne, hg, Bool.false_eq_true, if_false, bind_apply, h1, onFail, h2, h3]
        · funext c
          by_cases hc : c = n
          · subst hc; rw [hfn]; exact upd_same _ _ _
          · rw [← g5 c hc, ← k1]; exact upd_other _ _ _ _ hc
    · refine Or.inr ⟨⟨(n, o), List.mem_cons_self .., by simp [ht, hob]⟩, w1, _, ?_, R1, rfl⟩
      simp only [growCtors, growOne, hg, Bool.false_eq_true, if_false, bind_apply, h1]

theorem content_id_lt {w : World} (W : WF cfg w) {a : Nat} {o : Obj} (h : content w a = some o) :
    o.id < w.nextObj := by
  unfold content at h
  cases hs : w.anys a with
  | none => rw [hs] at h; cases h
  | some s =>
    rw [hs] at h
    simp only [Option.bind_some] at h
    cases hv : s.vt with
    | none => rw [hv] at h; cases h
    | some v =>
      simp only [hv, Option.isSome_some, if_true] at h
      obtain ⟨o', h1, _, _, h4, _⟩ := (W.any a s hs).full v hv
      rw [h] at h1
      cases h1
      exact h4

/-! ### C111 -/

/-- What growth by moving does: nothing is thrown, nothing is copied, no memory is taken by the anys; every
element is in its new place with its type, value, class and allocator, the old places are free, and every
other any is as it was. A value that was stored in memory is the same object at the same address. -/
structure Moved (cfg : Cfg) (ms : List Method) (ps : List (Nat × Nat)) (w w' : World) : Prop where
  done : growVector cfg ms ps w = .ok () w'
  elem : ∀ p ∈ ps, alive w' p.1 ∧ view w' p.1 = view w p.2 ∧ methodsOf w' p.1 = some ms ∧
    allocOf w' p.1 = allocOf w p.2
  old : ∀ p ∈ ps, ¬ alive w' p.2
  same : ∀ p ∈ ps, isStablePointers p.2 w = .ok true w → (content w p.2).isSome →
    content w' p.1 = content w p.2 ∧ addrOf w' p.1 = addrOf w p.2
  others : ∀ c, ¬ OfVector ps c → snap w' c = snap w c
  copies : w'.copies = w.copies
  memory : w'.nextBlk = w.nextBlk

theorem not_alive {w : World} {a : Nat} (h : snap w a = none) : ¬ alive w a := by
  intro ha
  obtain ⟨s, hs, _⟩ := snap_some ha
  rw [h] at hs; cases hs

/-- C111, partial: a vector of anys grows by moving them, if the instances of the allocator are all equal
or are propagated on move assignment, or if the anys cannot be copied. What is missing: every other
allocator (`C111_fails`). -/
theorem C111_partial (C : CfgOk cfg) {w : World} (h : Reachable cfg w) {ms : List Method} {ps : List (Nat × Nat)}
    (G : Growing cfg w ms ps) (hm : cfg.alwaysEq = true ∨ cfg.pocma = true ∨ .copy 0 ∉ ms) :
    ∃ w', Moved cfg ms ps w w' := by
  have R := h.rep C
  have hg : growsByMoving cfg ms = true := by
    rcases hm with h | h | h <;> simp [growsByMoving, nothrowMoveCtor, movableAlloc, copyConstructible, h]
  obtain ⟨w1, σ1, h1, R1, a1, a2, a3, a4⟩ :=
    growCtors_move hg G.movable ps R G.news G.olds G.free G.elems
  have hal : ∀ o ∈ ps.map (·.2), (σ1.snaps o).isSome := by
    intro o ho
    obtain ⟨p, hp, rfl⟩ := List.mem_map.1 ho
    obtain ⟨t, ht, _⟩ := G.elems p hp
    obtain ⟨s', t', _, e, _⟩ := a1 p hp t ht
    simp [e]
  obtain ⟨w2, σ2, h2, R2, b1, b2, b3, b4, _⟩ := destroyAll_spec _ R1 G.olds hal
  have hnew : ∀ p ∈ ps, p.1 ∉ ps.map (·.2) := by
    intro p hp hx
    obtain ⟨q, hq, e⟩ := List.mem_map.1 hx
    obtain ⟨t, ht, _⟩ := G.elems q hq
    rw [e, G.free p hp] at ht; cases ht
  have hsnap : ∀ p ∈ ps, ∀ t, snap w p.2 = some t → ∃ s', snap w2 p.1 = some s' ∧ s'.ms = ms ∧ s'.al = t.al ∧
      s'.val = t.val ∧ (t.obj.isSome → t.mem.isSome → s'.mem = t.mem ∧ s'.obj = t.obj) := by
    intro p hp t ht
    obtain ⟨s', t', e, _, e1, e2, e3, e4⟩ := a1 p hp t ht
    exact ⟨s', by rw [R2.snaps, b2 _ (hnew p hp), e], e1, e2, e3, e4⟩
  refine ⟨w2, ?_, ?_, ?_, ?_, ?_, ?_, ?_⟩
  · simp only [growVector, bind_apply, h1, h2]
  · intro p hp
    obtain ⟨t, ht, htm⟩ := G.elems p hp
    obtain ⟨s', e0, e1, e2, e3, _⟩ := hsnap p hp t ht
    obtain ⟨i1, i2, i3, i4, i5, i6⟩ := of_snap e0
    obtain ⟨j1, j2, j3, j4, j5, j6⟩ := of_snap ht
    exact ⟨i1, by rw [i6, j6, e3], by rw [i4, e1], by rw [i5, j5, e2]⟩
  · intro p hp
    exact not_alive (by rw [R2.snaps]; exact b1 _ (List.mem_map.2 ⟨p, hp, rfl⟩))
  · intro p hp hst hv
    obtain ⟨t, ht, htm⟩ := G.elems p hp
    obtain ⟨s', e0, e1, e2, e3, e4⟩ := hsnap p hp t ht
    rw [isStable_spec R ht] at hst
    have hmem : t.mem.isSome := by simpa using hst
    rw [(of_snap ht).2.1] at hv
    obtain ⟨f1, f2⟩ := e4 hv hmem
    obtain ⟨⟨x, n⟩, hx⟩ := Option.isSome_iff_exists.1 hmem
    have mb : memOf w2 p.1 = some (x, n) := by rw [(of_snap e0).2.2.1, f1, hx]
    have ma : memOf w p.2 = some (x, n) := by rw [(of_snap ht).2.2.1, hx]
    obtain ⟨q1, k1, p1, p2, _⟩ := memOf_some R2.wf mb
    obtain ⟨q2, k2, p3, p4, _⟩ := memOf_some R.wf ma
    exact ⟨by rw [(of_snap e0).2.1, f2, (of_snap ht).2.1], by simp [addrOf, p1, p2, p3, p4]⟩
  · intro c hc
    rw [R2.snaps, b2 c, a2 c hc]; rfl
    intro hx
    obtain ⟨q, hq, e⟩ := List.mem_map.1 hx
    exact hc ⟨q, hq, Or.inr e.symm⟩
  · rw [R2.cp, b3, a3]; rfl
  · rw [R2.nb, b4, a4]; rfl

/-- C111, what happens with every other allocator: each value is copied into a new object (one copy for
each element that has a value) with the allocator chosen by `select_on_container_copy_construction`, and
the old one is destroyed; or a copy throws, and then every any is as it was. -/
theorem C111_copies (C : CfgOk cfg) {w : World} (h : Reachable cfg w) {ms : List Method} {ps : List (Nat × Nat)}
    (G : Growing cfg w ms ps) (h1 : cfg.alwaysEq = false) (h2 : cfg.pocma = false) (h3 : .copy 0 ∈ ms) :
    (∃ w', growVector cfg ms ps w = .ok () w' ∧
      (∀ p ∈ ps, alive w' p.1 ∧ ¬ alive w' p.2 ∧ view w' p.1 = view w p.2 ∧ methodsOf w' p.1 = some ms ∧
        allocOf w' p.1 = (allocOf w p.2).map cfg.soccc ∧
        ∀ ob, content w' p.1 = some ob → w.nextObj ≤ ob.id) ∧
      (∀ c, ¬ OfVector ps c → snap w' c = snap w c) ∧ w'.copies = w.copies + valued w ps) ∨
    (0 < valued w ps ∧ ∃ w', growVector cfg ms ps w = .exn w' ∧ ∀ c, snap w' c = snap w c) := by
  have R := h.rep C
  have hg : growsByMoving cfg ms = false := by
    simp [growsByMoving, nothrowMoveCtor, movableAlloc, copyConstructible, h1, h2, h3]
  have hnew : ∀ p ∈ ps, p.1 ∉ ps.map (·.2) := by
    intro p hp hx
    obtain ⟨q, hq, e⟩ := List.mem_map.1 hx
    obtain ⟨t, ht, _⟩ := G.elems q hq
    rw [e, G.free p hp] at ht; cases ht
  have hold : ∀ p ∈ ps, ∀ q ∈ ps, p.2 ≠ q.1 := by
    intro p hp q hq e
    obtain ⟨t, ht, _⟩ := G.elems p hp
    rw [e, G.free q hq] at ht; cases ht
  have hval : ∀ p ∈ ps, ((absOf w).snaps p.2).any (·.obj.isSome) = (content w p.2).isSome := by
    intro p hp
    obtain ⟨t, ht, _⟩ := G.elems p hp
    show (snap w p.2).any _ = _
    rw [ht, (of_snap ht).2.1]; rfl
  rcases growCtors_copy C hg G.destroy h3 ps R G.news G.olds G.free G.elems with
    ⟨w1, σ1, e1, R1, a1, a2, a3, a4⟩ | ⟨⟨p, hp, hpv⟩, w1, σ1, e1, R1, a1⟩
  · have hal : ∀ o ∈ ps.map (·.2), (σ1.snaps o).isSome := by
      intro o ho
      obtain ⟨p, hp, rfl⟩ := List.mem_map.1 ho
      obtain ⟨t, ht, _⟩ := G.elems p hp
      rw [a2 _ (hold p hp)]
      show (snap w p.2).isSome = true
      rw [ht]; rfl
    obtain ⟨w2, σ2, e2, R2, b1, b2, b3, b4, _⟩ := destroyAll_spec _ R1 G.olds hal
    refine Or.inl ⟨w2, by simp only [growVector, bind_apply, e1, e2], ?_, ?_, ?_⟩
    · intro p hp
      obtain ⟨t, ht, htm⟩ := G.elems p hp
      obtain ⟨s', q1, q2, q3, q4, q5⟩ := a1 p hp t ht
      have e0 : snap w2 p.1 = some s' := by rw [R2.snaps, b2 _ (hnew p hp), q1]
      obtain ⟨i1, i2, i3, i4, i5, i6⟩ := of_snap e0
      obtain ⟨j1, j2, j3, j4, j5, j6⟩ := of_snap ht
      exact ⟨i1, not_alive (by rw [R2.snaps]; exact b1 _ (List.mem_map.2 ⟨p, hp, rfl⟩)), by rw [i6, j6, q4],
        by rw [i4, q2], by rw [i5, j5, q3]; rfl, fun ob h => q5 ob (by rw [← i2]; exact h)⟩
    · intro c hc
      rw [R2.snaps, b2 c, a2 c]; rfl
      · intro p hp e; exact hc ⟨p, hp, Or.inl e⟩
      · intro hx
        obtain ⟨q, hq, e⟩ := List.mem_map.1 hx
        exact hc ⟨q, hq, Or.inr e.symm⟩
    · rw [R2.cp, b3, a3, valued, List.filter_congr hval]; rfl
  · refine Or.inr ⟨?_, w1, by simp only [growVector, bind_apply, e1], fun c => by rw [R1.snaps, a1]; rfl⟩
    rw [valued, List.length_pos_iff_exists_mem]
    exact ⟨p, List.mem_filter.2 ⟨hp, by rw [← hval p hp]; exact hpv⟩⟩

/-- C111 fails for every other allocator: whatever the vector, if one of its elements has a value, growth
does not move (a value is copied, or an exception leaves) although moving each element would not throw. -/
theorem C111_fails (C : CfgOk cfg) {w : World} (h : Reachable cfg w) {ms : List Method} {ps : List (Nat × Nat)}
    (G : Growing cfg w ms ps) (h1 : cfg.alwaysEq = false) (h2 : cfg.pocma = false) (h3 : .copy 0 ∈ ms)
    (hv : ∃ p ∈ ps, (content w p.2).isSome) :
    (¬ ∃ w', Moved cfg ms ps w w') ∧
    (∀ w', growVector cfg ms ps w = .ok () w' → w.copies < w'.copies ∧
      ∀ p ∈ ps, ∀ ob, content w p.2 = some ob → ∃ ob', content w' p.1 = some ob' ∧ ob'.id ≠ ob.id) ∧
    (∀ p ∈ ps, ∃ w', exec cfg (.moveCtor p.1 p.2) w = .ok () w') := by
  have hpos : 0 < valued w ps := by
    obtain ⟨p, hp, hpv⟩ := hv
    rw [valued, List.length_pos_iff_exists_mem]
    exact ⟨p, List.mem_filter.2 ⟨hp, hpv⟩⟩
  have hmv : ∀ p ∈ ps, ∃ w', exec cfg (.moveCtor p.1 p.2) w = .ok () w' := by
    intro p hp
    obtain ⟨t, ht, htm⟩ := G.elems p hp
    obtain ⟨w', e, _⟩ := C06_move_construction C h (b := p.1) (a := p.2) ⟨G.free p hp, t, ht, by rw [htm]; exact G.movable⟩
    exact ⟨w', e⟩
  rcases C111_copies C h G h1 h2 h3 with ⟨w1, e1, a1, a2, a3⟩ | ⟨_, w1, e1, _⟩
  · refine ⟨?_, ?_, hmv⟩
    · rintro ⟨w', M⟩
      have := M.done; rw [e1] at this; cases this
      have := M.copies; omega
    · intro w' e
      rw [e1] at e; cases e
      refine ⟨by omega, fun p hp ob hob => ?_⟩
      obtain ⟨_, _, hview, _, _, hid⟩ := a1 p hp
      have : (view w1 p.1).isSome := by rw [hview]; simp [view, hob]
      obtain ⟨ob', hob'⟩ := Option.isSome_iff_exists.1 (by simpa [view] using this : (content w1 p.1).isSome = true)
      refine ⟨ob', hob', fun e => ?_⟩
      have := hid ob' hob'
      have := content_id_lt (h.wf C) hob
      omega
  · refine ⟨?_, ?_, hmv⟩
    · rintro ⟨w', M⟩
      have := M.done; rw [e1] at this; cases this
    · intro w' e; rw [e1] at e; cases e

/-- C111, exactly: a vector with a value in it grows by moving precisely if the instances of the allocator
are all equal or propagated on move assignment, or the anys cannot be copied. -/
theorem C111_exact (C : CfgOk cfg) {w : World} (h : Reachable cfg w) {ms : List Method} {ps : List (Nat × Nat)}
    (G : Growing cfg w ms ps) (hv : ∃ p ∈ ps, (content w p.2).isSome) :
    (∃ w', Moved cfg ms ps w w') ↔ (cfg.alwaysEq = true ∨ cfg.pocma = true ∨ .copy 0 ∉ ms) := by
  refine ⟨fun hm => ?_, C111_partial C h G⟩
  cases h1 : cfg.alwaysEq with
  | true => exact Or.inl rfl
  | false =>
    cases h2 : cfg.pocma with
    | true => exact Or.inr (Or.inl rfl)
    | false =>
      refine Or.inr (Or.inr fun h3 => (C111_fails C h G h1 h2 h3 hv).1 hm)

/-- The vector of the examples: the anys at 0, 2 and 3 grow into 20, 21 and 22. -/
def exPairs : List (Nat × Nat) := [(20, 0), (21, 2), (22, 3)]

/-- A vector about to grow, with a value in the second element, and an allocator that is neither always equal
nor propagated. -/
example : ∃ w, Reachable exCfg w ∧ Growing exCfg w exMs exPairs ∧ view w 2 = some (2, 1) := by
  obtain ⟨w, h, h1, h2⟩ := run_witness (cfg := exCfg) (ops := exHist)
    (P := fun w => (∀ p ∈ exPairs, snap w p.1 = none ∧ (snap w p.2).map (·.ms) = some exMs) ∧ view w 2 = some (2, 1))
    (by decide +kernel)
  refine ⟨w, h, ⟨by decide, by decide, fun p hp => (h1 p hp).1, fun p hp => ?_, by decide, by decide⟩, h2⟩
  have := (h1 p hp).2
  rw [Option.map_eq_some_iff] at this
  exact this

/-- The same vector with an allocator that is propagated on move assignment. -/
example : ∃ w, Reachable { exCfg with pocma := true } w ∧ Growing { exCfg with pocma := true } w exMs exPairs ∧
    view w 2 = some (2, 1) := by
  obtain ⟨w, h, h1, h2⟩ := run_witness (cfg := { exCfg with pocma := true }) (ops := exHist)
    (P := fun w => (∀ p ∈ exPairs, snap w p.1 = none ∧ (snap w p.2).map (·.ms) = some exMs) ∧ view w 2 = some (2, 1))
    (by decide +kernel)
  refine ⟨w, h, ⟨by decide, by decide, fun p hp => (h1 p hp).1, fun p hp => ?_, by decide, by decide⟩, h2⟩
  have := (h1 p hp).2
  rw [Option.map_eq_some_iff] at this
  exact this

/-- C111 fails: growth of a vector of anys can throw (here the second copy fails), although moving an any never
does. -/
theorem C111_throws_fails : ∃ (cfg : Cfg) (w : World), CfgOk cfg ∧ Reachable cfg w ∧ Growing cfg w exMs exPairs ∧
    ∃ w', growVector cfg exMs exPairs w = .exn w' := by
  obtain ⟨w, h, h1, h2⟩ := run_witness (cfg := exCfgF 12) (ops := exHist)
    (P := fun w => (∀ p ∈ exPairs, snap w p.1 = none ∧ (snap w p.2).map (·.ms) = some exMs) ∧
      (growVector (exCfgF 12) exMs exPairs w).threw = true)
    (by decide +kernel)
  refine ⟨_, w, exCfgF_ok 12, h,
    ⟨by decide, by decide, fun p hp => (h1 p hp).1, fun p hp => ?_, by decide, by decide⟩, ?_⟩
  · have := (h1 p hp).2
    rw [Option.map_eq_some_iff] at this
    exact this
  · cases hr : growVector (exCfgF 12) exMs exPairs w with
    | exn w' => exact ⟨w', rfl⟩
    | ok _ _ => rw [hr] at h2; cases h2
    | ub => rw [hr] at h2; cases h2
    | term => rw [hr] at h2; cases h2

end AnyAny.Mem
