import Verif.Props.AnySafety
/-
C05-C08, C10-C13, C16-C20, C37, C62: what each operation on an any does, in every reachable state.
Statements use only the observations of Spec/AnyMem.lean: `content` (the contained object with its
identity), `view` (its type and value), `memOf` (owned memory block and its size), `addrOf` (address
of the value), `allocOf`, `alive`, `snap` (all of these), and the counters of constructed objects
(`nextObj`), allocated blocks (`nextBlk`), copy constructions (`copies`), destructions (`dtors`) and
deallocations (`frees`).
-/
namespace AnyAny.Mem
variable {cfg : Cfg}

theorem snapOf_upd {w w' : World} {σ' : Abs} {a : Nat} {s' : Snap} (R : Rep cfg w' σ')
    (h : σ'.snaps = upd (snap w) a (some s')) :
    snap w' a = some s' ∧ ∀ c, c ≠ a → snap w' c = snap w c := by
  rw [R.snaps, h]
  exact ⟨upd_same _ _ _, fun c hc => upd_other _ _ _ _ hc⟩

/-! ### C05 -/

/-- C05: copy construction `any b(a)` yields an any with the same type and an equal value, in a new
object, and changes no other any; or it throws, and no any was created or changed. -/
theorem C05_copy_construction (C : CfgOk cfg) {w : World} (h : Reachable cfg w) {b a : Nat} {ms : List Method}
    (L : Legal cfg w (.copyCtor b ms a)) :
    (∃ w', exec cfg (.copyCtor b ms a) w = .ok () w' ∧ alive w' b ∧ view w' b = view w a ∧
      (∀ c, c ≠ b → snap w' c = snap w c) ∧
      (∀ o, content w' b = some o → w.nextObj ≤ o.id) ∧
      w'.copies = w.copies + (if (content w a).isSome then 1 else 0)) ∨
    (∃ w', exec cfg (.copyCtor b ms a) w = .exn w' ∧ ¬ alive w' b ∧ ∀ c, snap w' c = snap w c) := by
  have R := h.rep C
  obtain ⟨h1, h2, t, h3, h4, h5⟩ := L
  obtain ⟨_, hc, _, _, _, hv⟩ := of_snap h3
  rcases copyCtor_spec C R h1 h3 h2 h4 h5 with ⟨w', h', R'⟩ | ⟨_, w', nb', h', R'⟩
  · obtain ⟨g1, g2⟩ := copyConstructed_eq (cfg := cfg) (absOf w) b ms t
    obtain ⟨k1, k2⟩ := snapOf_upd R' g1
    obtain ⟨i1, i2, i3, i4, i5, i6⟩ := of_snap k1
    refine Or.inl ⟨w', h', i1, ?_, k2, ?_, ?_⟩
    · rw [i6, hv]
      simp [Snap.val, copySnap, Function.comp_def]
    · intro o ho
      rw [i2] at ho
      simp only [copySnap, Option.map_eq_some_iff] at ho
      obtain ⟨ob, _, rfl⟩ := ho
      exact Nat.le_refl _
    · rw [R'.cp, g2, hc]; rfl
  · have hs : snap w' = snap w := R'.snaps
    refine Or.inr ⟨w', h', ?_, fun c => by rw [hs]⟩
    intro hal
    obtain ⟨s, hs', _⟩ := snap_some hal
    rw [hs, h1] at hs'; cases hs'

example : ∃ w, Reachable exCfg w ∧ (Legal exCfg w (.copyCtor 8 exMs 4) ∧ view w 4 = some (2, 7)) :=
  run_witness (ops := exHist) (by decide +kernel)

/-- What may follow: legal operations of a kind `P`, whose exceptions are caught. -/
inductive Later (cfg : Cfg) (P : Op → Prop) : World → World → Prop
  | refl {w} : Later cfg P w w
  | ok {w w1 w2 op} : P op → Legal cfg w op → exec cfg op w = .ok () w1 → Later cfg P w1 w2 → Later cfg P w w2
  | exn {w w1 w2 op} : P op → Legal cfg w op → exec cfg op w = .exn w1 → Later cfg P w1 w2 → Later cfg P w w2

theorem mayLose_touches {w : World} {op : Op} {c : Nat} (h : mayLose cfg w op c) : touches op c := by
  cases op <;> simp only [mayLose, touches] at h ⊢ <;> first | exact h | exact h.1 | exact .inl h.1 | exact h.elim

theorem Later.snap_eq (C : CfgOk cfg) {c : Nat} {w w' : World} (hl : Later cfg (fun op => ¬ touches op c) w w') (h : Reachable cfg w) :
    snap w' c = snap w c := by
  induction hl with
  | refl => rfl
  | ok hp L he _ ih => rw [ih (.ok h L he), C04_others_unchanged C h L he hp]
  | exn hp L he _ ih => rw [ih (.exn h L he), (C04_exception_step C h L he).1 c (fun hm => hp (mayLose_touches hm))]

/-- C05: later changes of the copy and of anything else do not affect the source, and later changes of the source and of anything else do not
affect the copy, also if operations throw. -/
theorem C05_independent (C : CfgOk cfg) {w w1 w2 : World} (h : Reachable cfg w) {b a : Nat} {ms : List Method}
    (L : Legal cfg w (.copyCtor b ms a)) (he : exec cfg (.copyCtor b ms a) w = .ok () w1) :
    (Later cfg (fun op => ¬ touches op a) w1 w2 → snap w2 a = snap w a) ∧
    (Later cfg (fun op => ¬ touches op b) w1 w2 → snap w2 b = snap w1 b ∧ view w2 b = view w a) := by
  have h1 : Reachable cfg w1 := .ok h L he
  rcases C05_copy_construction C h L with ⟨w', e, hal, hv, hf, _⟩ | ⟨w', e, _⟩
  · rw [he] at e; cases e
    have hne : a ≠ b := fun e => by
      obtain ⟨h1, _, t, h3, _⟩ := L
      rw [e, h1] at h3; cases h3
    refine ⟨fun l => by rw [l.snap_eq C h1, hf a hne], fun l => ⟨l.snap_eq C h1, ?_⟩⟩
    have hs := l.snap_eq C h1
    rcases e : snap w1 b with _ | t
    · have hb : ¬ alive w1 b := fun ha => by obtain ⟨t, ht, _⟩ := snap_some ha; rw [e] at ht; cases ht
      exact absurd ‹alive w1 b› hb
    · rw [← hv, (of_snap e).2.2.2.2.2, (of_snap (hs.trans e)).2.2.2.2.2]
  · rw [he] at e; cases e

/-! ### C06 -/

/-- C06: move construction `any b(std::move(a))` never throws; b has what a had, a has no value, no
other any changed, nothing was copied, and no memory was allocated. -/
theorem C06_move_construction (C : CfgOk cfg) {w : World} (h : Reachable cfg w) {b a : Nat}
    (L : Legal cfg w (.moveCtor b a)) :
    ∃ w', exec cfg (.moveCtor b a) w = .ok () w' ∧ alive w' b ∧ alive w' a ∧ view w' b = view w a ∧
      content w' a = none ∧ (∀ c, c ≠ a → c ≠ b → snap w' c = snap w c) ∧
      w'.copies = w.copies ∧ w'.nextBlk = w.nextBlk ∧ methodsOf w' b = methodsOf w a ∧
      allocOf w' b = allocOf w a ∧ allocOf w' a = allocOf w a := by
  have R := h.rep C
  obtain ⟨h1, t, h3, h4⟩ := L
  have hne : b ≠ a := by rintro rfl; rw [h1] at h3; cases h3
  obtain ⟨w', h', R'⟩ := moveCtor_spec R h1 h3 h4
  obtain ⟨s', t', g1, g2, m1, m2, l1, l2, g3, g4, g5, g6, g7, _⟩ :=
    moved_facts (σ := absOf w) (a := b) (s := ⟨t.ms, t.al, none, none⟩) hne h3 rfl rfl
  rw [← R'.snaps] at g1 g2 g5
  obtain ⟨i1, i2, i3, i4, i5, i6⟩ := of_snap g1
  obtain ⟨j1, j2, j3, j4, j5, j6⟩ := of_snap g2
  obtain ⟨k1, k2, k3, k4, k5, k6⟩ := of_snap h3
  exact ⟨w', h', i1, j1, by rw [i6, g3, k6], by rw [j2, g4], fun c hc hc' => g5 c hc' hc,
    by rw [R'.cp, g6]; rfl, by rw [R'.nb, g7]; rfl, by rw [i4, k4, m1], by rw [i5, k5, l1], by rw [j5, k5, l2]⟩

example : ∃ w, Reachable exCfg w ∧ (Legal exCfg w (.moveCtor 8 4) ∧ view w 4 = some (2, 7)) :=
  run_witness (ops := exHist) (by decide +kernel)

/-! ### C07 -/

/-- C07: if move assignment `b = std::move(a)` between different objects returns, b has what a had and a
has no value; nothing was copied. -/
theorem C07_move_assignment (C : CfgOk cfg) {w w' : World} (h : Reachable cfg w) {b a : Nat} (hne : b ≠ a)
    (L : Legal cfg w (.moveAssign b a)) (he : exec cfg (.moveAssign b a) w = .ok () w') :
    alive w' b ∧ alive w' a ∧ view w' b = view w a ∧ content w' a = none ∧
      (∀ c, c ≠ a → c ≠ b → snap w' c = snap w c) ∧ w'.copies = w.copies := by
  have R := h.rep C
  obtain ⟨s, h2, t, h3, h4, h5, h6⟩ := L
  rcases moveAssign_spec C R hne h2 h3 h4 h5.movable (fun h _ => h6 h) with ⟨w1, h', R', _⟩ | ⟨_, _, _, w1, h', _⟩ | ⟨_, ob, _, _, h', _⟩
  · change moveAssign cfg b a w = _ at he
    rw [he] at h'; cases h'
    obtain ⟨s', t', F⟩ := moveAssigned_facts (cfg := cfg) (σ := absOf w) (s := s) hne h3
    have g1 := F.geta; have g2 := F.geto; have g5 := F.other
    rw [← R'.snaps] at g1 g2 g5
    obtain ⟨i1, i2, i3, i4, i5, i6⟩ := of_snap g1
    obtain ⟨j1, j2, j3, j4, j5, j6⟩ := of_snap g2
    obtain ⟨k1, k2, k3, k4, k5, k6⟩ := of_snap h3
    exact ⟨i1, j1, by rw [i6, F.vala, k6], by rw [j2, F.objo], fun c hc hc' => g5 c hc' hc, by rw [R'.cp, F.cp]; rfl⟩
  · change moveAssign cfg b a w = _ at he
    rw [he] at h'; cases h'
  · change moveAssign cfg b a w = _ at he
    rw [he] at h'; cases h'

/-- C07: self move assignment does nothing. -/
theorem C07_self {w : World} (a : Nat) : exec cfg (.moveAssign a a) w = .ok () w := moveAssign_self a

/-- C07: move assignment returns unless the allocators really differ. -/
theorem C07_returns (C : CfgOk cfg) {w : World} (h : Reachable cfg w) {b a x y : Nat}
    (L : Legal cfg w (.moveAssign b a)) (hx : allocOf w b = some x) (hy : allocOf w a = some y)
    (hd : ¬ AllocsDiffer cfg x y) : ∃ w', exec cfg (.moveAssign b a) w = .ok () w' := by
  have R := h.rep C
  obtain ⟨s, h2, t, h3, h4, h5, h6⟩ := L
  have e1 := (of_snap h2).2.2.2.2.1; have e2 := (of_snap h3).2.2.2.2.1
  rw [hx] at e1; rw [hy] at e2; cases e1; cases e2
  by_cases hne : b = a
  · subst hne; exact ⟨w, C07_self b⟩
  · rcases moveAssign_spec C R hne h2 h3 h4 h5.movable (fun h _ => h6 h) with ⟨w1, h', _⟩ | ⟨hu, _⟩ | ⟨hu, _⟩
    · exact ⟨w1, h'⟩
    · exact absurd hu hd
    · exact absurd hu hd

/-- Assignment between any objects with different allocators, one in the buffer, one in memory. -/
example : ∃ w, Reachable exCfg w ∧ (Legal exCfg w (.moveAssign 1 0) ∧ view w 0 = some (2, 7) ∧ view w 1 = some (1, 5) ∧
    AllocsDiffer exCfg 2 1 ∧ allocOf w 1 = some 2 ∧ allocOf w 0 = some 1 ∧ (exec exCfg (.moveAssign 1 0) w).isOk = true) :=
  run_witness (ops := exHist.take 2) (by decide +kernel)

/-- A class without buffer and without move and copy methods is movable: construction and assignment. -/
example : ∃ w, Reachable { exCfg with soos := 0, pocma := true } w ∧
    (Legal { exCfg with soos := 0, pocma := true } w (.moveCtor 8 0) ∧
     Legal { exCfg with soos := 0, pocma := true } w (.moveAssign 1 0) ∧ ¬ HasMoveFn [.destroy, .typeInfo] ∧
     methodsOf w 0 = some [.destroy, .typeInfo] ∧ view w 0 = some (2, 7) ∧ view w 1 = some (1, 5) ∧
     (exec { exCfg with soos := 0, pocma := true } (.moveAssign 1 0) w).isOk = true) :=
  run_witness (ops := [.valueCtor 0 [.destroy, .typeInfo] 1 2 (.lit 7) true,
    .valueCtor 1 [.destroy, .typeInfo] 2 1 (.lit 5) true]) (by decide +kernel)

/-! ### C08 -/

/-- C08: if copy assignment `b = a` returns, b has a's type and value and nothing else changed; in
particular a is unchanged (if it is not b itself), and after `a = a` the value is the same. -/
theorem C08_copy_assignment (C : CfgOk cfg) {w w' : World} (h : Reachable cfg w) {b a tmp : Nat}
    (L : Legal cfg w (.copyAssign b a tmp)) (he : exec cfg (.copyAssign b a tmp) w = .ok () w') :
    alive w' b ∧ view w' b = view w a ∧ (∀ c, c ≠ b → snap w' c = snap w c) ∧ view w' a = view w a := by
  have hv := C04_values_step C h L he
  have hf : ∀ c, c ≠ b → snap w' c = snap w c := fun c hc => C04_others_unchanged C h L he hc
  obtain ⟨h1, s, h2, t, h3, _⟩ := L
  obtain ⟨k1, k2, k3, k4, k5, k6⟩ := of_snap h3
  have valsa : ∀ {w : World} {c : Nat}, alive w c → vals w c = some (view w c) := by
    intro w c hal
    unfold alive at hal
    obtain ⟨st, hst⟩ := Option.isSome_iff_exists.1 hal
    simp [vals, hst]
  have hb : vals w' b = vals w a := by rw [hv]; simp [specStep]
  have hal : alive w' b := by
    have : (vals w' b).isSome := by rw [hb, valsa k1]; rfl
    unfold vals at this; unfold alive
    simpa using this
  have hview : view w' b = view w a := by
    rw [valsa hal, valsa k1] at hb; exact Option.some.inj hb
  refine ⟨hal, hview, hf, ?_⟩
  by_cases hab : a = b
  · subst hab; exact hview
  · have := hf a hab
    obtain ⟨_, _, _, _, _, q⟩ := of_snap (this.trans h3)
    rw [q, k6]

example : ∃ w, Reachable exCfg w ∧ (Legal exCfg w (.copyAssign 1 0 9) ∧ Legal exCfg w (.copyAssign 0 0 9) ∧
    (exec exCfg (.copyAssign 1 0 9) w).isOk = true ∧ (exec exCfg (.copyAssign 0 0 9) w).isOk = true) :=
  run_witness (ops := exHist.take 2) (by decide +kernel)

/-! ### C10 -/

/-- C10: `a.emplace<T>(args)` (and `a = value`) either returns, and a holds a `T` constructed from the
arguments, or throws, and a is empty. In both cases the old value was destroyed, a still exists, and no
other any changed. -/
theorem C10_emplace (C : CfgOk cfg) {w : World} (h : Reachable cfg w) {a t : Nat} {arg : ArgSrc} {nothrow : Bool}
    (L : Legal cfg w (.emplace a t arg nothrow)) :
    ∃ w', ((exec cfg (.emplace a t arg nothrow) w = .ok () w' ∧ view w' a = some (t, arg.value (vals w))) ∨
        (exec cfg (.emplace a t arg nothrow) w = .exn w' ∧ content w' a = none)) ∧
      alive w' a ∧ (∀ c, c ≠ a → snap w' c = snap w c) ∧ allocOf w' a = allocOf w a ∧
      (∀ o, content w a = some o → (cfg.ty o.ty).trivDestr = false → w'.dtors o.id = 1) := by
  have R := h.rep C
  have W := h.wf C
  obtain ⟨s, hs⟩ := Option.isSome_iff_exists.1 L.1
  obtain ⟨ar, har, harg⟩ := argOf_spec R L.2
  have al0 := (of_snap hs).2.2.2.2.1
  have cof : ∀ {x y : World} {c : Nat}, snap x c = snap y c → content x c = content y c := by
    intro x y c hc
    cases hy : snap y c with
    | none =>
      rw [hy] at hc
      have e : ∀ {z : World}, snap z c = none → content z c = none := by
        intro z hz
        by_cases hal : alive z c
        · obtain ⟨q, hq, _⟩ := snap_some hal; rw [hz] at hq; cases hq
        · exact (snap_none hal).2.1
      rw [e hc, e hy]
    | some q => rw [hy] at hc; rw [(of_snap hc).2.1, (of_snap hy).2.1]
  rcases emplace_spec nothrow R hs (C.align t) harg with ⟨w', h', R'⟩ | ⟨_, w', σ', h', ⟨nb', m', _, rfl⟩, R'⟩
  · have he : exec cfg (.emplace a t arg nothrow) w = .ok () w' := by simp [exec, har, h']
    obtain ⟨s', g1, g2, g3, g4, _⟩ := emplaced_facts (cfg := cfg) (absOf w) a s t (arg.value (absOf w).vals)
    obtain ⟨k1, k2⟩ := snapOf_upd R' g1
    obtain ⟨i1, i2, i3, i4, i5, i6⟩ := of_snap k1
    have M := (mono_exec _ w).1 _ _ he
    refine ⟨w', Or.inl ⟨he, by rw [i6, g2, absOf_vals]⟩, i1, k2, by rw [i5, al0, g4], ?_⟩
    intro o ho hnt
    obtain ⟨_, _, _, _, _, _, _, hlt, _⟩ := content_full W ho
    refine old_destroyed W R'.wf ho hnt M.obj (M.born _ hlt) ?_ (fun c hc => cof (k2 c hc))
    intro p hp hid
    have hnew : ∀ q, s'.obj = some q → q.id = w.nextObj := by
      intro q hq
      have : (emplaced cfg (absOf w) a s t (arg.value (absOf w).vals)).snaps a = some s' := by rw [g1]; exact upd_same _ _ _
      unfold emplaced placed at this
      split at this <;> (repeat' split at this) <;>
        simp only [Abs.set, upd_same, Option.some.injEq] at this <;> subst this <;>
        simp only [Option.some.injEq] at hq <;> subst hq <;> rfl
    rw [i2] at hp
    have := hnew p hp
    omega
  · have he : exec cfg (.emplace a t arg nothrow) w = .exn w' := by simp [exec, har, h']
    obtain ⟨k1, k2⟩ := snapOf_upd (w := w) R' (s' := { s with obj := none, mem := m' }) rfl
    obtain ⟨i1, i2, i3, i4, i5, i6⟩ := of_snap k1
    have M := (mono_exec _ w).2 _ he
    refine ⟨w', Or.inr ⟨he, i2⟩, i1, k2, by rw [i5, al0], ?_⟩
    intro o ho hnt
    obtain ⟨_, _, _, _, _, _, _, hlt, _⟩ := content_full W ho
    refine old_destroyed W R'.wf ho hnt M.obj (M.born _ hlt) ?_ (fun c hc => cof (k2 c hc))
    intro p hp
    rw [i2] at hp; cases hp

/-- Both outcomes occur, with the argument a reference to another any's value. -/
example : ∃ w, Reachable exCfg w ∧ (Legal exCfg w (.emplace 0 2 (.valueOf 1) false) ∧ (content w 0).isSome ∧
    (exec exCfg (.emplace 0 2 (.valueOf 1) false) w).isOk = true) :=
  run_witness (ops := exHist.take 2) (by decide +kernel)
example : ∃ w, Reachable (exCfgF 3) w ∧ (Legal (exCfgF 3) w (.emplace 0 2 (.valueOf 1) false) ∧ (content w 0).isSome ∧
    (exec (exCfgF 3) (.emplace 0 2 (.valueOf 1) false) w).isExn = true) :=
  run_witness (ops := exHist.take 2) (by decide +kernel)

/-! ### C11 -/

/-- C11: if a owns at least `sizeof(T)` bytes, `emplace<T>` neither allocates nor frees, whether it
returns or throws; if it returns the new value is in that block. -/
theorem C11_emplace_reuses_memory (C : CfgOk cfg) {w : World} (h : Reachable cfg w) {a t b n : Nat} {arg : ArgSrc}
    {nothrow : Bool} (L : Legal cfg w (.emplace a t arg nothrow)) (hm : memOf w a = some (b, n))
    (hsz : (cfg.ty t).size ≤ n) :
    ∃ w', (exec cfg (.emplace a t arg nothrow) w = .ok () w' ∧ view w' a = some (t, arg.value (vals w)) ∨
        exec cfg (.emplace a t arg nothrow) w = .exn w') ∧
      memOf w' a = some (b, n) ∧ addrOf w' a = addrOf w a ∧ w'.nextBlk = w.nextBlk ∧ w'.frees = w.frees := by
  have R := h.rep C
  have W := h.wf C
  obtain ⟨s, hs⟩ := Option.isSome_iff_exists.1 L.1
  obtain ⟨ar, har, harg⟩ := argOf_spec R L.2
  have hsm := (of_snap hs).2.2.1
  rw [hm] at hsm
  have addr : ∀ {x : World}, WF cfg x → memOf x a = some (b, n) → addrOf x a = some (.blk b) := by
    intro x X hx
    obtain ⟨q, k, g1, g2, _⟩ := memOf_some X hx
    simp [addrOf, g1, g2]
  have mof : ∀ {x y : World} {c : Nat}, snap x c = snap y c → memOf x c = memOf y c := by
    intro x y c hc
    cases hy : snap y c with
    | none =>
      rw [hy] at hc
      have e : ∀ {z : World}, snap z c = none → memOf z c = none := by
        intro z hz
        by_cases hal : alive z c
        · obtain ⟨q, hq, _⟩ := snap_some hal; rw [hz] at hq; cases hq
        · exact (snap_none hal).2.2
      rw [e hc, e hy]
    | some q => rw [hy] at hc; rw [(of_snap hc).2.2.1, (of_snap hy).2.2.1]
  have fin : ∀ {w' : World}, WF cfg w' → w'.nextBlk = w.nextBlk → memOf w' a = some (b, n) →
      (∀ c, c ≠ a → snap w' c = snap w c) →
      memOf w' a = some (b, n) ∧ addrOf w' a = addrOf w a ∧ w'.nextBlk = w.nextBlk ∧ w'.frees = w.frees := by
    intro w' W' hn hm' ho
    refine ⟨hm', by rw [addr W' hm', addr W hm], hn, frees_eq W W' hn ?_⟩
    intro c
    by_cases hc : c = a
    · subst hc; rw [hm', hm]
    · rw [mof (ho c hc)]
  have hlt : ¬ n < (cfg.ty t).size := by omega
  rcases emplace_spec nothrow R hs (C.align t) harg with ⟨w', h', R'⟩ | ⟨_, w', σ', h', ⟨nb', m', ⟨_, hk⟩, rfl⟩, R'⟩
  · simp only [emplaced, ← hsm, hlt, if_false] at R'
    obtain ⟨k1, k2⟩ := snapOf_upd (w := w) R' (s' := { s with mem := some (b, n), obj := some ⟨w.nextObj, t, arg.value (absOf w).vals⟩ }) rfl
    refine ⟨w', Or.inl ⟨by simp [exec, har, h'], ?_⟩, fin R'.wf R'.nb ?_ k2⟩
    · rw [(of_snap k1).2.2.2.2.2, ← absOf_vals]; rfl
    · rw [(of_snap k1).2.2.1]
  · obtain ⟨e1, e2⟩ := hk b n hsm.symm hsz
    obtain ⟨k1, k2⟩ := snapOf_upd (w := w) R' (s' := { s with obj := none, mem := m' }) rfl
    refine ⟨w', Or.inr (by simp [exec, har, h']), fin R'.wf (by rw [R'.nb, e2]; rfl) ?_ k2⟩
    rw [(of_snap k1).2.2.1]; simp [e1, ← hsm]

/-- C11: if `replace_with_bytes(n)` returns, a is empty and `capacity() ≥ n`; no other any changed. -/
theorem C11_replace_with_bytes (C : CfgOk cfg) {w w' : World} (h : Reachable cfg w) {a n : Nat}
    (L : Legal cfg w (.replaceWithBytes a n)) (he : exec cfg (.replaceWithBytes a n) w = .ok () w') :
    content w' a = none ∧ (∃ k, capacity cfg a w' = .ok k w' ∧ n ≤ k) ∧ (∀ c, c ≠ a → snap w' c = snap w c) ∧
    (∀ b k, memOf w a = some (b, k) → n ≤ k → memOf w' a = some (b, k)) := by
  have R := h.rep C
  have L' : (snap w a).isSome := L
  obtain ⟨s, hs⟩ := Option.isSome_iff_exists.1 L'
  have hsm := (of_snap hs).2.2.1
  change replaceWithBytes cfg a n w = _ at he
  rcases replaceWithBytes_spec (n := n) R hs with ⟨w1, m, h', ⟨_, hc, R'⟩ | ⟨_, hc, R'⟩⟩ | ⟨w1, h', R'⟩ <;>
    rw [he] at h' <;> cases h'
  · obtain ⟨k1, k2⟩ := snapOf_upd (w := w) R' (s' := { s with obj := none }) rfl
    refine ⟨(of_snap k1).2.1, ⟨_, capacity_spec R' (Abs.set_snaps _ _ _), ?_⟩, k2, ?_⟩
    · cases hm : s.mem with
      | none => rw [hm] at hc; simpa [hm] using hc
      | some p => obtain ⟨b, k⟩ := p; rw [hm] at hc; simpa [hm] using hc
    · intro b k hm _
      rw [(of_snap k1).2.2.1, ← hm, hsm]
  · obtain ⟨k1, k2⟩ := snapOf_upd (w := w) R' (s' := { s with obj := none, mem := some (w.nextBlk, n) }) rfl
    refine ⟨(of_snap k1).2.1, ⟨n, ?_, Nat.le_refl _⟩, k2, ?_⟩
    · have := capacity_spec (s := { s with obj := none, mem := some (w.nextBlk, n) }) (a := a) R' (by rw [← R'.snaps]; exact k1)
      simpa using this
    · intro b k hm hle
      rw [hm] at hsm
      rw [← hsm] at hc
      have hc' : k < n := hc
      omega

/-- C11: after `replace_with_bytes(n)` gave the any memory, emplacing any type of size at most n
allocates nothing. -/
theorem C11_emplace_after_replace (C : CfgOk cfg) {w w1 w2 : World} (h : Reachable cfg w) {a n t : Nat} {arg : ArgSrc}
    {nothrow : Bool} (L : Legal cfg w (.replaceWithBytes a n)) (he : exec cfg (.replaceWithBytes a n) w = .ok () w1)
    (hmem : (memOf w1 a).isSome) (L1 : Legal cfg w1 (.emplace a t arg nothrow)) (hsz : (cfg.ty t).size ≤ n)
    (he1 : exec cfg (.emplace a t arg nothrow) w1 = .ok () w2) :
    w2.nextBlk = w1.nextBlk ∧ w2.frees = w1.frees := by
  obtain ⟨⟨b, m⟩, hm⟩ := Option.isSome_iff_exists.1 hmem
  obtain ⟨_, ⟨k, hk, hle⟩, _⟩ := C11_replace_with_bytes C h L he
  have h1 : Reachable cfg w1 := .ok h L he
  have R1 := h1.rep C
  obtain ⟨s, hs⟩ := Option.isSome_iff_exists.1 L1.1
  have hsm := (of_snap hs).2.2.1
  rw [capacity_spec R1 hs, ← hsm, hm] at hk
  have hkm : m = k := by simpa using hk
  obtain ⟨w', hw', h2, h3, h4, h5⟩ := C11_emplace_reuses_memory C h1 L1 hm (by omega)
  rcases hw' with ⟨e, _⟩ | e <;> rw [he1] at e <;> cases e
  exact ⟨h4, h5⟩

example : ∃ w, Reachable exCfg w ∧ (memOf w 2 = some (3, 100) ∧ Legal exCfg w (.emplace 2 2 (.valueOf 0) false) ∧
    (exec exCfg (.emplace 2 2 (.valueOf 0) false) w).isOk = true) :=
  run_witness (ops := exHist) (by decide +kernel)
example : ∃ w, Reachable exCfg w ∧ (Legal exCfg w (.replaceWithBytes 0 65) ∧
    (exec exCfg (.replaceWithBytes 0 65) w).isOk = true ∧ (content w 0).isSome) :=
  run_witness (ops := exHist) (by decide +kernel)

/-! ### C12 -/

/-- C12: `reset()` never throws; afterwards there is no value and no memory, the buffer is available
and the old value was destroyed. -/
theorem C12_reset (C : CfgOk cfg) {w : World} (h : Reachable cfg w) {a : Nat} (ha : alive w a) :
    ∃ w', reset cfg a w = .ok () w' ∧ alive w' a ∧ hasValue a w' = .ok false w' ∧ isStablePointers a w' = .ok false w' ∧
      capacity cfg a w' = .ok cfg.soos w' ∧ sizeofNow cfg a w' = .ok 0 w' ∧ allocOf w' a = allocOf w a ∧
      (∀ c, c ≠ a → snap w' c = snap w c) ∧ (∃ w'', reset cfg a w' = .ok () w'' ∧ ∀ c, snap w'' c = snap w' c) := by
  have R := h.rep C
  obtain ⟨s, hs, _⟩ := snap_some ha
  obtain ⟨w', h', R', _⟩ := reset_spec R hs
  obtain ⟨k1, k2⟩ := snapOf_upd (w := w) R' (s' := { s with obj := none, mem := none }) rfl
  have hs' := Abs.set_snaps (absOf w) a { s with obj := none, mem := none }
  obtain ⟨w'', h'', R'', _⟩ := reset_spec R' hs'
  refine ⟨w', h', (of_snap k1).1, by rw [hasValue_spec R' hs']; rfl, by rw [isStable_spec R' hs']; rfl,
    by rw [capacity_spec R' hs']; rfl, by rw [sizeofNow_spec R' hs']; rfl, ?_, k2, w'', h'', ?_⟩
  · rw [(of_snap k1).2.2.2.2.1, (of_snap hs).2.2.2.2.1]
  · intro c
    rw [R''.snaps, R'.snaps]
    exact congrFun (congrArg Abs.snaps (Abs.set_set (absOf w) a _ _)) c

/-- C12: `destroy_value()` never throws; afterwards there is no value and the memory is kept. -/
theorem C12_destroy_value (C : CfgOk cfg) {w : World} (h : Reachable cfg w) {a : Nat} (ha : alive w a) :
    ∃ w', destroyValue cfg a w = .ok () w' ∧ alive w' a ∧ hasValue a w' = .ok false w' ∧ memOf w' a = memOf w a ∧
      allocOf w' a = allocOf w a ∧ w'.nextBlk = w.nextBlk ∧ (∀ c, c ≠ a → snap w' c = snap w c) ∧
      (∃ w'', destroyValue cfg a w' = .ok () w'' ∧ ∀ c, snap w'' c = snap w' c) := by
  have R := h.rep C
  obtain ⟨s, hs, _⟩ := snap_some ha
  obtain ⟨w', h', R', _⟩ := destroyValue_spec R hs
  obtain ⟨k1, k2⟩ := snapOf_upd (w := w) R' (s' := { s with obj := none }) rfl
  have hs' := Abs.set_snaps (absOf w) a { s with obj := none }
  obtain ⟨w'', h'', R'', _⟩ := destroyValue_spec R' hs'
  refine ⟨w', h', (of_snap k1).1, by rw [hasValue_spec R' hs']; rfl, ?_, ?_, R'.nb, k2, w'', h'', ?_⟩
  · rw [(of_snap k1).2.2.1, (of_snap hs).2.2.1]
  · rw [(of_snap k1).2.2.2.2.1, (of_snap hs).2.2.2.2.1]
  · intro c
    rw [R''.snaps, R'.snaps]
    exact congrFun (congrArg Abs.snaps (Abs.set_set (absOf w) a _ _)) c

/-- C12: both destroy the contained object. -/
theorem C12_destroys (C : CfgOk cfg) {w w' : World} (h : Reachable cfg w) {a : Nat} {op : Op}
    (hop : op = .reset a ∨ op = .destroyValue a) (L : Legal cfg w op) (he : exec cfg op w = .ok () w') {o : Obj}
    (ho : content w a = some o) (hnt : (cfg.ty o.ty).trivDestr = false) : w'.dtors o.id = 1 := by
  have W := h.wf C
  have W' := Reachable.wf C (.ok h L he)
  have M := (mono_exec _ w).1 _ _ he
  have hv := C04_values_step C h L he
  obtain ⟨_, _, _, _, _, _, _, hlt, _⟩ := content_full W ho
  have hva : vals w' a = some none := by rcases hop with rfl | rfl <;> rw [hv] <;> simp [specStep]
  refine old_destroyed W W' ho hnt M.obj (M.born _ hlt) ?_ ?_
  · intro p hp
    unfold vals view at hva
    rw [hp] at hva
    cases hh : w'.anys a with
    | none => rw [hh] at hva; cases hva
    | some s => rw [hh] at hva; cases hva
  · intro c hc
    have : snap w' c = snap w c := C04_others_unchanged C h L he (by rcases hop with rfl | rfl <;> exact hc)
    cases hy : snap w c with
    | none =>
      rw [hy] at this
      have e : ∀ {z : World}, snap z c = none → content z c = none := by
        intro z hz
        by_cases hal : alive z c
        · obtain ⟨q, hq, _⟩ := snap_some hal; rw [hz] at hq; cases hq
        · exact (snap_none hal).2.1
      rw [e this, e hy]
    | some q => rw [hy] at this; rw [(of_snap this).2.1, (of_snap hy).2.1]

example : ∃ w, Reachable exCfg w ∧ (alive w 2 ∧ memOf w 2 = some (3, 100) ∧ (content w 2).isSome) :=
  run_witness (ops := exHist) (by decide +kernel)

/-! ### C13 -/

theorem stable_moveCtor_wf (C : CfgOk cfg) {w : World} (W : WF cfg w) {b a : Nat}
    (L : Legal cfg w (.moveCtor b a)) (hst : isStablePointers a w = .ok true w) (hv : (content w a).isSome) :
    ∃ w', exec cfg (.moveCtor b a) w = .ok () w' ∧ content w' b = content w a ∧ addrOf w' b = addrOf w a ∧
      w'.nextObj = w.nextObj ∧ w'.nextBlk = w.nextBlk ∧ w'.frees = w.frees ∧
      (∀ o, content w a = some o → w'.dtors o.id = 0) := by
  have R : Rep cfg w (absOf w) := Rep.of_wf W
  obtain ⟨h1, t, h3, h4⟩ := L
  have hne : b ≠ a := by rintro rfl; rw [h1] at h3; cases h3
  obtain ⟨w', h', R'⟩ := moveCtor_spec R h1 h3 h4
  obtain ⟨s', t', g1, g2, m1, m2, l1, l2, g3, g4, g5, g6, g7, g8, _⟩ :=
    moved_facts (σ := absOf w) (a := b) (s := ⟨t.ms, t.al, none, none⟩) hne h3 rfl rfl
  rw [isStable_spec R h3] at hst
  have hmem : t.mem.isSome := by simpa using hst
  rw [(of_snap h3).2.1] at hv
  obtain ⟨e1, e2, e3, e4⟩ := g8 hv hmem
  rw [← R'.snaps] at g1 g2 g5
  obtain ⟨⟨x, n⟩, hx⟩ := Option.isSome_iff_exists.1 hmem
  have mb : memOf w' b = some (x, n) := by rw [(of_snap g1).2.2.1, e1, hx]
  have ma : memOf w a = some (x, n) := by rw [(of_snap h3).2.2.1, hx]
  obtain ⟨q1, k1, p1, p2, _⟩ := memOf_some R'.wf mb
  obtain ⟨q2, k2, p3, p4, _⟩ := memOf_some R.wf ma
  have hcb : content w' b = content w a := by rw [(of_snap g1).2.1, e2, (of_snap h3).2.1]
  have hnb : w'.nextBlk = w.nextBlk := by rw [R'.nb, g7]; rfl
  refine ⟨w', h', hcb, ?_, by rw [R'.no, e4]; rfl, hnb, ?_, ?_⟩
  · simp [addrOf, p1, p2, p3, p4]
  · -- the owners of blocks are permuted
    have own : ∀ y, (w'.blks y).isSome = (w.blks y).isSome := by
      intro y
      rw [Bool.eq_iff_iff, blk_owned R'.wf, blk_owned R.wf]
      have other : ∀ c, c ≠ a → c ≠ b → memOf w' c = memOf w c := by
        intro c hc hc'
        have := g5 c hc' hc
        by_cases hal : alive w c
        · obtain ⟨z, hz, _⟩ := snap_some hal
          rw [(of_snap (this.trans hz)).2.2.1, (of_snap hz).2.2.1]
        · have hn := (snap_none hal).1
          have : ¬ alive w' c := by
            intro hal'
            obtain ⟨z, hz, _⟩ := snap_some hal'
            have h9 : snap w' c = snap w c := this
            rw [h9, hn] at hz; cases hz
          rw [(snap_none this).2.2, (snap_none hal).2.2]
      have hbn : memOf w b = none := by
        have : ¬ alive w b := by
          intro hal
          obtain ⟨z, hz, _⟩ := snap_some hal
          rw [h1] at hz; cases hz
        exact (snap_none this).2.2
      have han : memOf w' a = none := by rw [(of_snap g2).2.2.1, e3]
      constructor
      · rintro ⟨c, m, hc⟩
        by_cases hca : c = a
        · subst hca; rw [han] at hc; cases hc
        · by_cases hcb : c = b
          · subst hcb; rw [mb] at hc; exact ⟨a, m, by rw [ma, hc]⟩
          · exact ⟨c, m, by rw [← other c hca hcb]; exact hc⟩
      · rintro ⟨c, m, hc⟩
        by_cases hca : c = a
        · subst hca; rw [ma] at hc; exact ⟨b, m, by rw [mb, hc]⟩
        · by_cases hcb : c = b
          · subst hcb; rw [hbn] at hc; cases hc
          · exact ⟨c, m, by rw [other c hca hcb]; exact hc⟩
    funext y
    by_cases hy : y < w.nextBlk
    · rw [R'.wf.freed y (by omega), R.wf.freed y hy, own]
    · rw [(R'.wf.beyondBlk y (by omega)).2, (R.wf.beyondBlk y (by omega)).2]
  · intro o ho
    rw [← hcb] at ho
    obtain ⟨_, _, _, _, _, _, _, _, _, hd, _⟩ := content_full R'.wf ho
    exact hd

theorem stable_moveAssign_wf (C : CfgOk cfg) {w : World} (W : WF cfg w) {b a x y : Nat} (hne : b ≠ a)
    (L : Legal cfg w (.moveAssign b a)) (hx : allocOf w b = some x) (hy : allocOf w a = some y)
    (hd : ¬ AllocsDiffer cfg x y) (hst : isStablePointers a w = .ok true w) (hv : (content w a).isSome) :
    ∃ w', exec cfg (.moveAssign b a) w = .ok () w' ∧ content w' b = content w a ∧ addrOf w' b = addrOf w a ∧
      w'.nextObj = w.nextObj ∧ w'.nextBlk = w.nextBlk ∧ (∀ o, content w a = some o → w'.dtors o.id = 0) := by
  have R : Rep cfg w (absOf w) := Rep.of_wf W
  obtain ⟨s, h2, t, h3, h4, h5, h6⟩ := L
  have e1 := (of_snap h2).2.2.2.2.1; have e2 := (of_snap h3).2.2.2.2.1
  rw [hx] at e1; rw [hy] at e2; cases e1; cases e2
  rcases moveAssign_spec C R hne h2 h3 h4 h5.movable (fun h _ => h6 h) with ⟨w', h', R', _⟩ | ⟨hu, _⟩ | ⟨hu, _⟩
  · obtain ⟨s', t', F⟩ := moveAssigned_facts (cfg := cfg) (σ := absOf w) (s := s) hne h3
    rw [isStable_spec R h3] at hst
    have hmem : t.mem.isSome := by simpa using hst
    rw [(of_snap h3).2.1] at hv
    obtain ⟨e1, e2, e3, e4, e5⟩ := F.stable hd hv hmem
    have g1 := F.geta
    rw [← R'.snaps] at g1
    obtain ⟨⟨z, n⟩, hz⟩ := Option.isSome_iff_exists.1 hmem
    obtain ⟨q1, k1, p1, p2, _⟩ := memOf_some R'.wf (show memOf w' b = some (z, n) by rw [(of_snap g1).2.2.1, e1, hz])
    obtain ⟨q2, k2, p3, p4, _⟩ := memOf_some R.wf (show memOf w a = some (z, n) by rw [(of_snap h3).2.2.1, hz])
    have hcb : content w' b = content w a := by rw [(of_snap g1).2.1, e2, (of_snap h3).2.1]
    refine ⟨w', h', hcb, by simp [addrOf, p1, p2, p3, p4], by rw [R'.no, e4]; rfl, by rw [R'.nb, e5]; rfl, ?_⟩
    intro o ho
    rw [← hcb] at ho
    obtain ⟨_, _, _, _, _, _, _, _, _, hd, _⟩ := content_full R'.wf ho
    exact hd
  · exact absurd hu hd
  · exact absurd hu hd

/-- C13: if `is_stable_pointers()` holds for a with a value, then after `any b(std::move(a))` the
contained object is the same object at the same address: nothing was constructed, destroyed or
allocated. -/
theorem C13_stable_move_construction (C : CfgOk cfg) {w : World} (h : Reachable cfg w) {b a : Nat}
    (L : Legal cfg w (.moveCtor b a)) (hst : isStablePointers a w = .ok true w) (hv : (content w a).isSome) :
    ∃ w', exec cfg (.moveCtor b a) w = .ok () w' ∧ content w' b = content w a ∧ addrOf w' b = addrOf w a ∧
      w'.nextObj = w.nextObj ∧ w'.nextBlk = w.nextBlk ∧ w'.frees = w.frees ∧
      (∀ o, content w a = some o → w'.dtors o.id = 0) :=
  stable_moveCtor_wf C (h.wf C) L hst hv

/-- C13: the same for `b = std::move(a)`, unless the allocators really differ (see `C14_fails`). -/
theorem C13_stable_move_assignment (C : CfgOk cfg) {w : World} (h : Reachable cfg w) {b a x y : Nat} (hne : b ≠ a)
    (L : Legal cfg w (.moveAssign b a)) (hx : allocOf w b = some x) (hy : allocOf w a = some y)
    (hd : ¬ AllocsDiffer cfg x y) (hst : isStablePointers a w = .ok true w) (hv : (content w a).isSome) :
    ∃ w', exec cfg (.moveAssign b a) w = .ok () w' ∧ content w' b = content w a ∧ addrOf w' b = addrOf w a ∧
      w'.nextObj = w.nextObj ∧ w'.nextBlk = w.nextBlk ∧ (∀ o, content w a = some o → w'.dtors o.id = 0) :=
  stable_moveAssign_wf C (h.wf C) hne L hx hy hd hst hv

/-- C13: construction with `force_stable_pointers` gives a stable any. -/
theorem C13_force_stable (C : CfgOk cfg) {w w' : World} (h : Reachable cfg w) {a t : Nat} {ms : List Method}
    {arg : ArgSrc} {nothrow : Bool} (L : Legal cfg w (.forceCtor a ms t arg nothrow))
    (he : exec cfg (.forceCtor a ms t arg nothrow) w = .ok () w') :
    isStablePointers a w' = .ok true w' ∧ view w' a = some (t, arg.value (vals w)) := by
  have R := h.rep C
  obtain ⟨ar, har, harg⟩ := argOf_spec R L.2.2
  have he' : forceCtor cfg a ms t ar nothrow w = .ok () w' := by simpa [exec, har] using he
  rcases forceCtor_spec nothrow R L.1 L.2.1 (C.align t) harg with ⟨w1, h', R'⟩ | ⟨_, w1, nb', h', R'⟩ | ⟨ht, h'⟩ <;>
    rw [he'] at h' <;> cases h'
  have hs : (constructed cfg (absOf w) a ms cfg.defaultAlloc t (arg.value (absOf w).vals) true).snaps a =
      some ⟨ms, cfg.defaultAlloc, some (w.nextBlk, (cfg.ty t).size), some ⟨w.nextObj, t, arg.value (absOf w).vals⟩⟩ := by
    simp [constructed, placed, absOf, Abs.set]
  refine ⟨by rw [isStable_spec R' hs]; rfl, ?_⟩
  rw [← R'.snaps] at hs
  rw [(of_snap hs).2.2.2.2.2, ← absOf_vals]; rfl

/-- C13: without a buffer every any with a value is stable. -/
theorem C13_no_buffer (C : CfgOk cfg) (h0 : cfg.soos = 0) {w : World} (h : Reachable cfg w) {a : Nat}
    (ha : (content w a).isSome) : isStablePointers a w = .ok true w := by
  have R := h.rep C
  obtain ⟨o, ho⟩ := Option.isSome_iff_exists.1 ha
  have hal : alive w a := by
    apply Classical.byContradiction; intro hn; rw [(snap_none hn).2.1] at ho; cases ho
  obtain ⟨s, hs, hc, _⟩ := snap_some hal
  obtain ⟨b, n, hm⟩ := R.mem_of_soos hs (by rw [← hc]; exact ho) h0
  rw [isStable_spec R hs, hm]; rfl

example : ∃ w, Reachable exCfg w ∧ (Legal exCfg w (.moveCtor 8 4) ∧ (memOf w 4).isSome ∧ (content w 4).isSome) :=
  run_witness (ops := exHist) (by decide +kernel)
example : ∃ w, Reachable exCfg w ∧ (Legal exCfg w (.moveAssign 3 4) ∧ (memOf w 4).isSome ∧ (content w 4).isSome ∧
    allocOf w 3 = some 1 ∧ allocOf w 4 = some 1) :=
  run_witness (ops := exHist) (by decide +kernel)
example : Legal exCfg .init (.forceCtor 0 exMs 0 (.lit 3) true) ∧
    (exec exCfg (.forceCtor 0 exMs 0 (.lit 3) true) .init).isOk = true := by decide +kernel
example : ∃ w, Reachable { exCfg with soos := 0 } w ∧ (content w 0).isSome :=
  run_witness (ops := [.valueCtor 0 exMs 0 0 (.lit 1) true]) (by decide +kernel)

/-! ### C16 -/

/-- C16: with a value of type T, `sizeof(T) ≤ sizeof_now() = capacity()`; without value `sizeof_now()` is
0. -/
theorem C16_sizeof_now (C : CfgOk cfg) {w : World} (h : Reachable cfg w) {a : Nat} (ha : alive w a) :
    (∀ o, content w a = some o → ∃ n, sizeofNow cfg a w = .ok n w ∧ capacity cfg a w = .ok n w ∧ (cfg.ty o.ty).size ≤ n) ∧
    (content w a = none → sizeofNow cfg a w = .ok 0 w) := by
  have R := h.rep C
  obtain ⟨s, hs, hc, hm, _⟩ := snap_some ha
  rw [hc]
  refine ⟨fun o ho => ⟨_, ?_, capacity_spec R hs, ?_⟩, fun ho => ?_⟩
  · rw [sizeofNow_spec R hs, ho]; rfl
  · obtain ⟨st, D⟩ := R.det hs
    obtain ⟨v, _, _, _, _, _, _, _, h1, h2⟩ := D.objSome o ho
    cases hmem : s.mem with
    | none =>
      have := h1 (D.memNone hmem)
      simp only [fits, Bool.and_eq_true, decide_eq_true_eq] at this
      simpa [hmem] using this.2
    | some p =>
      obtain ⟨b, n⟩ := p
      obtain ⟨k, g1, g2, g3, _⟩ := D.memSome b n hmem
      have := h2 b k g1 g2
      simpa [hmem, g3] using this
  · rw [sizeofNow_spec R hs, ho]; rfl

example : ∃ w, Reachable exCfg w ∧ (alive w 2 ∧ memOf w 2 = some (3, 100) ∧ view w 2 = some (2, 1) ∧ view w 3 = none) :=
  run_witness (ops := exHist) (by decide +kernel)

/-! ### C17 -/

/-- C17: construction of a value whose type fits the buffer allocates nothing; otherwise it is in
allocated memory of exactly its size. -/
theorem C17_value_construction (C : CfgOk cfg) {w w' : World} (h : Reachable cfg w) {a al t : Nat} {ms : List Method}
    {arg : ArgSrc} {nothrow : Bool} (L : Legal cfg w (.valueCtor a ms al t arg nothrow))
    (he : exec cfg (.valueCtor a ms al t arg nothrow) w = .ok () w') :
    (fits cfg t = true → w'.nextBlk = w.nextBlk ∧ memOf w' a = none) ∧
    (fits cfg t = false → w'.nextBlk = w.nextBlk + 1 ∧ memOf w' a = some (w.nextBlk, (cfg.ty t).size)) := by
  have R := h.rep C
  obtain ⟨ar, har, harg⟩ := argOf_spec R L.2.2
  have he' : valueCtor cfg a ms al t ar nothrow w = .ok () w' := by simpa [exec, har] using he
  rcases valueCtor_spec (al := al) nothrow R L.1 L.2.1 (C.align t) harg with ⟨w1, h', R'⟩ | ⟨_, w1, nb', h', R'⟩ <;>
    rw [he'] at h' <;> cases h'
  refine ⟨fun hf => ?_, fun hf => ?_⟩
  · simp only [constructed, placed, hf, Bool.not_false, Bool.and_self, if_true] at R'
    have := (snapOf_upd (w := w) R' (s' := ⟨ms, al, none, some ⟨w.nextObj, t, arg.value (absOf w).vals⟩⟩) rfl).1
    exact ⟨R'.nb, (of_snap this).2.2.1⟩
  · simp only [constructed, placed, hf, Bool.false_and, Bool.false_eq_true, if_false] at R'
    have := (snapOf_upd (w := w) R' (s' := ⟨ms, al, some (w.nextBlk, (cfg.ty t).size), some ⟨w.nextObj, t, arg.value (absOf w).vals⟩⟩) rfl).1
    exact ⟨R'.nb, (of_snap this).2.2.1⟩

/-- C17: emplacing into an any without memory a value whose type fits allocates nothing. -/
theorem C17_emplace (C : CfgOk cfg) {w w' : World} (h : Reachable cfg w) {a t : Nat} {arg : ArgSrc} {nothrow : Bool}
    (L : Legal cfg w (.emplace a t arg nothrow)) (hm : memOf w a = none) (hf : fits cfg t = true)
    (he : exec cfg (.emplace a t arg nothrow) w = .ok () w') : w'.nextBlk = w.nextBlk ∧ memOf w' a = none := by
  have R := h.rep C
  obtain ⟨s, hs⟩ := Option.isSome_iff_exists.1 L.1
  have hsm := (of_snap hs).2.2.1
  rw [hm] at hsm
  obtain ⟨ar, har, harg⟩ := argOf_spec R L.2
  have he' : emplace cfg a t ar nothrow w = .ok () w' := by simpa [exec, har] using he
  rcases emplace_spec nothrow R hs (C.align t) harg with ⟨w1, h', R'⟩ | ⟨_, w1, σ', h', _⟩ <;>
    rw [he'] at h' <;> cases h'
  simp only [emplaced, ← hsm, placed, hf, Bool.not_false, Bool.and_self, if_true] at R'
  have := (snapOf_upd (w := w) R' (s' := { s with obj := some ⟨w.nextObj, t, arg.value (absOf w).vals⟩, mem := none }) rfl).1
  exact ⟨R'.nb, (of_snap this).2.2.1⟩

/-- C17: copying an any whose value's type fits allocates nothing. -/
theorem C17_copy (C : CfgOk cfg) {w w' : World} (h : Reachable cfg w) {a b : Nat} {ms : List Method}
    (L : Legal cfg w (.copyCtor b ms a)) (hf : ∀ o, content w a = some o → fits cfg o.ty = true)
    (he : exec cfg (.copyCtor b ms a) w = .ok () w') : w'.nextBlk = w.nextBlk ∧ memOf w' b = none := by
  have R := h.rep C
  obtain ⟨h1, h2, t, h3, h4, h5⟩ := L
  change copyCtor cfg b ms a w = _ at he
  rw [(of_snap h3).2.1] at hf
  rcases copyCtor_spec C R h1 h3 h2 h4 h5 with ⟨w1, h', R'⟩ | ⟨_, w1, nb', h', R'⟩ <;> rw [he] at h' <;> cases h'
  cases ho : t.obj with
  | none =>
    simp only [copyConstructed, ho] at R'
    have := (snapOf_upd (w := w) R' (s' := ⟨ms, cfg.soccc t.al, none, none⟩) rfl).1
    exact ⟨R'.nb, (of_snap this).2.2.1⟩
  | some ob =>
    simp only [copyConstructed, ho, copied, hf ob ho, if_true] at R'
    have := (snapOf_upd (w := w) R' (s' := ⟨ms, cfg.soccc t.al, none, some ⟨w.nextObj, ob.ty, ob.val⟩⟩) rfl).1
    exact ⟨R'.nb, (of_snap this).2.2.1⟩

/-- C17: a value whose type does not fit is in allocated memory, in every reachable state. (Moving never
allocates, `C06_move_construction`.) -/
theorem C17_big_values_in_memory (C : CfgOk cfg) {w : World} (h : Reachable cfg w) {a : Nat} {o : Obj}
    (ho : content w a = some o) (hf : fits cfg o.ty = false) :
    ∃ b n, memOf w a = some (b, n) ∧ (cfg.ty o.ty).size ≤ n := by
  have W := h.wf C
  obtain ⟨s, v, h1, h2, h3, h4, h5, h6, h7, h8, h9, h10⟩ := content_full W ho
  rcases vp_cases W h1 with hv | ⟨b, k, hv, hk, _, _⟩
  · rw [h9 hv] at hf; cases hf
  · exact ⟨b, k.size, by simp [memOf, h1, hv, hk], h10 b k hv hk⟩

example : ∃ w, Reachable exCfg w ∧ (fits exCfg 1 = true ∧ fits exCfg 2 = false ∧ view w 1 = some (1, 5) ∧
    Legal exCfg w (.copyCtor 8 exMs 1) ∧ memOf w 1 = none ∧ Legal exCfg w (.emplace 1 0 (.lit 1) true) ∧
    view w 0 = some (2, 7)) :=
  run_witness (ops := exHist.take 2) (by decide +kernel)

/-! ### C18 -/

/-- Calling a user method on the any at `b` in world `w'` does the same as on `a` in `w`: both calls run the method on the same
value; if both return, or both throw, they leave the same value, and the results are equal; both return if neither the method nor the
copy for a by-value `self` can throw. -/
def SameCalls (cfg : Cfg) (w' : World) (b : Nat) (w : World) (a : Nat) (ms : List Method) : Prop :=
  ∀ m x t v, .user m ∈ ms → view w a = some (t, v) →
    ((invokeUser cfg b m x w').world?.isSome ∧ (invokeUser cfg a m x w).world?.isSome) ∧
    (∀ r1 w1 r2 w2, invokeUser cfg b m x w' = .ok r1 w1 → invokeUser cfg a m x w = .ok r2 w2 → r1 = r2 ∧ view w1 b = view w2 a) ∧
    (∀ w1 w2, invokeUser cfg b m x w' = .exn w1 → invokeUser cfg a m x w = .exn w2 → view w1 b = view w2 a) ∧
    (cfg.methodNothrow m t = true → (cfg.kind m = .byValue → (cfg.ty t).nothrowCopy = true) →
      ∃ r w1 w2, invokeUser cfg b m x w' = .ok r w1 ∧ invokeUser cfg a m x w = .ok r w2)

theorem invoke_result {w : World} {a : Nat} {s : Snap} {ob : Obj} {m x : Nat} (R : Rep cfg w (absOf w)) (hs : snap w a = some s)
    (hob : s.obj = some ob) (hm : .user m ∈ s.ms) :
    (∃ w1, invokeUser cfg a m x w = .ok (cfg.impl m ob.ty ob.val x).1 w1 ∧
      view w1 a = some (ob.ty, if cfg.kind m = .mutRef then (cfg.impl m ob.ty ob.val x).2 else ob.val)) ∨
    (¬ (cfg.methodNothrow m ob.ty = true ∧ (cfg.kind m = .byValue → (cfg.ty ob.ty).nothrowCopy = true)) ∧
      ∃ w1, invokeUser cfg a m x w = .exn w1 ∧
        view w1 a = some (ob.ty, if cfg.kind m = .mutRef then cfg.partway m ob.ty ob.val x else ob.val)) := by
  rcases invokeUser_spec (x := x) R hs hob hm with ⟨w1, h', R'⟩ | ⟨hb, hn, w1, h', R'⟩ | ⟨hn, w1, h', R'⟩
  · refine .inl ⟨w1, h', ?_⟩
    have := (snapOf_upd (w := w) R' (s' := { s with obj := some (invoked cfg m x ob) }) rfl).1
    rw [(of_snap this).2.2.2.2.2]
    simp only [Snap.val, invoked, Option.map_some]
    cases hkk : cfg.kind m <;> simp_all
  · refine .inr ⟨fun h => ?_, w1, h', ?_⟩
    · have := h.2 hb; rw [hn] at this; cases this
    · have : snap w1 a = some s := by rw [R'.snaps]; exact hs
      rw [(of_snap this).2.2.2.2.2, hb]
      simp [Snap.val, hob]
  · refine .inr ⟨fun h => ?_, w1, h', ?_⟩
    · have := h.1; rw [hn] at this; cases this
    · have := (snapOf_upd (w := w) R' (s' := { s with obj := some (invokedExn cfg m x ob) }) rfl).1
      rw [(of_snap this).2.2.2.2.2]
      simp only [Snap.val, invokedExn, Option.map_some]
      cases hkk : cfg.kind m <;> simp_all

theorem sameCalls {w w' : World} {a b : Nat} {s t : Snap} {ms : List Method} (R : Rep cfg w (absOf w)) (R' : Rep cfg w' (absOf w'))
    (hs : snap w' b = some s) (ht : snap w a = some t) (hv : s.val = t.val) (h1 : ∀ m, m ∈ ms → m ∈ s.ms)
    (h2 : ∀ m, m ∈ ms → m ∈ t.ms) : SameCalls cfg w' b w a ms := by
  intro m x ty v hm hc
  rw [(of_snap ht).2.2.2.2.2] at hc
  obtain ⟨o, ho, he⟩ := Option.map_eq_some_iff.1 hc
  cases he
  cases ho' : s.obj with
  | none => simp [Snap.val, ho, ho'] at hv
  | some o' =>
    simp only [Snap.val, ho, ho', Option.map_some, Option.some.injEq, Prod.mk.injEq] at hv
    have E1 := invoke_result (x := x) R' hs ho' (h1 _ hm)
    have E2 := invoke_result (x := x) R ht ho (h2 _ hm)
    rw [hv.1, hv.2] at E1
    rcases E1 with ⟨w1, e1, v1⟩ | ⟨n1, w1, e1, v1⟩ <;> rcases E2 with ⟨w2, e2, v2⟩ | ⟨n2, w2, e2, v2⟩ <;>
      rw [e1, e2] <;> refine ⟨⟨rfl, rfl⟩, ?_, ?_, ?_⟩
    all_goals first
      | (intro _ _ _ _ g1 g2; cases g1; cases g2; exact ⟨rfl, by rw [v1, v2]⟩)
      | (intro _ _ _ _ g1 g2; cases g1; done)
      | (intro _ _ _ _ g1 g2; cases g2; done)
      | (intro _ _ g1 g2; cases g1; cases g2; rw [v1, v2])
      | (intro _ _ g1 g2; cases g1; done)
      | (intro _ _ g1 g2; cases g2; done)
      | (intro _ _; exact ⟨_, _, _, rfl, rfl⟩)
      | (intro k1 k2; exact absurd ⟨k1, k2⟩ n1)
      | (intro k1 k2; exact absurd ⟨k1, k2⟩ n2)

/-- C18: transmutating copy: an any with the methods `ms`, a contiguous part of the methods of a, has
the same type and value as a, every method does the same as on a, and a is unchanged. -/
theorem C18_transmutate_copy (C : CfgOk cfg) {w w' : World} (h : Reachable cfg w) {b a : Nat} {ms : List Method}
    (L : Legal cfg w (.copyCtor b ms a)) (he : exec cfg (.copyCtor b ms a) w = .ok () w') :
    methodsOf w' b = some ms ∧ view w' b = view w a ∧ (∀ c, c ≠ b → snap w' c = snap w c) ∧
      SameCalls cfg w' b w a ms := by
  have L0 := L
  have R' := (Reachable.ok h L he).rep C
  obtain ⟨h1, h2, t, h3, h4, h5⟩ := L
  rcases C05_copy_construction C h L0 with ⟨w1, e, i1, i2, i3, _⟩ | ⟨w1, e, _⟩ <;> rw [he] at e <;> cases e
  have hm : methodsOf w' b = some ms := by
    obtain ⟨σ', S⟩ := step_ok C h L0 he
    have := congrFun (S.rep.metas'.trans S.metas) b
    rw [absOf_metas] at this
    have hq : metas w a = some (t.ms, t.al) := by
      have := of_snap h3
      simp only [alive] at this
      obtain ⟨st, hst⟩ := Option.isSome_iff_exists.1 this.1
      have e1 := this.2.2.2.1; have e2 := this.2.2.2.2.1
      simp only [methodsOf, allocOf, hst, Option.map_some, Option.some.injEq] at e1 e2
      simp [metas, hst, e1, e2]
    simp only [specMeta, upd_same, hq, Option.map_some] at this
    unfold metas at this
    unfold methodsOf
    cases hb : w'.anys b with
    | none => rw [hb] at this; cases this
    | some q => rw [hb] at this; simp only [Option.map_some, Option.some.injEq, Prod.mk.injEq] at this; simp [this.1]
  obtain ⟨s, hs, hc, _, hms, _, hv⟩ := snap_some i1
  rw [hm] at hms
  refine ⟨hm, i2, i3, sameCalls (h.rep C) R' hs h3 ?_ ?_ ?_⟩
  · rw [← hv, i2, (of_snap h3).2.2.2.2.2]
  · intro m hmm; rw [← Option.some.inj hms]; exact hmm
  · intro m hmm; exact h5.subset hmm

/-- C18: transmutating move: the same, and a is emptied; it never throws. -/
theorem C18_transmutate_move (C : CfgOk cfg) {w : World} (h : Reachable cfg w) {b a : Nat} {ms : List Method}
    (L : Legal cfg w (.transMoveCtor b ms a)) :
    ∃ w', exec cfg (.transMoveCtor b ms a) w = .ok () w' ∧ methodsOf w' b = some ms ∧ view w' b = view w a ∧
      content w' a = none ∧ (∀ c, c ≠ a → c ≠ b → snap w' c = snap w c) ∧ SameCalls cfg w' b w a ms := by
  have R := h.rep C
  have L0 := L
  obtain ⟨h1, h2, t, h3, h4, h5, h6⟩ := L
  have hne : b ≠ a := by rintro rfl; rw [h1] at h3; cases h3
  obtain ⟨w', h', R'⟩ := transMoveCtor_spec R h1 h3 h2 (fun _ h => h6 h) (fun _ _ => h4) h5
  obtain ⟨s', t', g1, g2, k1, k2, k3, k4, g3, g4, g5, _⟩ :=
    moved_facts (σ := absOf w) (a := b) (s := ⟨ms, cfg.defaultAlloc, none, none⟩) hne h3 rfl rfl
  rw [← R'.snaps] at g1 g2 g5
  refine ⟨w', h', by rw [(of_snap g1).2.2.2.1, k1], ?_, by rw [(of_snap g2).2.1, g4], fun c hc hc' => g5 c hc' hc, ?_⟩
  · rw [(of_snap g1).2.2.2.2.2, g3, (of_snap h3).2.2.2.2.2]
  · refine sameCalls R (Rep.of_wf R'.wf) g1 h3 g3 ?_ ?_
    · intro m hm; rw [k1]; exact hm
    · intro m hm; exact h5.subset hm

/-- A proper sublist that does not start at the first method. -/
def exSub : List Method := [.typeInfo, .user 0, .user 1, .destroy]
def exMs2 : List Method := [.copy 0, .move] ++ exSub ++ [.user 2]
example : ∃ w, Reachable exCfg w ∧ (Legal exCfg w (.copyCtor 8 exSub 0) ∧ Legal exCfg w (.transMoveCtor 8 exSub 0) ∧
    view w 0 = some (2, 7) ∧ (exec exCfg (.copyCtor 8 exSub 0) w).isOk = true) :=
  run_witness (ops := [.valueCtor 0 exMs2 0 2 (.lit 7) false]) (by decide +kernel)

/-! ### C19 -/

/-- C19: class and allocator of every any after a successful operation (`specMeta`): copy construction
uses `select_on_container_copy_construction`, move construction takes the source's allocator, move
assignment replaces the allocator iff `propagate_on_container_move_assignment` (and the allocators are
not always equal), every other operation except copy assignment and swap keeps all allocators.
Missing part of C19: for copy assignment the allocator is not replaced iff
`propagate_on_container_copy_assignment` but as `C19_copy_assignment_partial` says. -/
theorem C19_allocators (C : CfgOk cfg) {w w' : World} (h : Reachable cfg w) {op : Op} (L : Legal cfg w op)
    (he : exec cfg op w = .ok () w') : metas w' = specMeta cfg (metas w) op := by
  obtain ⟨σ', S⟩ := step_ok C h L he
  rw [S.rep.metas', S.metas, absOf_metas]

theorem allocOf_metas (w : World) (a : Nat) : allocOf w a = (metas w a).map (·.2) := by
  simp [allocOf, metas, Function.comp_def]

/-- C19: the individual rules. -/
theorem C19_rules (C : CfgOk cfg) {w w' : World} (h : Reachable cfg w) {a b x y : Nat} :
    (∀ ms, Legal cfg w (.copyCtor b ms a) → exec cfg (.copyCtor b ms a) w = .ok () w' → allocOf w a = some x →
      allocOf w' b = some (cfg.soccc x)) ∧
    (Legal cfg w (.moveCtor b a) → exec cfg (.moveCtor b a) w = .ok () w' → allocOf w' b = allocOf w a) ∧
    (Legal cfg w (.moveAssign b a) → exec cfg (.moveAssign b a) w = .ok () w' → allocOf w a = some x → allocOf w b = some y →
      cfg.alwaysEq = false → allocOf w' b = some (if cfg.pocma then x else y)) := by
  refine ⟨fun ms L he hx => ?_, fun L he => ?_, fun L he hx hy hae => ?_⟩
  · rw [allocOf_metas, C19_allocators C h L he]
    rw [allocOf_metas] at hx
    simp only [specMeta, upd_same]
    obtain ⟨q, hq, rfl⟩ := Option.map_eq_some_iff.1 hx
    simp [hq]
  · rw [allocOf_metas, C19_allocators C h L he, allocOf_metas]; simp [specMeta]
  · rw [allocOf_metas, C19_allocators C h L he]
    rw [allocOf_metas] at hx hy
    obtain ⟨q, hq, rfl⟩ := Option.map_eq_some_iff.1 hx
    obtain ⟨p, hp, rfl⟩ := Option.map_eq_some_iff.1 hy
    simp [specMeta, hq, hp, moveAssignAl, hae]

/-- C19, copy assignment: with `POCMA = false` the allocator is replaced iff `POCCA`; with `POCMA = true`
it becomes `select_on_container_copy_construction(source's)`, whatever `POCCA` says (the temporary copy
is move-assigned). Missing: the claimed rule for `POCMA = true`, which is false
(`C19_copy_assignment_fails`). -/
theorem C19_copy_assignment_partial (C : CfgOk cfg) {w w' : World} (h : Reachable cfg w) {a b x y tmp : Nat}
    (L : Legal cfg w (.copyAssign b a tmp)) (he : exec cfg (.copyAssign b a tmp) w = .ok () w')
    (hx : allocOf w a = some x) (hy : allocOf w b = some y) (hae : cfg.alwaysEq = false) :
    allocOf w' b = some (if cfg.pocma then cfg.soccc x else if cfg.pocca then x else y) := by
  rw [allocOf_metas, C19_allocators C h L he]
  rw [allocOf_metas] at hx hy
  obtain ⟨q, hq, rfl⟩ := Option.map_eq_some_iff.1 hx
  obtain ⟨p, hp, rfl⟩ := Option.map_eq_some_iff.1 hy
  simp [specMeta, hq, hp, moveAssignAl, hae, propagatedAl]

/-- C19: assignments of always equal allocators and all operations other than assignments, swap and
construction of this any keep its allocator. -/
theorem C19_kept (C : CfgOk cfg) {w w' : World} (h : Reachable cfg w) {op : Op} (L : Legal cfg w op)
    (he : exec cfg op w = .ok () w') {c : Nat} (hc : alive w c) (hc' : alive w' c)
    (hop : match op with | .copyAssign .. | .moveAssign .. | .swap .. => cfg.alwaysEq = true | _ => True) :
    allocOf w' c = allocOf w c := by
  have hm := C19_allocators C h L he
  have old : ∀ a, snap w a = none → a ≠ c := by
    rintro a ha rfl
    obtain ⟨s, hs, _⟩ := snap_some hc
    rw [ha] at hs; cases hs
  rw [allocOf_metas, hm, allocOf_metas]
  have some_of : ∀ a s, snap w a = some s → metas w a = some (s.ms, s.al) := by
    intro a s hs
    have := of_snap hs
    simp only [alive] at this
    obtain ⟨st, hst⟩ := Option.isSome_iff_exists.1 this.1
    have e1 := this.2.2.2.1; have e2 := this.2.2.2.2.1
    simp only [methodsOf, allocOf, hst, Option.map_some, Option.some.injEq] at e1 e2
    simp [metas, hst, e1, e2]
  cases op with
  | allocCtor a ms al => simp only [specMeta]; rw [upd_other _ _ _ _ (old a L.1).symm]
  | valueCtor a ms al t x n => simp only [specMeta]; rw [upd_other _ _ _ _ (old a L.1).symm]
  | forceCtor a ms t x n => simp only [specMeta]; rw [upd_other _ _ _ _ (old a L.1).symm]
  | copyCtor a ms o => simp only [specMeta]; rw [upd_other _ _ _ _ (old a L.1).symm]
  | moveCtor a o => simp only [specMeta]; rw [upd_other _ _ _ _ (old a L.1).symm]
  | transMoveCtor a ms o => simp only [specMeta]; rw [upd_other _ _ _ _ (old a L.1).symm]
  | dtor a =>
    simp only [specMeta]
    by_cases hca : c = a
    · subst hca
      have := congrFun hm c
      simp only [specMeta, upd_same] at this
      have h2 : (metas w' c).isSome := by simpa [metas, alive] using hc'
      rw [this] at h2; cases h2
    · rw [upd_other _ _ _ _ hca]
  | copyAssign a o tmp =>
    obtain ⟨_, s, h2, t, h3, _⟩ := L
    simp only [specMeta, upd]
    split
    · subst c; simp [some_of _ _ h2, some_of _ _ h3, moveAssignAl, propagatedAl, hop]
    · rfl
  | moveAssign a o =>
    obtain ⟨s, h2, t, h3, _⟩ := L
    simp only [specMeta, upd]
    split
    · subst c; simp [some_of _ _ h2, some_of _ _ h3, moveAssignAl, hop]
    · rfl
  | swap a b tmp =>
    obtain ⟨_, s, h2, t, h3, _⟩ := L
    simp only [specMeta]
    split
    · subst c; simp [some_of _ _ h2, some_of _ _ h3, moveAssignAl, hop]
    · split
      · subst c; simp [some_of _ _ h2, some_of _ _ h3, moveAssignAl, hop]
      · rfl
  | materialize a ms al o => simp only [specMeta]; rw [upd_other _ _ _ _ (old a L.1).symm]
  | emplace | reset | destroyValue | replaceWithBytes | mutate | castCopy | castMove | invoke => rfl

example : ∃ w, Reachable { exCfg with pocca := true, soccc := fun x => x + 10 } w ∧
    (Legal { exCfg with pocca := true, soccc := fun x => x + 10 } w (.copyAssign 1 0 9) ∧
     allocOf w 0 = some 1 ∧ allocOf w 1 = some 2 ∧
     (exec { exCfg with pocca := true, soccc := fun x => x + 10 } (.copyAssign 1 0 9) w).isOk = true) :=
  run_witness (ops := exHist.take 2) (by decide +kernel)

/-! ### C20 -/

/-- C20: if `std::swap(a, b)` returns, the values are exchanged (also for a = b) and nothing else
changed; it returns unless the allocators really differ. -/
theorem C20_swap (C : CfgOk cfg) {w : World} (h : Reachable cfg w) {a b tmp : Nat}
    (L : Legal cfg w (.swap a b tmp)) :
    (∀ w', exec cfg (.swap a b tmp) w = .ok () w' →
      view w' a = view w b ∧ view w' b = view w a ∧ ∀ c, c ≠ a → c ≠ b → snap w' c = snap w c) ∧
    (∀ x y, allocOf w a = some x → allocOf w b = some y → ¬ AllocsDiffer cfg x y →
      ∃ w', exec cfg (.swap a b tmp) w = .ok () w') := by
  have R := h.rep C
  have L0 := L
  obtain ⟨h1, s, h2, t, h3, h4, h5, h6⟩ := L
  rcases swapAny_spec C R h1 h2 h3 h4 h5.movable h6 with
    ⟨w1, σ', h', R', _, _, ⟨s', t', ga, gb, va, vb, ma, mb, la, lb⟩, oth⟩ | ⟨hu, w1, σ', h', R', _, _⟩ | ⟨hu, hn, h'⟩
  · refine ⟨fun w' he => ?_, fun x y _ _ _ => ⟨w1, h'⟩⟩
    change swapAny cfg a b tmp w = _ at he
    rw [he] at h'; cases h'
    rw [← R'.snaps] at ga gb oth
    exact ⟨by rw [(of_snap ga).2.2.2.2.2, (of_snap h3).2.2.2.2.2, va],
      by rw [(of_snap gb).2.2.2.2.2, (of_snap h2).2.2.2.2.2, vb], oth⟩
  · refine ⟨fun w' he => ?_, fun x y hx hy hd => ?_⟩
    · change swapAny cfg a b tmp w = _ at he
      rw [he] at h'; cases h'
    · have e1 := (of_snap h2).2.2.2.2.1; have e2 := (of_snap h3).2.2.2.2.1
      rw [hx] at e1; rw [hy] at e2; cases e1; cases e2; exact absurd hu hd
  · refine ⟨fun w' he => ?_, fun x y hx hy hd => ?_⟩
    · change swapAny cfg a b tmp w = _ at he
      rw [he] at h'; cases h'
    · have e1 := (of_snap h2).2.2.2.2.1; have e2 := (of_snap h3).2.2.2.2.1
      rw [hx] at e1; rw [hy] at e2; cases e1; cases e2; exact absurd hu hd

example : ∃ w, Reachable exCfg w ∧ (Legal exCfg w (.swap 0 1 9) ∧ Legal exCfg w (.swap 0 0 9) ∧
    view w 0 = some (2, 7) ∧ view w 1 = some (1, 5) ∧ (exec exCfg (.swap 0 1 9) w).isOk = true ∧
    (exec exCfg (.swap 0 0 9) w).isOk = true) :=
  run_witness (ops := exHist.take 2) (by decide +kernel)

/-! ### C37 -/

/-- C37, on any objects: the pointer form of `any_cast<T>` returns the address of the contained object
iff its type is exactly T, null otherwise, and changes nothing. -/
theorem C37_any_cast_pointer (C : CfgOk cfg) {w : World} (h : Reachable cfg w) {a t : Nat} (ha : alive w a)
    (hti : ∀ ms, methodsOf w a = some ms → HasDesc ms) :
    ((∃ v, view w a = some (t, v)) → ∃ p, addrOf w a = some p ∧ anyCastPtr a t w = .ok (some p) w ∧
      ∃ o, cellAt w p = some o ∧ content w a = some o) ∧
    ((∀ v, view w a ≠ some (t, v)) → anyCastPtr a t w = .ok none w) := by
  have R := h.rep C
  obtain ⟨s, hs, hc, hm, hms, _, hv⟩ := snap_some ha
  have hti' := hti _ hms
  obtain ⟨st, D⟩ := R.det hs
  have haddr : addrOf w a = some (s.loc a) := by simp [addrOf, D.get, D.loc]
  have hcast := anyCastPtr_spec (t := t) R hs (fun _ => hti')
  rw [hv]
  constructor
  · rintro ⟨v, hval⟩
    obtain ⟨o, ho, he⟩ := Option.map_eq_some_iff.1 hval
    simp only [Prod.mk.injEq] at he
    refine ⟨_, haddr, ?_, o, ?_, by rw [hc, ho]⟩
    · rw [hcast, ho]; simp [he.1]
    · obtain ⟨_, _, h2, _⟩ := D.objSome o ho
      rw [D.loc]; exact h2
  · intro hno
    rw [hcast]
    have : ¬ s.obj.map (·.ty) = some t := by
      intro he
      obtain ⟨o, ho, rfl⟩ := Option.map_eq_some_iff.1 he
      exact hno o.val (by simp [Snap.val, ho])
    simp [this]

/-- C37: the value form on an lvalue returns the value iff the type is exactly T, and throws otherwise
(or if the copy constructor throws); the any is unchanged. -/
theorem C37_any_cast_value (C : CfgOk cfg) {w : World} (h : Reachable cfg w) {a t : Nat} (ha : alive w a)
    (hti : ∀ ms, methodsOf w a = some ms → HasDesc ms) :
    (∃ v w', anyCastCopy cfg a t w = .ok v w' ∧ view w a = some (t, v) ∧ ∀ c, snap w' c = snap w c) ∨
    (∃ w', anyCastCopy cfg a t w = .exn w' ∧ (∀ c, snap w' c = snap w c) ∧
      ((∀ v, view w a ≠ some (t, v)) ∨ (cfg.ty t).nothrowCopy = false)) := by
  have R := h.rep C
  obtain ⟨s, hs, hc, hm, hms, _, hv⟩ := snap_some ha
  rcases anyCastCopy_spec (t := t) R hs (fun _ => hti _ hms) with ⟨ob, w', ho, ht, h', R'⟩ | ⟨hno, w', h', R'⟩
  · exact Or.inl ⟨ob.val, w', h', by rw [hv]; simp [Snap.val, ho, ht], fun c => by rw [R'.snaps]; rfl⟩
  · refine Or.inr ⟨w', h', fun c => by rw [R'.snaps]; rfl, ?_⟩
    by_cases hty : s.obj.map (·.ty) = some t
    · exact Or.inr (hno hty)
    · refine Or.inl fun v hval => hty ?_
      rw [hv] at hval
      obtain ⟨o, ho, he⟩ := Option.map_eq_some_iff.1 hval
      simp only [Prod.mk.injEq] at he
      simp [ho, he.1]

/-- C37: the value form on an rvalue moves the value out: the any still has a (moved-from) object of the
same type and identity; nothing else changes. -/
theorem C37_any_cast_rvalue (C : CfgOk cfg) {w : World} (h : Reachable cfg w) {a t : Nat} (ha : alive w a)
    (hti : ∀ ms, methodsOf w a = some ms → HasDesc ms) :
    (∃ v w' o, anyCastMove cfg a t w = .ok v w' ∧ view w a = some (t, v) ∧ content w a = some o ∧
      content w' a = some { o with val := cfg.movedFrom t v } ∧ ∀ c, c ≠ a → snap w' c = snap w c) ∨
    (∃ w', anyCastMove cfg a t w = .exn w' ∧ (∀ c, snap w' c = snap w c) ∧
      ((∀ v, view w a ≠ some (t, v)) ∨ (cfg.ty t).nothrowMove = false)) := by
  have R := h.rep C
  obtain ⟨s, hs, hc, hm, hms, _, hv⟩ := snap_some ha
  rcases anyCastMove_spec (t := t) R hs (fun _ => hti _ hms) with ⟨ob, w', ho, ht, h', R'⟩ | ⟨hno, w', h', R'⟩
  · obtain ⟨k1, k2⟩ := snapOf_upd (w := w) R' (s' := { s with obj := some { ob with val := cfg.movedFrom t ob.val } }) rfl
    exact Or.inl ⟨ob.val, w', ob, h', by rw [hv]; simp [Snap.val, ho, ht], by rw [hc, ho], (of_snap k1).2.1, k2⟩
  · refine Or.inr ⟨w', h', fun c => by rw [R'.snaps]; rfl, ?_⟩
    by_cases hty : s.obj.map (·.ty) = some t
    · exact Or.inr (hno hty)
    · refine Or.inl fun v hval => hty ?_
      rw [hv] at hval
      obtain ⟨o, ho, he⟩ := Option.map_eq_some_iff.1 hval
      simp only [Prod.mk.injEq] at he
      simp [ho, he.1]

example : ∃ w, Reachable exCfg w ∧ (alive w 0 ∧ view w 0 = some (2, 7) ∧ view w 1 = some (1, 5) ∧
    (anyCastCopy exCfg 0 2 w).isOk = true ∧ (anyCastCopy exCfg 0 1 w).isExn = true ∧ (anyCastMove exCfg 0 2 w).isOk = true) :=
  run_witness (ops := exHist.take 2) (by decide +kernel)

/-! ### C62 -/

/-- C62: invoking a method on an any with a value applies the implementation for the dynamic type to
the contained value: the result is the implementation's; only methods taking self by mutable reference
change the value, and only of this any; the contained object stays the same object. It throws only if a
by-value self must be copied and the copy throws, then nothing changed, or if the method throws: then the
any still contains the same object, with the value that a method with mutable self left, otherwise unchanged. -/
theorem C62_invoke (C : CfgOk cfg) {w : World} (h : Reachable cfg w) {a m x t v : Nat} {ms : List Method}
    (hm : methodsOf w a = some ms) (hmem : .user m ∈ ms) (hv : view w a = some (t, v)) :
    (∃ w' o o', invokeUser cfg a m x w = .ok (cfg.impl m t v x).1 w' ∧ content w a = some o ∧ content w' a = some o' ∧
      o'.id = o.id ∧ o'.ty = t ∧ o'.val = (if cfg.kind m = .mutRef then (cfg.impl m t v x).2 else v) ∧
      (∀ c, c ≠ a → snap w' c = snap w c) ∧ addrOf w' a = addrOf w a) ∨
    (cfg.kind m = .byValue ∧ (cfg.ty t).nothrowCopy = false ∧
      ∃ w', invokeUser cfg a m x w = .exn w' ∧ ∀ c, snap w' c = snap w c) ∨
    (cfg.methodNothrow m t = false ∧
      ∃ w' o o', invokeUser cfg a m x w = .exn w' ∧ content w a = some o ∧ content w' a = some o' ∧
        o'.id = o.id ∧ o'.ty = t ∧ o'.val = (if cfg.kind m = .mutRef then cfg.partway m t v x else v) ∧
        (∀ c, c ≠ a → snap w' c = snap w c) ∧ addrOf w' a = addrOf w a) := by
  have R := h.rep C
  have hal : alive w a := by
    unfold methodsOf at hm; unfold alive
    cases hh : w.anys a with
    | none => rw [hh] at hm; cases hm
    | some q => rfl
  obtain ⟨s, hs, hc, hmm, hms, _, hview⟩ := snap_some hal
  rw [hm] at hms
  rw [hview] at hv
  obtain ⟨ob, ho, he⟩ := Option.map_eq_some_iff.1 hv
  simp only [Prod.mk.injEq] at he
  obtain ⟨rfl, rfl⟩ := he
  rcases invokeUser_spec (x := x) R hs ho (by rw [← Option.some.inj hms]; exact hmem) with ⟨w', h', R'⟩ | ⟨h1, h2, w', h', R'⟩ | ⟨h1, w', h', R'⟩
  · obtain ⟨k1, k2⟩ := snapOf_upd (w := w) R' (s' := { s with obj := some (invoked cfg m x ob) }) rfl
    refine Or.inl ⟨w', ob, invoked cfg m x ob, h', by rw [hc, ho], (of_snap k1).2.1, ?_, ?_, ?_, k2, ?_⟩
    · unfold invoked; cases cfg.kind m <;> rfl
    · unfold invoked; cases cfg.kind m <;> rfl
    · unfold invoked; cases hk : cfg.kind m <;> simp
    · obtain ⟨st, D⟩ := R.det hs
      obtain ⟨st', D'⟩ := (Rep.of_wf R'.wf).det k1
      simp only [addrOf, D.get, D'.get, Option.map_some]
      rw [← D.loc, ← D'.loc]; rfl
  · exact Or.inr (Or.inl ⟨h1, h2, w', h', fun c => by rw [R'.snaps]; rfl⟩)
  · obtain ⟨k1, k2⟩ := snapOf_upd (w := w) R' (s' := { s with obj := some (invokedExn cfg m x ob) }) rfl
    refine Or.inr (Or.inr ⟨h1, w', ob, invokedExn cfg m x ob, h', by rw [hc, ho], (of_snap k1).2.1, ?_, ?_, ?_, k2, ?_⟩)
    · unfold invokedExn; cases cfg.kind m <;> rfl
    · unfold invokedExn; cases cfg.kind m <;> rfl
    · unfold invokedExn; cases hk : cfg.kind m <;> simp
    · obtain ⟨st, D⟩ := R.det hs
      obtain ⟨st', D'⟩ := (Rep.of_wf R'.wf).det k1
      simp only [addrOf, D.get, D'.get, Option.map_some]
      rw [← D.loc, ← D'.loc]; rfl

/-- Methods may throw; they leave the value increased by one. -/
def exCfgM (n : Nat) : Cfg := { exCfgF n with methodNothrow := fun _ _ => false, partway := fun _ _ v _ => v + 1 }

/-- A method with mutable self that throws half-way. -/
example : ∃ w, Reachable (exCfgM 3) w ∧ (methodsOf w 0 = some exMs ∧ view w 0 = some (2, 7) ∧
    (invokeUser (exCfgM 3) 0 1 3 w).isExn = true ∧
    (invokeUser (exCfgM 3) 0 1 3 w).world?.any (fun w' => view w' 0 == some (2, 8)) = true) :=
  run_witness (ops := exHist.take 2) (by decide +kernel)

example : ∃ w, Reachable exCfg w ∧ (methodsOf w 0 = some exMs ∧ view w 0 = some (2, 7) ∧
    exCfg.kind 1 = .mutRef ∧ .user 1 ∈ exMs) :=
  run_witness (ops := exHist.take 2) (by decide +kernel)

/-! ### C22 -/

/-- C22, for references to values in any objects whose copy does not throw or whose type needs no
destruction (`Legal`): `materialize` returns an any holding a copy of the referenced value with the
methods and dynamic type of the reference, or throws; nothing else changed. As the result is an any
like any other (it is part of reachable histories), it is independent of the reference and of the
source.
Missing: copies that throw (`C22_throwing_copy_fails`) and stateful references
(`C22_stateful_fails` in Props/Poly.lean). -/
theorem C22_materialize_partial (C : CfgOk cfg) {w : World} (h : Reachable cfg w) {a o al : Nat} {ms : List Method}
    (L : Legal cfg w (.materialize a ms al o)) :
    (∃ w', exec cfg (.materialize a ms al o) w = .ok () w' ∧ Reachable cfg w' ∧ alive w' a ∧ methodsOf w' a = some ms ∧
      allocOf w' a = some al ∧ view w' a = view w o ∧ (content w o).isSome ∧ (∀ c, c ≠ a → snap w' c = snap w c) ∧
      SameCalls cfg w' a w o ms) ∨
    (∃ w', exec cfg (.materialize a ms al o) w = .exn w' ∧ ¬ alive w' a ∧ ∀ c, snap w' c = snap w c) := by
  have R := h.rep C
  have L0 := L
  obtain ⟨h1, h2, hcp, t, h3, hi, ob, hob, hnt⟩ := L
  obtain ⟨tt, v, v', htt, hv, hr, _⟩ := refTo_spec R h3 hob hi
  rcases materialize_spec (al := al) C R h1 h3 h2 hcp hi hob hr hnt with ⟨w', h', R'⟩ | ⟨_, w', nb', h', R'⟩
  · have g : ∃ s', (copied cfg (absOf w) a ⟨ms, al, none, none⟩ ob).snaps = upd (absOf w).snaps a (some s') ∧
        s'.val = some (ob.ty, ob.val) ∧ s'.ms = ms ∧ s'.al = al := by
      unfold copied
      split
      · exact ⟨_, rfl, rfl, rfl, rfl⟩
      · exact ⟨_, rfl, rfl, rfl, rfl⟩
    obtain ⟨s', g1, g2, g3, g4⟩ := g
    have he : exec cfg (.materialize a ms al o) w = .ok () w' := by simp [exec, hr, h']
    obtain ⟨k1, k2⟩ := snapOf_upd R' g1
    have hval : s'.val = t.val := by rw [g2]; simp [Snap.val, hob]
    refine Or.inl ⟨w', he, .ok h L0 he, (of_snap k1).1, by rw [(of_snap k1).2.2.2.1, g3], by rw [(of_snap k1).2.2.2.2.1, g4],
      by rw [(of_snap k1).2.2.2.2.2, (of_snap h3).2.2.2.2.2, hval], by rw [(of_snap h3).2.1, hob]; rfl, k2, ?_⟩
    exact sameCalls R (Rep.of_wf R'.wf) k1 h3 hval (fun m hm => by rw [g3]; exact hm) (fun m hm => hi.subset hm)
  · have hs : snap w' = snap w := R'.snaps
    refine Or.inr ⟨w', by simp [exec, hr, h'], ?_, fun c => by rw [hs]⟩
    intro hal
    obtain ⟨s, hs', _⟩ := snap_some hal
    rw [hs, h1] at hs'; cases hs'

/-- Materialize through a reference with fewer methods, then destroy the source: the copy still works. -/
def exSubC : List Method := [.copy 0, .move, .typeInfo, .user 0, .user 1, .destroy]
example : ∃ w, Reachable exCfg w ∧ (Legal exCfg w (.materialize 1 exSubC 5 0) ∧
    (exec exCfg (.materialize 1 exSubC 5 0) w).isOk = true) :=
  run_witness (ops := [.valueCtor 0 exMs2 0 2 (.lit 7) false]) (by decide +kernel)
example : ∃ w, Reachable exCfg w ∧ (vals w 1 = some (some (2, 74)) ∧ vals w 0 = none) :=
  run_witness (ops := [.valueCtor 0 exMs2 0 2 (.lit 7) false, .materialize 1 exSubC 5 0, .dtor 0, .invoke 1 1 4])
    (by decide +kernel)
/-- A copy that throws, of a type without destructor. -/
example : ∃ w, Reachable (exCfgF 1) w ∧ (Legal (exCfgF 1) w (.materialize 1 exSubC 5 0) ∧
    (exec (exCfgF 1) (.materialize 1 exSubC 5 0) w).isExn = true) :=
  run_witness (ops := [.valueCtor 0 exMs2 0 3 (.lit 7) true]) (by decide +kernel)

end AnyAny.Mem
