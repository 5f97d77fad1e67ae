import Verif.Lemmas.Poly2
/-
The invariant relating reference objects to their meaning is preserved by every statement.
-/
namespace AnyAny.Poly
open AnyAny.TypeList
open AnyAny.Mem (Method Cfg CfgOk Ptr VtPtr World AnySt Obj upd content addrOf WF VtOk numberOfFirst_getElem Rep Snap snap absOf)

variable {cfg : Cfg} {w : PW} {r : RId} {o : RefObj} {T : Nat} {a : Addr} {l : Option Nat} {ms : List Method} {k : Kind}
  {S : SRefs}

/-- Reference object `o` is what `s` says. -/
structure Agree (w : PW) (o : RefObj) (s : SRef) : Prop where
  kind : o.kind = s.kind
  ms : o.ms = s.ms
  means : Means w o s.target s.lender

structure Inv (cfg : Cfg) (w : PW) (S : SRefs) : Prop where
  wf : WF cfg w.mem
  tmps : ∀ n, w.refs (.tmp n) = none
  agree : ∀ n, (w.refs (.var n) = none ∧ S n = none) ∨ ∃ o s, w.refs (.var n) = some o ∧ S n = some s ∧ Agree w o s

theorem Inv.fresh (I : Inv cfg w S) : Fresh w := fun n _ => I.tmps n

theorem Inv.get (I : Inv cfg w S) {n : Nat} {s : SRef} (h : S n = some s) :
    ∃ o, w.refs (.var n) = some o ∧ Agree w o s := by
  rcases I.agree n with ⟨_, h2⟩ | ⟨o, s', h1, h2, h3⟩
  · rw [h] at h2; cases h2
  · rw [h] at h2; cases h2; exact ⟨o, h1, h3⟩

theorem Den.congr {w' : PW} (h : Den w o T a l) (he : ∀ n, l = some n → w'.refs (.var n) = w.refs (.var n)) :
    Den w' o T a l := by
  refine ⟨h.val, h.byVal, fun hb => ?_⟩
  obtain ⟨p, h1, h2, h3⟩ := h.byPtr hb
  refine ⟨p, h1, ?_, h3⟩
  intro i m hi k
  have hne : o.ms ≠ [] := by rintro h0; rw [h0] at hi; cases hi
  have := h2 i m hi k
  cases p with
  | static v =>
    simp only [entryAt] at this ⊢
    cases hv : v.table[v.off + i]? with
    | none => rw [hv] at this; cases this
    | some y => rw [hv] at this; simp only [PRes.ok.injEq] at this ⊢; exact ⟨this.1, trivial⟩
  | inRef r off =>
    obtain ⟨n, rfl, hl⟩ := h3 hne r off rfl
    have hn := he n hl
    cases hr : w.refs (.var n) with
    | none => simp [entryAt, hr] at this
    | some y =>
      obtain ⟨k', ms', view, val⟩ := y
      simp only [entryAt, hn, hr] at this ⊢
      cases view with
      | ptr q => simp at this
      | value es =>
        simp only [] at this ⊢
        cases he : es[off + i]? with
        | none => rw [he] at this; cases this
        | some e => rw [he] at this; simp only [PRes.ok.injEq] at this ⊢; exact ⟨this.1, trivial⟩

theorem Agree.congr {w' : PW} {s : SRef} (h : Agree w o s) (he : ∀ n, s.lender = some n → w'.refs (.var n) = w.refs (.var n)) :
    Agree w' o s := by
  refine ⟨h.kind, h.ms, ?_⟩
  have := h.means
  cases ht : s.target with
  | none => rw [ht] at this; exact this
  | some p => rw [ht] at this; exact Den.congr this he

/-- Statements that do not touch references. -/
theorem Inv.other (I : Inv cfg w S) {w' : PW} (hr : w'.refs = w.refs) (hw : WF cfg w'.mem) : Inv cfg w' S := by
  refine ⟨hw, fun n => by rw [hr]; exact I.tmps n, fun n => ?_⟩
  rcases I.agree n with ⟨h1, h2⟩ | ⟨o, s, h1, h2, h3⟩
  · exact Or.inl ⟨by rw [hr]; exact h1, h2⟩
  · exact Or.inr ⟨o, s, by rw [hr]; exact h1, h2, h3.congr fun n _ => by rw [hr]⟩

/-- Changing one reference variable that is not borrowed from. -/
theorem Inv.set (I : Inv cfg w S) {n k : Nat} {x : Option RefObj} {s : Option SRef} (hn : NotLent S n)
    (h : (x = none ∧ s = none) ∨ ∃ o' s', x = some o' ∧ s = some s' ∧ Agree w o' s' ∧ s'.lender ≠ some n) :
    Inv cfg { w with refs := updR w.refs (.var n) x, tmps := k } (upd S n s) := by
  have hcongr : ∀ {o : RefObj} {t : SRef}, Agree w o t → t.lender ≠ some n →
      Agree { w with refs := updR w.refs (.var n) x, tmps := k } o t := by
    intro o t ha hl
    refine ha.congr fun m hm => ?_
    show updR _ _ _ _ = _
    rw [updR_other]
    rintro h; injection h with h; subst h; exact hl hm
  refine ⟨I.wf, fun m => ?_, fun m => ?_⟩
  · have : updR w.refs (.var n) x (.tmp m) = w.refs (.tmp m) := updR_other _ _ (by intro h; cases h)
    exact this.trans (I.tmps m)
  · by_cases hm : m = n
    · subst hm
      rcases h with ⟨rfl, rfl⟩ | ⟨o', s', rfl, rfl, ha, hl⟩
      · exact Or.inl ⟨updR_same _ _ _, by simp [upd]⟩
      · exact Or.inr ⟨o', s', updR_same _ _ _, by simp [upd], hcongr ha hl⟩
    · have e1 : updR w.refs (.var n) x (.var m) = w.refs (.var m) := updR_other _ _ (by intro h; injection h; contradiction)
      have e2 : upd S n s m = S m := by simp [upd, hm]
      rcases I.agree m with ⟨h1, h2⟩ | ⟨o, t, h1, h2, h3⟩
      · exact Or.inl ⟨by rw [← h1]; exact e1, by rw [e2]; exact h2⟩
      · exact Or.inr ⟨o, t, by rw [← h1]; exact e1, by rw [e2]; exact h2, hcongr h3 (hn m t h2)⟩

/-- Binding a variable to an evaluated reference. -/
theorem bindVar_step (I : Inv cfg w S) {n : Nat} {m : PM RefObj} {o' : RefObj} {s' : SRef} (hn : NotLent S n) (h : Ev w m o')
    (ha : Agree w o' s') (hl : s'.lender ≠ some n) :
    ∃ w', bindVar n m w = .ok () w' ∧ Inv cfg w' (upd S n (some s')) ∧ w'.mem = w.mem ∧ w'.vars = w.vars := by
  obtain ⟨j, hj, h⟩ := h
  refine ⟨_, ?_, I.set (k := j) hn (Or.inr ⟨o', s', rfl, rfl, ha, hl⟩), rfl, rfl⟩
  simp only [bindVar, pbind_apply, h, setRef]

theorem bindVar_gives (I : Inv cfg w S) {n : Nat} {m : PM RefObj} (hn : NotLent S n) (h : Gives w m k ms T a l) (hl : l ≠ some n) :
    ∃ w', bindVar n m w = .ok () w' ∧ Inv cfg w' (upd S n (some ⟨k, ms, some (T, a), l⟩)) ∧ w'.mem = w.mem ∧ w'.vars = w.vars := by
  obtain ⟨o, h1, h2, h3, h4⟩ := h
  exact bindVar_step I hn h1 ⟨h3, h4, h2⟩ hl

theorem bindVar_null (I : Inv cfg w S) {n : Nat} {m : PM RefObj} (hn : NotLent S n) (h : GivesNull w m k ms) (hl : l ≠ some n) :
    ∃ w', bindVar n m w = .ok () w' ∧ Inv cfg w' (upd S n (some ⟨k, ms, none, l⟩)) ∧ w'.mem = w.mem ∧ w'.vars = w.vars := by
  obtain ⟨o, h1, h2, h3, h4⟩ := h
  exact bindVar_step I hn h1 ⟨h3, h4, h2⟩ hl

/-! ### invocation -/

theorem liveAt_holds {t : Nat} (h : liveAt w t a) : ∃ v, holds w t v a := by
  cases a with
  | mem p => obtain ⟨c, o, h1, h2, h3⟩ := h; exact ⟨o.val, c, o, h1, h2, h3, rfl⟩
  | var x => exact h

/-- Value after an invocation. -/
def newVal (cfg : Cfg) (m t v x : Nat) : Nat :=
  match cfg.kind m with
  | .mutRef => (cfg.impl m t v x).2
  | _ => v

theorem snap_addr {c : Nat} {s : Snap} {p : Ptr} (W : WF cfg w.mem) (hs : snap w.mem c = some s) (ha : addrOf w.mem c = some p) :
    s.loc c = p := by
  obtain ⟨st, D⟩ := (Rep.of_wf W).det hs
  rw [D.loc]
  simpa [addrOf, D.get] using ha

/-- Value after an invocation that threw. -/
def exnVal (cfg : Cfg) (m t v x : Nat) : Nat :=
  match cfg.kind m with
  | .mutRef => cfg.partway m t v x
  | _ => v

theorem readAddr_spec {t v : Nat} (W : WF cfg w.mem) (h : holds w t v a) : readAddr a t w = .ok v w := by
  cases a with
  | var y => have h : w.vars y = some (t, v) := h; simp [readAddr, h]
  | mem p =>
    obtain ⟨c, ob, h1, h2, h3, h4⟩ := h
    obtain ⟨s, hs, hc, _⟩ := Mem.snap_some (w := w.mem) (a := c) (by
      cases hst : w.mem.anys c with
      | none => simp [addrOf, hst] at h2
      | some st => simp [Mem.alive, hst])
    have := Mem.readObj_spec (Rep.of_wf W) hs (by rw [← hc]; exact h1)
    rw [snap_addr W hs h2, h3] at this
    simp [readAddr, liftMem, this, h4]

theorem writeAddr_spec {t v y : Nat} (W : WF cfg w.mem) (h : holds w t v a) :
    ∃ w', writeAddr a t y w = .ok () w' ∧ WF cfg w'.mem ∧ holds w' t y a ∧ OnlyAt w w' a ∧ w'.tmps = w.tmps := by
  cases a with
  | var z =>
    have h : w.vars z = some (t, v) := h
    refine ⟨{ w with vars := upd w.vars z (some (t, y)) }, ?_, W, ?_, ?_, rfl⟩
    · simp [writeAddr, h]
    · simp [holds, upd]
    · refine ⟨rfl, fun z' hz => ?_, fun _ _ => rfl, fun _ => rfl⟩
      have : z' ≠ z := by rintro rfl; exact hz rfl
      simp [upd, this]
  | mem p =>
    obtain ⟨c, ob, h1, h2, h3, h4⟩ := h
    obtain ⟨s, hs, hc, _⟩ := Mem.snap_some (w := w.mem) (a := c) (by
      cases hst : w.mem.anys c with
      | none => simp [addrOf, hst] at h2
      | some st => simp [Mem.alive, hst])
    have R := Rep.of_wf W
    obtain ⟨u, hu, R'⟩ := Mem.writeObj_spec (x := y) R hs (by rw [← hc]; exact h1)
    have hloc := snap_addr W hs h2
    rw [hloc, h3] at hu
    have hsc : snap u c = some { s with obj := some { ob with val := y } } := by
      rw [R'.snaps]; simp [Mem.Abs.set, upd]
    have hso : ∀ d, d ≠ c → snap u d = snap w.mem d := by
      intro d hd; rw [R'.snaps]; simp [Mem.Abs.set, upd, hd]
    refine ⟨{ w with mem := u }, by simp [writeAddr, liftMem, hu], R'.wf, ?_, ?_, rfl⟩
    · obtain ⟨st', D'⟩ := R'.det (by rw [← R'.snaps]; exact hsc)
      refine ⟨c, { ob with val := y }, D'.cont, ?_, h3, rfl⟩
      have e := D'.loc
      simp only [addrOf, D'.get, Option.map_some, ← e]
      rw [← hloc]
      rfl
    · refine ⟨rfl, fun _ _ => rfl, fun d hd => hso d ?_, fun d => ?_⟩
      · rintro rfl; exact hd p h2 rfl
      · by_cases hd : d = c
        · subst hd
          have hso : s.obj = some ob := by rw [← hc]; exact h1
          show (snap u d).map _ = _
          rw [hsc, hs]; simp [hso]
        · show (snap u d).map _ = _
          rw [hso d hd]

/-- Both are the same but for the number of calls. -/
structure Ticked (w w' : PW) : Prop where
  anys : w'.mem.anys = w.mem.anys
  blks : w'.mem.blks = w.mem.blks
  snaps : snap w'.mem = snap w.mem
  vars : w'.vars = w.vars
  refs : w'.refs = w.refs
  tmps : w'.tmps = w.tmps

theorem Ticked.refl (w : PW) : Ticked w w := ⟨rfl, rfl, rfl, rfl, rfl, rfl⟩

theorem Ticked.trans {w w' w'' : PW} (h : Ticked w w') (h' : Ticked w' w'') : Ticked w w'' :=
  ⟨h'.anys.trans h.anys, h'.blks.trans h.blks, h'.snaps.trans h.snaps, h'.vars.trans h.vars, h'.refs.trans h.refs,
    h'.tmps.trans h.tmps⟩

theorem Ticked.holds {w' : PW} {t v : Nat} (e : Ticked w w') (h : holds w t v a) : Poly.holds w' t v a := by
  cases a with
  | var y => have h : w.vars y = some (t, v) := h; show w'.vars y = _; rw [e.vars]; exact h
  | mem p =>
    obtain ⟨c, ob, h1, h2, h3⟩ := h
    refine ⟨c, ob, ?_, by simpa [addrOf, e.anys] using h2, h3⟩
    have e' : ∀ p, Mem.cellAt w'.mem p = Mem.cellAt w.mem p := fun p => by cases p <;> simp [Mem.cellAt, e.anys, e.blks]
    simpa [content, e.anys, e'] using h1

theorem OnlyAt.ticked {w' w'' : PW} (e : Ticked w w') (h : OnlyAt w' w'' a) : OnlyAt w w'' a := by
  obtain ⟨h1, h2, h3, h4⟩ := h
  refine ⟨h1.trans e.refs, fun x hx => (h2 x hx).trans (by rw [e.vars]), fun c hc => (h3 c ?_).trans (by rw [e.snaps]), fun c => ?_⟩
  · simpa [addrOf, e.anys] using hc
  · rw [h4 c, e.snaps]

theorem Ticked.onlyAt {w' : PW} (e : Ticked w w') : OnlyAt w w' a :=
  ⟨e.refs, fun _ _ => by rw [e.vars], fun _ _ => by rw [e.snaps], fun _ => by rw [e.snaps]⟩

theorem mayThrow_ticked {b : Bool} (W : WF cfg w.mem) :
    (∃ w', liftMem (Mem.mayThrow cfg b) w = .ok () w' ∧ WF cfg w'.mem ∧ Ticked w w') ∨
    (b = false ∧ ∃ w', liftMem (Mem.mayThrow cfg b) w = .exn w' ∧ WF cfg w'.mem ∧ Ticked w w') := by
  cases b with
  | true => exact Or.inl ⟨w, by simp [liftMem, Mem.mayThrow], W, .refl w⟩
  | false =>
    have R' := (Rep.of_wf W).tick (w.mem.tick + 1)
    cases hf : cfg.faults w.mem.tick with
    | false =>
      exact Or.inl ⟨{ w with mem := { w.mem with tick := w.mem.tick + 1 } }, by simp [liftMem, Mem.mayThrow, Mem.throwPoint, hf],
        R'.wf, rfl, rfl, R'.snaps, rfl, rfl, rfl⟩
    | true =>
      exact Or.inr ⟨rfl, { w with mem := { w.mem with tick := w.mem.tick + 1 } }, by simp [liftMem, Mem.mayThrow, Mem.throwPoint, hf],
        R'.wf, rfl, rfl, R'.snaps, rfl, rfl, rfl⟩

theorem callEntry_spec {m t v x : Nat} (W : WF cfg w.mem) (h : holds w t v a) :
    (∃ w', callEntry cfg m t a x w = .ok (cfg.impl m t v x).1 w' ∧ WF cfg w'.mem ∧ holds w' t (newVal cfg m t v x) a ∧
      OnlyAt w w' a ∧ w'.tmps = w.tmps) ∨
    (cfg.kind m = .byValue ∧ (cfg.ty t).nothrowCopy = false ∧
      ∃ w', callEntry cfg m t a x w = .exn w' ∧ WF cfg w'.mem ∧ holds w' t v a ∧ snap w'.mem = snap w.mem ∧
        w'.vars = w.vars ∧ w'.refs = w.refs ∧ w'.tmps = w.tmps) ∨
    (cfg.methodNothrow m t = false ∧
      ∃ w', callEntry cfg m t a x w = .exn w' ∧ WF cfg w'.mem ∧ holds w' t (exnVal cfg m t v x) a ∧ OnlyAt w w' a ∧
        (cfg.kind m ≠ .mutRef → snap w'.mem = snap w.mem ∧ w'.vars = w.vars) ∧ w'.tmps = w.tmps) := by
  have hread := readAddr_spec W h
  simp only [callEntry, pbind_apply, hread]
  cases hk : cfg.kind m with
  | constRef =>
    rcases mayThrow_ticked (cfg := cfg) (b := cfg.methodNothrow m t) W with ⟨w', h1, h2, h3⟩ | ⟨hn, w', h1, h2, h3⟩
    · exact Or.inl ⟨w', by simp [h1], h2, by simpa [newVal, hk] using h3.holds h, h3.onlyAt, h3.tmps⟩
    · exact Or.inr (Or.inr ⟨hn, w', by simp [h1], h2, by simpa [exnVal, hk] using h3.holds h, h3.onlyAt,
        fun _ => ⟨h3.snaps, h3.vars⟩, h3.tmps⟩)
  | byValue =>
    rcases mayThrow_ticked (cfg := cfg) (b := (cfg.ty t).nothrowCopy) W with ⟨w', h1, h2, h3⟩ | ⟨hn, w', h1, h2, h3⟩
    · rcases mayThrow_ticked (cfg := cfg) (b := cfg.methodNothrow m t) h2 with ⟨w'', k1, k2, k3⟩ | ⟨hn, w'', k1, k2, k3⟩
      · have e := h3.trans k3
        exact Or.inl ⟨w'', by simp [h1, k1], k2, by simpa [newVal, hk] using e.holds h, e.onlyAt, e.tmps⟩
      · have e := h3.trans k3
        exact Or.inr (Or.inr ⟨hn, w'', by simp [h1, k1], k2, by simpa [exnVal, hk] using e.holds h, e.onlyAt,
          fun _ => ⟨e.snaps, e.vars⟩, e.tmps⟩)
    · exact Or.inr (Or.inl ⟨rfl, hn, w', by simp [h1], h2, h3.holds h, h3.snaps, h3.vars, h3.refs, h3.tmps⟩)
  | mutRef =>
    rcases mayThrow_ticked (cfg := cfg) (b := cfg.methodNothrow m t) W with ⟨w', h1, h2, h3⟩ | ⟨hn, w', h1, h2, h3⟩
    · obtain ⟨w'', k1, k2, k3, k4, k5⟩ := writeAddr_spec (y := (cfg.impl m t v x).2) h2 (h3.holds h)
      exact Or.inl ⟨w'', by simp [onFail, h1, k1], k2, by simpa [newVal, hk] using k3, k4.ticked h3, k5.trans h3.tmps⟩
    · obtain ⟨w'', k1, k2, k3, k4, k5⟩ := writeAddr_spec (y := cfg.partway m t v x) h2 (h3.holds h)
      exact Or.inr (Or.inr ⟨hn, w'', by simp [onFail, h1, k1], k2, by simpa [exnVal, hk] using k3, k4.ticked h3,
        fun hne => absurd rfl hne, k5.trans h3.tmps⟩)

/-! ### every statement -/

theorem isPtr_stateful {k : Kind} (h : k.isPtr = true) : k.isStateful = false := by cases k <;> first | rfl | cases h

theorem invokeRef_eval {n m x : Nat} {s : SRef} (I : Inv cfg w S) (hs : S n = some s) (ht : s.target = some (T, a))
    (hm : .user m ∈ s.ms) : ∃ j, w.tmps ≤ j ∧ invokeRef cfg (.var n) m x w = callEntry cfg m T a x { w with tmps := j } := by
  obtain ⟨o, hr, A⟩ := I.get hs
  have h : Den w o T a s.lender := by have := A.means; rw [ht] at this; exact this
  obtain ⟨j, hj, he⟩ := dispatch_ev I.fresh hr h (by rw [A.ms]; exact hm)
  refine ⟨j, hj, ?_⟩
  simp only [invokeRef, pbind_apply, he, nonNull, ppure_apply]

theorem step (C : CfgOk cfg) (I : Inv cfg w S) {op : Op} (L : Legal cfg w S op) :
    (∃ w', exec cfg op w = .ok () w' ∧ Inv cfg w' (specStep w S op)) ∨
    (∃ w', exec cfg op w = .exn w' ∧ Inv cfg w' S) ∨
    (exec cfg op w = .term ∧ ∃ mop, op = .mem mop ∧ Mem.mayTerminate cfg w.mem mop) := by
  have ok3 : ∀ {m : PM Unit} {S' : SRefs}, (∃ w', m w = .ok () w' ∧ Inv cfg w' S' ∧ w'.mem = w.mem ∧ w'.vars = w.vars) →
      ∃ w', m w = .ok () w' ∧ Inv cfg w' S' := fun ⟨w', h1, h2, _⟩ => ⟨w', h1, h2⟩
  have hw := I.fresh
  cases op with
  | newVar x t v => exact Or.inl ⟨_, rfl, I.other rfl I.wf⟩
  | dropVar x => exact Or.inl ⟨_, rfl, I.other rfl I.wf⟩
  | mem mop =>
    rcases Mem.step_spec C (Rep.of_wf I.wf) mop L with ⟨u, σ, h1, h2⟩ | ⟨u, σ, h1, h2⟩ | ⟨h1, h2⟩
    · exact Or.inl ⟨{ w with mem := u }, by simp [exec, liftMem, h1], I.other rfl h2.rep.wf⟩
    · exact Or.inr (Or.inl ⟨{ w with mem := u }, by simp [exec, liftMem, h1], I.other rfl h2.rep.wf⟩)
    · exact Or.inr (Or.inr ⟨by simp [exec, liftMem, h2], mop, rfl, h1⟩)
  | ofVar n k ms x =>
    obtain ⟨hn, hx⟩ := L
    obtain ⟨⟨t, v⟩, hx⟩ := Option.isSome_iff_exists.1 hx
    left
    simp only [exec, specStep, hx, Option.map_some]
    cases hk : k.isStateful with
    | true => exact ok3 (bindVar_gives I hn (statefulOfVar_gives hx hk) (by simp))
    | false => exact ok3 (bindVar_gives I hn (polyOfVar_gives hx hk) (by simp))
  | ofAny n k ms c =>
    obtain ⟨hn, hk, hc⟩ := L
    left
    cases c with
    | none => exact ok3 (bindVar_null I hn (ptrNull_gives hk) (by simp))
    | some c =>
      obtain ⟨s, hs, hi⟩ := hc c rfl
      cases ho : s.obj with
      | none =>
        have := ok3 (bindVar_null (l := none) I hn (ptrOfAny_null (ms := ms) I.wf hs ho hk) (by simp))
        have e : anyTarget w.mem c = none := by simp [anyTarget, (Mem.of_snap hs).2.1, ho]
        simpa [exec, specStep, e] using this
      | some ob =>
        obtain ⟨p, h1, h2, h3⟩ := ptrOfAny_gives I.wf hs ho hk hi
        have := ok3 (bindVar_gives I hn h3 (by simp))
        have e : anyTarget w.mem c = some (ob.ty, .mem p) := by simp [anyTarget, h1, h2]
        simpa [exec, specStep, e] using this
  | ofNullT n k ms t => exact Or.inl (ok3 (bindVar_null I L.1 (ptrOfNullT_gives L.2 t) (by simp)))
  | ofNull n k ms => exact Or.inl (ok3 (bindVar_null I L.1 (ptrNull_gives L.2) (by simp)))
  | conv n k ms src =>
    obtain ⟨hn, s, hs, hc⟩ := L
    obtain ⟨o, hr, A⟩ := I.get hs
    have hl : (if k.isStateful = true then none else s.lender) ≠ some n := by
      split
      · simp
      · exact hn _ _ hs
    left
    simp only [exec, specStep, hs, Option.map_some]
    cases ht : s.target with
    | none =>
      have h : IsNull o := by have := A.means; rw [ht] at this; exact this
      exact ok3 (bindVar_null I hn (convert_null hw hr h A.kind hc) hl)
    | some p =>
      have h : Den w o p.1 p.2 s.lender := by have := A.means; rw [ht] at this; exact this
      exact ok3 (bindVar_gives I hn (convert_gives hw hr h A.kind A.ms hc) hl)
  | assign n src =>
    obtain ⟨hn, d, s, hd, hs, _⟩ := L
    obtain ⟨o, hr, A⟩ := I.get hs
    left
    simp only [exec, specStep, hs]
    exact ok3 (bindVar_step I hn (getRef_ev hr) A (hn _ _ hs))
  | addrOf n src =>
    obtain ⟨hn, s, hs, hc⟩ := L
    obtain ⟨o, hr, A⟩ := I.get hs
    left
    simp only [exec, specStep, hs, Option.map_some]
    have hk : o.kind.isStateful = false := by rw [A.kind]; rcases hc with h | h <;> rw [h] <;> rfl
    cases ht : s.target with
    | none =>
      have h : IsNull o := by have := A.means; rw [ht] at this; exact this
      have := h.ptr; rw [A.kind] at this
      rcases hc with h | h <;> rw [h] at this <;> cases this
    | some p =>
      have h : Den w o p.1 p.2 s.lender := by have := A.means; rw [ht] at this; exact this
      have := ok3 (bindVar_gives I hn (addrOfRef_gives hr h hk) (hn _ _ hs))
      rw [A.kind, A.ms] at this
      exact this
  | deref n src =>
    obtain ⟨hn, s, hs, hp, hts⟩ := L
    obtain ⟨o, hr, A⟩ := I.get hs
    left
    simp only [exec, specStep, hs, Option.map_some]
    cases ht : s.target with
    | none => rw [ht] at hts; cases hts
    | some p =>
      have h : Den w o p.1 p.2 s.lender := by have := A.means; rw [ht] at this; exact this
      have := ok3 (bindVar_gives I hn (derefPtr_gives hr h (by rw [A.kind]; exact hp)) (hn _ _ hs))
      rw [A.kind, A.ms] at this
      exact this
  | constCast n src =>
    obtain ⟨hn, s, hs, hk⟩ := L
    obtain ⟨o, hr, A⟩ := I.get hs
    left
    simp only [exec, specStep, hs, Option.map_some]
    cases ht : s.target with
    | none =>
      have h : IsNull o := by have := A.means; rw [ht] at this; exact this
      have := ok3 (bindVar_null I hn (constPointerCast_null hw hr h) (hn _ _ hs))
      rw [A.ms] at this
      exact this
    | some p =>
      have h : Den w o p.1 p.2 s.lender := by have := A.means; rw [ht] at this; exact this
      have := ok3 (bindVar_gives I hn (constPointerCast_gives hw hr h (by rw [A.kind, hk]; rfl)) (hn _ _ hs))
      rw [A.ms] at this
      exact this
  | view n src =>
    obtain ⟨hn, hne, s, hs, hk⟩ := L
    obtain ⟨o, hr, A⟩ := I.get hs
    left
    simp only [exec, specStep, hs, Option.map_some]
    cases ht : s.target with
    | none =>
      have h : IsNull o := by have := A.means; rw [ht] at this; exact this
      have := isPtr_stateful h.ptr
      rw [A.kind, hk] at this; cases this
    | some p =>
      have h : Den w o p.1 p.2 s.lender := by have := A.means; rw [ht] at this; exact this
      have := ok3 (bindVar_gives I hn (getView_gives hw hr h (by rw [A.kind]; exact hk)) (by simpa using Ne.symm hne))
      rw [A.kind, A.ms] at this
      exact this
  | drop n => exact Or.inl ⟨_, rfl, I.set (k := w.tmps) L (Or.inl ⟨rfl, rfl⟩)⟩
  | invoke n m x =>
    obtain ⟨s, t, p, hs, ht, hm, _, _, hl⟩ := L
    obtain ⟨j, hj, he⟩ := invokeRef_eval (x := x) I hs ht hm
    obtain ⟨v, hv⟩ := liveAt_holds hl
    have hv' : holds { w with tmps := j } t v p := by cases p <;> exact hv
    rcases callEntry_spec (m := m) (x := x) (w := { w with tmps := j }) I.wf hv' with ⟨w', h1, h2, _, h3, _⟩ | ⟨_, _, w', h1, h2, _, _, _, h3, _⟩ | ⟨_, w', h1, h2, _, h3, _⟩
    · exact Or.inl ⟨w', by simp [exec, he, h1], I.other h3.1 h2⟩
    · exact Or.inr (Or.inl ⟨w', by simp [exec, he, h1], I.other h3 h2⟩)
    · exact Or.inr (Or.inl ⟨w', by simp [exec, he, h1], I.other h3.1 h2⟩)

theorem Inv.init : Inv cfg .init (fun _ => none) :=
  ⟨Mem.WF_init, fun _ => rfl, fun _ => Or.inl ⟨rfl, rfl⟩⟩

theorem Reach.inv (C : CfgOk cfg) (h : Reach cfg w S) : Inv cfg w S := by
  induction h with
  | init => exact Inv.init
  | ok _ L he ih =>
    rcases step C ih L with ⟨w', h', I⟩ | ⟨w', h', I⟩ | ⟨h', _⟩
    · rw [he] at h'; cases h'; exact I
    · rw [he] at h'; cases h'
    · rw [he] at h'; cases h'
  | exn _ L he ih =>
    rcases step C ih L with ⟨w', h', I⟩ | ⟨w', h', I⟩ | ⟨h', _⟩
    · rw [he] at h'; cases h'
    · rw [he] at h'; cases h'; exact I
    · rw [he] at h'; cases h'

end AnyAny.Poly
