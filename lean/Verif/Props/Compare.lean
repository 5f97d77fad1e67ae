import Verif.Model.Compare
import Verif.Props.Poly
/-
C39-C41: comparison and hash of polymorphic values. The operands are any objects or references in a
reachable state of a client program; they may differ in their classes.
-/
namespace AnyAny.Poly
open AnyAny.Mem (Method Cfg CfgOk Obj content addrOf snap WF exCfg)

variable {cfg : Cfg} {F : CmpFns}

/-- What the operand `x` stands for in a state: no value, or a type and a value. -/
def Sees (w : PW) (S : SRefs) (x : Opd) (c : Option (Nat × Nat)) : Prop :=
  match x with
  | .any a => Mem.alive w.mem a ∧ Mem.view w.mem a = c
  | .ref n => ∃ s T v p, S n = some s ∧ s.kind.isPtr = false ∧ s.target = some (T, p) ∧ holds w T v p ∧ c = some (T, v)

/-- The class of the operand has method `m`. -/
def HasMethod (w : PW) (S : SRefs) (x : Opd) (m : Method) : Prop :=
  match x with
  | .any a => ∃ ms, Mem.methodsOf w.mem a = some ms ∧ m ∈ ms
  | .ref n => ∃ s, S n = some s ∧ m ∈ s.ms

/-! ### evaluation -/

theorem readAddr_ev {w : PW} {a : Addr} {t v : Nat} (W : WF cfg w.mem) (h : holds w t v a) : Ev w (readAddr a t) v := by
  refine ⟨w.tmps, Nat.le_refl _, ?_⟩
  cases a with
  | var y => have h : w.vars y = some (t, v) := h; simp [readAddr, h]
  | mem p =>
    obtain ⟨c, ob, h1, h2, h3, h4⟩ := h
    obtain ⟨s, hs, hc, _⟩ := Mem.snap_some (w := w.mem) (a := c) (by
      cases hst : w.mem.anys c with
      | none => simp [addrOf, hst] at h2
      | some st => simp [Mem.alive, hst])
    have := Mem.readObj_spec (Mem.Rep.of_wf W) hs (by rw [← hc]; exact h1)
    rw [snap_addr W hs h2, h3] at this
    simp [readAddr, liftMem, this, h4]

theorem holds.tmps {w : PW} {t v : Nat} {a : Addr} (h : holds w t v a) (j : Nat) : holds { w with tmps := j } t v a := by
  cases a <;> exact h

theorem getAny_ev {w : PW} {a : Nat} {s : Mem.AnySt} (h : w.mem.anys a = some s) : Ev w (liftMem (Mem.getAny a)) s :=
  ⟨w.tmps, Nat.le_refl _, by simp [liftMem, Mem.getAny, h]⟩

/-- The facts needed about an operand with a value. -/
structure Full (w : PW) (x : Opd) (m : Method) (t v : Nat) : Prop where
  has : ∀ j, Ev { w with tmps := j } (opdHasValue x) true
  entry : ∀ j, Ev { w with tmps := j } (entryTy x m) t
  addr : ∃ p, holds w t v p ∧ ∀ j, Ev { w with tmps := j } (valuePtr x) p

theorem any_full {w : PW} {a : Nat} {m : Method} {t v : Nat} (W : WF cfg w.mem) (hv : Mem.view w.mem a = some (t, v))
    (hm : ∃ ms, Mem.methodsOf w.mem a = some ms ∧ m ∈ ms) :
    ∃ s vp, w.mem.anys a = some s ∧ s.vt = some vp ∧ vp.ty = t ∧ Mem.VtOk s.ms vp ∧ m ∈ s.ms ∧ holds w t v (.mem s.vp) := by
  obtain ⟨ms, hms, hm⟩ := hm
  cases hs : w.mem.anys a with
  | none => simp [Mem.methodsOf, hs] at hms
  | some s =>
    have hms : s.ms = ms := by simpa [Mem.methodsOf, hs] using hms
    obtain ⟨o, ho, hov⟩ : ∃ o, content w.mem a = some o ∧ (o.ty, o.val) = (t, v) := by
      simpa [Mem.view] using hv
    cases hvt : s.vt with
    | none => simp [content, hs, hvt] at ho
    | some vp =>
      obtain ⟨o', h1, h2, h3, _⟩ := (W.any a s hs).full vp hvt
      have he : o' = o := by
        have : Mem.cellAt w.mem s.vp = some o := by simpa [content, hs, hvt] using ho
        rw [this] at h1; exact (Option.some.inj h1).symm
      subst he
      have ht : o'.ty = t := congrArg Prod.fst hov
      have hv' : o'.val = v := congrArg Prod.snd hov
      exact ⟨s, vp, rfl, hvt, by rw [← h2, ht], h3, by rw [hms]; exact hm, a, o', ho, by simp [addrOf, hs], ht, hv'⟩

theorem full_of {w : PW} {S : SRefs} {x : Opd} {m : Method} {t v : Nat} (I : Inv cfg w S) (hx : Sees w S x (some (t, v)))
    (hm : HasMethod w S x m) : Full w x m t v := by
  cases x with
  | any a =>
    obtain ⟨s, vp, hs, hvt, hty, hok, hin, hh⟩ := any_full I.wf hx.2 hm
    have hg : ∀ j, Ev { w with tmps := j } (liftMem (Mem.getAny a)) s := fun j => getAny_ev (w := { w with tmps := j }) hs
    refine ⟨fun j => ?_, fun j => ?_, .mem s.vp, hh, fun j => Ev.bind (hg j) fun k _ => Ev.pure _ _⟩
    · refine Ev.bind (hg j) fun k _ => ?_
      rw [hvt]; exact Ev.pure _ _
    · refine Ev.bind (hg j) fun k _ => ⟨k, Nat.le_refl _, ?_⟩
      simp [liftMem, Mem.slotTy_ok hvt hok hin, hty]
  | ref n =>
    obtain ⟨s, T, v', p, hs, hk, ht, hh, he⟩ := hx
    cases he
    obtain ⟨s', hs', hin⟩ := hm
    rw [hs] at hs'; cases hs'
    obtain ⟨o, hr, A⟩ := I.get hs
    have hd : Den w o t p s.lender := by have := A.means; rw [ht] at this; exact this
    refine ⟨fun j => Ev.pure _ _, fun j => ?_, p, hh, fun j => ?_⟩
    · exact Ev.bind (dispatchAt_ev (w := { w with tmps := j }) hr (hd.le j) (by rw [A.ms]; exact hin)) fun k _ => Ev.pure _ _
    · refine Ev.bind (getRef_ev (w := { w with tmps := j }) hr) fun k _ => ?_
      rw [hd.val]; exact Ev.pure _ _

theorem none_has {w : PW} {S : SRefs} {x : Opd} (I : Inv cfg w S) (hx : Sees w S x none) :
    (∃ a s, x = .any a ∧ w.mem.anys a = some s ∧ s.vt = none) ∧ ∀ j, Ev { w with tmps := j } (opdHasValue x) false := by
  cases x with
  | ref n => obtain ⟨_, _, _, _, _, _, _, _, he⟩ := hx; cases he
  | any a =>
    obtain ⟨h1, h2⟩ := hx
    cases hs : w.mem.anys a with
    | none => simp [Mem.alive, hs] at h1
    | some s =>
      cases hvt : s.vt with
      | some vp =>
        obtain ⟨o, h3, _⟩ := (I.wf.any a s hs).full vp hvt
        simp [Mem.view, content, hs, hvt, h3] at h2
      | none =>
        refine ⟨⟨a, s, rfl, hs, hvt⟩, fun j => Ev.bind (getAny_ev (w := { w with tmps := j }) hs) fun k _ => ?_⟩
        rw [hvt]; exact Ev.pure _ _

/-! ### C39 -/

/-- Equality of optional typed values. -/
def specEq (F : CmpFns) : Option (Nat × Nat) → Option (Nat × Nat) → Bool
  | none, none => true
  | some (t, x), some (u, y) => decide (t = u) && F.eq t x y
  | _, _ => false

/-- C39: `a == b` is true iff both are empty, or both hold values of the same type that compare equal.
Nothing is changed. -/
theorem C39_equal (C : CfgOk cfg) {w : PW} {S : SRefs} (h : Reach cfg w S) {l r : Opd} {c d : Option (Nat × Nat)}
    (hl : Sees w S l c) (hr : Sees w S r d) (ml : HasMethod w S l .equalTo) (mr : HasMethod w S r .equalTo) :
    Returns w (eqOp F l r) (specEq F c d) := by
  have I := h.inv C
  refine Ev.returns ?_
  have hj : ∀ {α} {m : PM α} {a : α}, (∀ j, Ev { w with tmps := j } m a) → Ev w m a := fun h => h w.tmps
  match c, d, hl, hr with
  | none, none, hl, hr =>
    exact Ev.bind (hj (none_has I hl).2) fun j _ => Ev.bind ((none_has I hr).2 j) fun k _ => Ev.pure _ _
  | none, some (u, y), hl, hr =>
    exact Ev.bind (hj (none_has I hl).2) fun j _ => Ev.bind ((full_of I hr mr).has j) fun k _ => Ev.pure _ _
  | some (t, x), none, hl, hr =>
    exact Ev.bind (hj (full_of I hl ml).has) fun j _ => Ev.bind ((none_has I hr).2 j) fun k _ => Ev.pure _ _
  | some (t, x), some (u, y), hl, hr =>
    have A := full_of I hl ml
    have B := full_of I hr mr
    refine Ev.bind (hj A.has) fun j _ => Ev.bind (B.has j) fun k _ => ?_
    simp only [Bool.not_true, Bool.or_self, Bool.false_eq_true, if_false]
    refine Ev.bind (A.entry k) fun i1 _ => Ev.bind (B.entry i1) fun i2 _ => ?_
    by_cases he : t = u
    · subst he
      obtain ⟨p, hp, ep⟩ := A.addr
      obtain ⟨q, hq, eq⟩ := B.addr
      simp only [if_true, specEq, decide_true, Bool.true_and]
      exact Ev.bind (ep i2) fun i3 _ => Ev.bind (eq i3) fun i4 _ =>
        Ev.bind (readAddr_ev (cfg := cfg) (w := { w with tmps := i4 }) I.wf (hp.tmps i4)) fun i5 _ =>
        Ev.bind (readAddr_ev (cfg := cfg) (w := { w with tmps := i5 }) I.wf (hq.tmps i5)) fun i6 _ => Ev.pure _ _
    · simp only [if_neg he, specEq, decide_eq_false he, Bool.false_and]
      exact Ev.pure _ _

theorem Returns.unique {α} {w : PW} {m : PM α} {a b : α} (h : Returns w m a) (h' : Returns w m b) : a = b := by
  obtain ⟨_, h, _⟩ := h
  obtain ⟨_, h', _⟩ := h'
  rw [h] at h'; cases h'; rfl

/-- C39: reflexive, symmetric and transitive on the any objects and references of a state, whenever the
`==` of every contained type is. -/
theorem C39_equivalence (C : CfgOk cfg) {w : PW} {S : SRefs} (h : Reach cfg w S)
    (hrefl : ∀ t x, F.eq t x x = true) (hsymm : ∀ t x y, F.eq t x y = true → F.eq t y x = true)
    (htrans : ∀ t x y z, F.eq t x y = true → F.eq t y z = true → F.eq t x z = true) :
    let P := fun x => HasMethod w S x .equalTo ∧ ∃ c, Sees w S x c
    let E := fun x y => Returns w (eqOp F x y) true
    (∀ x, P x → E x x) ∧ (∀ x y, P x → P y → E x y → E y x) ∧ ∀ x y z, P x → P y → P z → E x y → E y z → E x z := by
  intro P E
  have key : ∀ {x y c d}, HasMethod w S x .equalTo → HasMethod w S y .equalTo → Sees w S x c → Sees w S y d →
      (E x y ↔ specEq F c d = true) := by
    intro x y c d mx my hx hy
    have := C39_equal (F := F) C h hx hy mx my
    constructor
    · intro he; exact this.unique he
    · intro he; rw [he] at this; exact this
  refine ⟨?_, ?_, ?_⟩
  · rintro x ⟨mx, c, hx⟩
    refine (key mx mx hx hx).2 ?_
    cases c with
    | none => rfl
    | some p => simp [specEq, hrefl]
  · rintro x y ⟨mx, c, hx⟩ ⟨my, d, hy⟩ he
    have he := (key mx my hx hy).1 he
    refine (key my mx hy hx).2 ?_
    match c, d, he with
    | none, none, _ => rfl
    | some (t, a), some (u, b), he =>
      simp only [specEq, Bool.and_eq_true, decide_eq_true_eq] at he ⊢
      obtain ⟨rfl, he⟩ := he
      exact ⟨rfl, hsymm _ _ _ he⟩
  · rintro x y z ⟨mx, c, hx⟩ ⟨my, d, hy⟩ ⟨mz, e, hz⟩ he he'
    have he := (key mx my hx hy).1 he
    have he' := (key my mz hy hz).1 he'
    refine (key mx mz hx hz).2 ?_
    match c, d, e, he, he' with
    | none, none, none, _, _ => rfl
    | some (t, a), some (u, b), some (v, g), he, he' =>
      simp only [specEq, Bool.and_eq_true, decide_eq_true_eq] at he he' ⊢
      obtain ⟨rfl, he⟩ := he
      obtain ⟨rfl, he'⟩ := he'
      exact ⟨rfl, htrans _ _ _ _ he he'⟩

/-! ### C40 -/

/-- Three-way comparison of optional typed values. -/
def specCmp (F : CmpFns) : Option (Nat × Nat) → Option (Nat × Nat) → PO
  | none, none => .equivalent
  | some (t, x), some (u, y) => if t = u then F.cmp t x y else .unordered
  | _, _ => .unordered

/-- C40 holds unless the left operand has a value and the right one is empty. -/
theorem C40_spaceship_partial (C : CfgOk cfg) {w : PW} {S : SRefs} (h : Reach cfg w S) {l r : Opd} {c d : Option (Nat × Nat)}
    (hl : Sees w S l c) (hr : Sees w S r d) (ml : HasMethod w S l .spaceship) (mr : HasMethod w S r .spaceship)
    (hcd : c.isSome → d.isSome) :
    Returns w (spaceOp F l r) (specCmp F c d) ∧
    Returns w (spaceEqOp F l r) (specCmp F c d == .equivalent) := by
  have I := h.inv C
  have hj : ∀ {α} {m : PM α} {a : α}, (∀ j, Ev { w with tmps := j } m a) → Ev w m a := fun h => h w.tmps
  have main : Ev w (spaceOp F l r) (specCmp F c d) := by
    match c, d, hl, hr, hcd with
    | none, none, hl, hr, _ =>
      exact Ev.bind (hj (none_has I hl).2) fun j _ => Ev.bind ((none_has I hr).2 j) fun k _ => Ev.pure _ _
    | none, some (u, y), hl, hr, _ =>
      exact Ev.bind (hj (none_has I hl).2) fun j _ => Ev.bind ((full_of I hr mr).has j) fun k _ => Ev.pure _ _
    | some (t, x), none, _, _, hcd => exact absurd (hcd rfl) (by simp)
    | some (t, x), some (u, y), hl, hr, _ =>
      have A := full_of I hl ml
      have B := full_of I hr mr
      refine Ev.bind (hj A.has) fun j _ => ?_
      simp only [Bool.not_true, Bool.false_eq_true, if_false]
      refine Ev.bind (A.entry j) fun i1 _ => Ev.bind (B.entry i1) fun i2 _ => ?_
      by_cases he : t = u
      · subst he
        obtain ⟨p, hp, ep⟩ := A.addr
        obtain ⟨q, hq, eq⟩ := B.addr
        simp only [if_true, specCmp, ne_eq, not_true_eq_false, if_false]
        exact Ev.bind (ep i2) fun i3 _ => Ev.bind (eq i3) fun i4 _ =>
          Ev.bind (readAddr_ev (cfg := cfg) (w := { w with tmps := i4 }) I.wf (hp.tmps i4)) fun i5 _ =>
          Ev.bind (readAddr_ev (cfg := cfg) (w := { w with tmps := i5 }) I.wf (hq.tmps i5)) fun i6 _ => Ev.pure _ _
      · simp only [if_neg he, specCmp, ne_eq, he, not_false_eq_true, if_true]
        exact Ev.pure _ _
  have he : Ev w (spaceEqOp F l r) (specCmp F c d == .equivalent) := Ev.bind main fun j _ => Ev.pure _ _
  exact ⟨main.returns, he.returns⟩

/-- C40 fails otherwise, always: comparing an any that has a value, or a reference, with an empty any
dereferences a null vtable pointer. -/
theorem C40_empty_right_fails (C : CfgOk cfg) {w : PW} {S : SRefs} (h : Reach cfg w S) {l r : Opd} {p : Nat × Nat}
    (hl : Sees w S l (some p)) (hr : Sees w S r none) (ml : HasMethod w S l .spaceship) :
    spaceOp F l r w = .ub ∧ spaceEqOp F l r w = .ub := by
  have I := h.inv C
  obtain ⟨t, x⟩ := p
  have A := full_of I hl ml
  obtain ⟨⟨a, s, rfl, hs, hvt⟩, _⟩ := none_has I hr
  have main : spaceOp F l (.any a) w = .ub := by
    obtain ⟨j, _, hj⟩ := A.has w.tmps
    obtain ⟨k, _, hk⟩ := A.entry j
    have hj : opdHasValue l w = .ok true { w with tmps := j } := hj
    have hk : entryTy l .spaceship { w with tmps := j } = .ok t { w with tmps := k } := hk
    unfold spaceOp
    rw [pbind_apply, hj]
    simp only [Bool.not_true, Bool.false_eq_true, if_false, pbind_apply, hk]
    simp [entryTy, liftMem, Mem.getAny, hs, Mem.slotTy, hvt, Mem.ub]
  exact ⟨main, by unfold spaceEqOp; rw [pbind_apply, main]⟩

/-- C40, exactly: the comparison gives what the property says if and only if it is not one of a value with an empty any. -/
theorem C40_exact (C : CfgOk cfg) {w : PW} {S : SRefs} (h : Reach cfg w S) {l r : Opd} {c d : Option (Nat × Nat)}
    (hl : Sees w S l c) (hr : Sees w S r d) (ml : HasMethod w S l .spaceship) (mr : HasMethod w S r .spaceship) :
    (Returns w (spaceOp F l r) (specCmp F c d) ∧ Returns w (spaceEqOp F l r) (specCmp F c d == .equivalent)) ↔
      ¬(c ≠ none ∧ d = none) := by
  constructor
  · rintro ⟨⟨w', h1, _⟩, _⟩ ⟨hc, rfl⟩
    match c, hc with
    | some p, _ =>
      rw [(C40_empty_right_fails C h hl hr ml).1] at h1
      cases h1
  · intro hn
    refine C40_spaceship_partial C h hl hr ml mr fun hc => ?_
    match d with
    | some _ => rfl
    | none => exact absurd ⟨(by rintro rfl; cases hc), rfl⟩ hn

/-! ### C41 -/

/-- Hash of an optional typed value. -/
def specHash (F : CmpFns) : Option (Nat × Nat) → Nat
  | none => 0
  | some (t, x) => F.hash t x

/-- C41: the hash of an empty any is 0; of a non-empty any, or of a reference of any class, it is the hash
of the value. -/
theorem C41_hash (C : CfgOk cfg) {w : PW} {S : SRefs} (h : Reach cfg w S) {x : Opd} {c : Option (Nat × Nat)}
    (hx : Sees w S x c) (mx : HasMethod w S x .hash) : Returns w (hashOp F x) (specHash F c) := by
  have I := h.inv C
  refine Ev.returns ?_
  cases c with
  | none =>
    obtain ⟨⟨a, s, rfl, hs, hvt⟩, hn⟩ := none_has I hx
    exact Ev.bind (hn w.tmps) fun j _ => Ev.pure _ _
  | some p =>
    obtain ⟨t, v⟩ := p
    cases x with
    | any a =>
      have A := full_of I hx mx
      obtain ⟨s, vp, hs, hvt, hty, hok, hin, hh⟩ := any_full I.wf hx.2 mx
      refine Ev.bind (A.has w.tmps) fun j _ => ?_
      rw [if_pos rfl]
      refine Ev.bind (getAny_ev (w := { w with tmps := j }) hs) fun k _ => Ev.bind (a := t) ⟨k, Nat.le_refl _, ?_⟩ fun i _ =>
        Ev.bind (readAddr_ev (cfg := cfg) (w := { w with tmps := i }) I.wf (hh.tmps i)) fun i' _ => Ev.pure _ _
      simp [liftMem, Mem.slotTy_ok hvt hok hin, hty]
    | ref n =>
      obtain ⟨s, T, v', p, hs, hk, ht, hh, he⟩ := hx
      cases he
      obtain ⟨s', hs', hin⟩ := mx
      rw [hs] at hs'; cases hs'
      obtain ⟨o, hr, A⟩ := I.get hs
      have hd : Den w o t p s.lender := by have := A.means; rw [ht] at this; exact this
      exact Ev.bind (dispatch_ev I.fresh hr hd (by rw [A.ms]; exact hin)) fun j _ => Ev.bind (Ev.pure _ _) fun k _ =>
        Ev.bind (readAddr_ev (cfg := cfg) (w := { w with tmps := k }) I.wf (hh.tmps k)) fun i _ => Ev.pure _ _

/-- C41: for types whose hash respects `==`, equal operands have equal hashes. -/
theorem C41_equal_hash (C : CfgOk cfg) {w : PW} {S : SRefs} (h : Reach cfg w S) {l r : Opd} {c d : Option (Nat × Nat)}
    (hF : ∀ t x y, F.eq t x y = true → F.hash t x = F.hash t y)
    (hl : Sees w S l c) (hr : Sees w S r d) (ml : HasMethod w S l .equalTo) (mr : HasMethod w S r .equalTo)
    (nl : HasMethod w S l .hash) (nr : HasMethod w S r .hash) (he : Returns w (eqOp F l r) true) :
    ∃ k, Returns w (hashOp F l) k ∧ Returns w (hashOp F r) k := by
  have he : specEq F c d = true := (C39_equal C h hl hr ml mr).unique he
  refine ⟨specHash F c, C41_hash C h hl nl, ?_⟩
  have hk : specHash F c = specHash F d := by
    match c, d, he with
    | none, none, _ => rfl
    | some (t, a), some (u, b), he =>
      simp only [specEq, Bool.and_eq_true, decide_eq_true_eq] at he
      obtain ⟨rfl, he⟩ := he
      exact hF _ _ _ he
  rw [hk]; exact C41_hash C h hr nr

/-- C41: the hash of an any with a value and the hash of every reference to that value are the same. -/
theorem C41_through_reference (C : CfgOk cfg) {w : PW} {S : SRefs} (h : Reach cfg w S) {a n : Nat} {s : SRef}
    (hs : S n = some s) (hk : s.kind.isPtr = false) (ht : anyTarget w.mem a = s.target) (hv : (Mem.view w.mem a).isSome)
    (ma : HasMethod w S (.any a) .hash) (mn : .hash ∈ s.ms) :
    ∃ x, Returns w (hashOp F (.any a)) x ∧ Returns w (hashOp F (.ref n)) x := by
  obtain ⟨⟨t, v⟩, hv⟩ := Option.isSome_iff_exists.1 hv
  have halive : Mem.alive w.mem a := by
    obtain ⟨ms, hms, _⟩ := ma
    cases hst : w.mem.anys a with
    | none => simp [Mem.methodsOf, hst] at hms
    | some st => simp [Mem.alive, hst]
  obtain ⟨st, vp, hst, hvt, hty, hok, hin, hh⟩ := any_full (h.inv C).wf hv ma
  refine ⟨specHash F (some (t, v)), C41_hash C h ⟨halive, hv⟩ ma, C41_hash C h (x := .ref n) ⟨s, t, v, .mem st.vp, hs, hk, ?_, hh, rfl⟩ ⟨s, hs, mn⟩⟩
  rw [← ht]
  obtain ⟨o, ho, hov⟩ : ∃ o, content w.mem a = some o ∧ (o.ty, o.val) = (t, v) := by simpa [Mem.view] using hv
  have : o.ty = t := congrArg Prod.fst hov
  simp [anyTarget, ho, addrOf, hst, this]

/-! ### examples -/

/-- The methods of the example class. -/
def cmpMs : List Method := [.destroy, .copy 0, .typeInfo, .equalTo, .spaceship, .hash]

/-- Five any objects: types 2, 2, 1 with values, then two empty ones, and references of two classes to the
first. -/
def cmpProg : List Op :=
  [.mem (.valueCtor 0 cmpMs 1 2 (.lit 7) false), .mem (.valueCtor 1 cmpMs 1 2 (.lit 7) false),
   .mem (.valueCtor 2 cmpMs 1 1 (.lit 7) false), .mem (.allocCtor 3 cmpMs 1), .mem (.allocCtor 4 cmpMs 1),
   .ofAny 0 .polyPtr cmpMs (some 0), .deref 1 0, .conv 2 .cref [.hash, .equalTo, .spaceship] 1]

def exF : CmpFns := ⟨fun _ x y => x == y, fun _ x y => if x < y then .less else if x = y then .equivalent else .greater, fun t x => 31 * t + x⟩

def okVal {α} [DecidableEq α] (r : PRes α) (a : α) : Bool :=
  match r with
  | .ok b _ => decide (b = a)
  | _ => false

/-- All cases of the theorems occur in one reachable state. -/
example : ∃ w S, Reach exCfg w S ∧
    (okVal (eqOp exF (.any 0) (.any 1) w) true && okVal (eqOp exF (.any 0) (.any 2) w) false &&
     okVal (eqOp exF (.any 0) (.any 3) w) false && okVal (eqOp exF (.any 3) (.any 4) w) true &&
     okVal (eqOp exF (.ref 1) (.ref 2) w) true && okVal (eqOp exF (.any 1) (.ref 2) w) true &&
     okVal (spaceOp exF (.any 3) (.any 0) w) .unordered && okVal (spaceOp exF (.any 0) (.any 1) w) .equivalent &&
     okVal (hashOp exF (.any 0) w) 69 && okVal (hashOp exF (.ref 2) w) 69 && okVal (hashOp exF (.any 4) w) 0) = true :=
  run_witness 6 (ops := cmpProg) (by decide +kernel)

/-- The hypotheses on the operands hold there. -/
example : ∃ w S, Reach exCfg w S ∧
    (decide (Mem.view w.mem 0 = some (2, 7)) && decide (Mem.view w.mem 3 = none) && decide (Mem.alive w.mem 3) &&
     decide (Mem.methodsOf w.mem 3 = some cmpMs) &&
     (S 2).any (fun s => decide (s.kind = .cref) && decide (s.target = anyTarget w.mem 0) && s.ms.contains .hash)) = true :=
  run_witness 6 (ops := cmpProg) (by decide +kernel)

end AnyAny.Poly
