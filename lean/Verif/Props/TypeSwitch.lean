import Verif.Model.TypeSwitch
import Verif.Props.Compare
/-
C48: `type_switch`.
-/
namespace AnyAny.Poly
open AnyAny.Mem (Method Cfg CfgOk Obj content addrOf snap WF exCfg)

variable {cfg : Cfg}

/-- The operand is an any holding, or a `poly_ref`/`const_poly_ref` to, an object of type `T` at `a`. -/
def Target (w : PW) (S : SRefs) (x : Opd) (T : Nat) (a : Addr) : Prop :=
  match x with
  | .any c => Mem.alive w.mem c ∧ anyTarget w.mem c = some (T, a)
  | .ref n => ∃ s, S n = some s ∧ (s.kind = .polyRef ∨ s.kind = .constPolyRef) ∧ s.target = some (T, a)

/-- Equal except for temporary objects of the library. -/
def Same (w w' : PW) : Prop := w'.mem = w.mem ∧ w'.vars = w.vars ∧ ∀ n, w'.refs (.var n) = w.refs (.var n)

/-- Running `m` is exactly one call of the callback `g`, in the same state; its result, effects and
exceptions are those of the call. -/
def IsCall (w : PW) (m : PM (Option Nat)) (g : PM Nat) : Prop :=
  ∃ w0, Same w w0 ∧
    match g w0 with
    | .ok r w1 => ∃ w2, m w = .ok (some r) w2 ∧ Same w1 w2
    | .exn w1 => ∃ w2, m w = .exn w2 ∧ Same w1 w2
    | .ub => m w = .ub
    | .term => m w = .term

theorem Same.refl (w : PW) : Same w w := ⟨rfl, rfl, fun _ => rfl⟩

theorem IsCall.self (w : PW) (g : PM Nat) : IsCall w (do let r ← g; pure (some r)) g := by
  refine ⟨w, Same.refl _, ?_⟩
  cases hg : g w with
  | ok r w1 => exact ⟨w1, by simp [hg], Same.refl _⟩
  | exn w1 => exact ⟨w1, by simp [hg], Same.refl _⟩
  | ub => simp [hg]
  | term => simp [hg]

/-- A callback that returns a `Result` (not `nullopt` or an optional). -/
def valued (f : Addr → PM Nat) : Addr → PM (Option Nat) := fun a => do
  let r ← f a
  pure (some r)

theorem IsCall.evBind {α} {w : PW} {m : PM α} {x : α} {f : α → PM (Option Nat)} {g : PM Nat} (h : Ev w m x)
    (hf : ∀ k, w.tmps ≤ k → IsCall { w with tmps := k } (f x) g) : IsCall w (m >>= f) g := by
  obtain ⟨k, hk, h⟩ := h
  obtain ⟨w0, hs, hc⟩ := hf k hk
  refine ⟨w0, hs, ?_⟩
  have : (m >>= f) w = f x { w with tmps := k } := by rw [pbind_apply, h]
  rw [this]
  exact hc

theorem IsCall.bindPure {w : PW} {m : PM (Option Nat)} {f : Option Nat → PM (Option Nat)} {g : PM Nat} (h : IsCall w m g)
    (hf : ∀ r, f (some r) = pure (some r)) : IsCall w (m >>= f) g := by
  obtain ⟨w0, hs, hc⟩ := h
  refine ⟨w0, hs, ?_⟩
  rw [pbind_apply]
  cases hg : g w0 with
  | ok r w1 => rw [hg] at hc; obtain ⟨w2, h1, h2⟩ := hc; exact ⟨w2, by rw [h1]; simp [hf], h2⟩
  | exn w1 => rw [hg] at hc; obtain ⟨w2, h1, h2⟩ := hc; exact ⟨w2, by rw [h1], h2⟩
  | ub => rw [hg] at hc; simp only [hc]
  | term => rw [hg] at hc; simp only [hc]

theorem IsCall.withTemp {w : PW} {o : RefObj} {f : RId → PM (Option Nat)} {g : PM Nat}
    (h : IsCall (push w o) (f (.tmp w.tmps)) g) : IsCall w (withTemp o f) g := by
  obtain ⟨w0, hs, hc⟩ := h
  refine ⟨w0, ⟨hs.1, hs.2.1, fun n => (hs.2.2 n).trans (push_var w o n)⟩, ?_⟩
  have h0 : ∀ x, f (.tmp w.tmps) (push w o) = x →
      f (.tmp w.tmps) { w with refs := updR w.refs (.tmp w.tmps) (some o), tmps := w.tmps + 1 } = x := fun x h => h
  have hS : ∀ {w1 w2 : PW}, Same w1 w2 → Same w1 { w2 with refs := updR w2.refs (.tmp w.tmps) none } := by
    intro w1 w2 h
    refine ⟨h.1, h.2.1, fun n => ?_⟩
    exact (updR_other w2.refs (k := .tmp w.tmps) (x := .var n) none (by simp)).trans (h.2.2 n)
  cases hg : g w0 with
  | ok r w1 => rw [hg] at hc; obtain ⟨w2, h1, h2⟩ := hc; exact ⟨_, by simp only [Poly.withTemp, h0 _ h1], hS h2⟩
  | exn w1 => rw [hg] at hc; obtain ⟨w2, h1, h2⟩ := hc; exact ⟨_, by simp only [Poly.withTemp, h0 _ h1], hS h2⟩
  | ub => rw [hg] at hc; simp only [Poly.withTemp, h0 _ hc]
  | term => rw [hg] at hc; simp only [Poly.withTemp, h0 _ hc]

/-- The class of the operand has `type_descriptor()`. -/
def HasDescr (w : PW) (S : SRefs) (x : Opd) : Prop :=
  match x with
  | .any a => ∃ ms, Mem.methodsOf w.mem a = some ms ∧ Mem.HasDesc ms
  | .ref n => ∃ s, S n = some s ∧ Mem.HasDesc s.ms

/-- `&value` is a pointer to the object. -/
theorem switchPtr_gives {w : PW} {S : SRefs} {x : Opd} {T : Nat} {a : Addr} (I : Inv cfg w S) (hx : Target w S x T a)
    (hm : HasDescr w S x) (cst : Bool) :
    ∃ k ms l, Gives w (switchPtr cst x) k ms T a l ∧ k.isPtr = true ∧ Mem.HasDesc ms := by
  cases x with
  | any c =>
    obtain ⟨h1, h2⟩ := hx
    obtain ⟨s, hs, hc, hms⟩ := Mem.snap_some (w := w.mem) h1
    obtain ⟨ms, hm1, hm2⟩ := hm
    cases hst : w.mem.anys c with
    | none => simp [Mem.methodsOf, hst] at hm1
    | some st =>
      have hstms : st.ms = ms := by simpa [Mem.methodsOf, hst] using hm1
      obtain ⟨st', D⟩ := (Mem.Rep.of_wf I.wf).det hs
      have hst' : st' = st := by have := D.get; rw [hst] at this; exact (Option.some.inj this).symm
      subst hst'
      cases ho : s.obj with
      | none =>
        have : content w.mem c = none := by rw [hc, ho]
        simp [anyTarget, this] at h2
      | some ob =>
        obtain ⟨p, g1, g2, g3⟩ := ptrOfAny_gives (k := if cst then .constPolyPtr else .polyPtr) (ms := st'.ms) I.wf hs ho
          (by split <;> rfl) (by rw [D.ms]; exact List.infix_refl _)
        simp only [anyTarget, g1, g2, Option.bind_some, Option.map_some, Option.some.injEq, Prod.mk.injEq] at h2
        obtain ⟨rfl, rfl⟩ := h2
        refine ⟨if cst then .constPolyPtr else .polyPtr, st'.ms, none, Gives.bindEv (getAny_ev hst) fun j _ => ?_, by split <;> rfl, by rw [hstms]; exact hm2⟩
        obtain ⟨p', g1', g2', g3'⟩ := ptrOfAny_gives (w := { w with tmps := j }) (k := if cst then .constPolyPtr else .polyPtr) (ms := st'.ms)
          I.wf hs ho (by split <;> rfl) (by rw [D.ms]; exact List.infix_refl _)
        have : p' = p := by
          have g1' : addrOf w.mem c = some p' := g1'
          rw [g1] at g1'; exact (Option.some.inj g1').symm
        subst this
        exact g3'
  | ref n =>
    obtain ⟨s, hs, hk, ht⟩ := hx
    obtain ⟨s', hs', hin⟩ := hm
    rw [hs] at hs'; cases hs'
    obtain ⟨o, hr, A⟩ := I.get hs
    have hd : Den w o T a s.lender := by have := A.means; rw [ht] at this; exact this
    have hks : o.kind.isStateful = false := by rw [A.kind]; rcases hk with h | h <;> rw [h] <;> rfl
    exact ⟨_, o.ms, _, addrOfRef_gives hr hd hks, by split <;> rfl, by rw [A.ms]; exact hin⟩

section chain
variable {w : PW} {p : RId} {o : RefObj} {T : Nat} {a : Addr} {l : Option Nat}

theorem caseFn_skip (hw : Fresh w) (hr : w.refs p = some o) (hd : Den w o T a l) (hti : Mem.HasDesc o.ms) {f : Addr → PM (Option Nat)}
    {t : Nat} (ht : T ≠ t) : Ev w (caseFn p f t none) none := by
  refine Ev.bind (anyCastPtr_ev hw hr hd hti) fun k _ => ?_
  rw [show castOf T a t = none from if_neg ht]
  exact Ev.pure _ _

theorem caseFn_hit (hw : Fresh w) (hr : w.refs p = some o) (hd : Den w o T a l) (hti : Mem.HasDesc o.ms) {f : Addr → PM Nat} :
    IsCall w (caseFn p (valued f) T none) (f a) := by
  refine IsCall.evBind (anyCastPtr_ev hw hr hd hti) fun k _ => ?_
  rw [show castOf T a T = some a from if_pos rfl]
  exact IsCall.self _ _

theorem casesFn_some (f : Addr → PM (Option Nat)) (ts : List Nat) (r : Nat) : casesFn p f ts (some r) = pure (some r) := by
  induction ts with
  | nil => rfl
  | cons t ts ih =>
    funext w
    show (caseFn p f t (some r) >>= fun res => casesFn p f ts res) w = _
    simp only [caseFn, pbind_apply, ppure_apply, ih]

theorem casesFn_skip (hw : Fresh w) (hr : w.refs p = some o) (hd : Den w o T a l) (hti : Mem.HasDesc o.ms) {f : Addr → PM (Option Nat)}
    {ts : List Nat} (ht : T ∉ ts) : Ev w (casesFn p f ts none) none := by
  induction ts generalizing w with
  | nil => exact Ev.pure _ _
  | cons t ts ih =>
    simp only [List.mem_cons, not_or] at ht
    exact Ev.bind (caseFn_skip hw hr hd hti ht.1) fun k hk => ih (hw.le hk) hr (hd.le k) ht.2

theorem casesFn_hit (hw : Fresh w) (hr : w.refs p = some o) (hd : Den w o T a l) (hti : Mem.HasDesc o.ms) {f : Addr → PM Nat}
    {ts : List Nat} (ht : T ∈ ts) : IsCall w (casesFn p (valued f) ts none) (f a) := by
  induction ts generalizing w with
  | nil => cases ht
  | cons t ts ih =>
    by_cases he : T = t
    · subst he
      exact (caseFn_hit hw hr hd hti).bindPure fun r => casesFn_some _ _ _
    · exact IsCall.evBind (caseFn_skip hw hr hd hti he) fun k hk => ih (hw.le hk) hr (hd.le k) (by
        rcases List.mem_cons.1 ht with h | h
        · exact absurd h he
        · exact h)

theorem switchCases_some (cs : List (List Nat × (Addr → PM (Option Nat)))) (r : Nat) : switchCases p cs (some r) = pure (some r) := by
  induction cs with
  | nil => rfl
  | cons c cs ih =>
    funext w
    show (casesFn p c.2 c.1 (some r) >>= fun res => switchCases p cs res) w = _
    simp only [casesFn_some, pbind_apply, ppure_apply, ih]

theorem switchCases_skip (hw : Fresh w) (hr : w.refs p = some o) (hd : Den w o T a l) (hti : Mem.HasDesc o.ms)
    {cs : List (List Nat × (Addr → PM (Option Nat)))} (ht : ∀ c ∈ cs, T ∉ c.1) : Ev w (switchCases p cs none) none := by
  induction cs generalizing w with
  | nil => exact Ev.pure _ _
  | cons c cs ih =>
    exact Ev.bind (casesFn_skip hw hr hd hti (ht c (by simp))) fun k hk =>
      ih (hw.le hk) hr (hd.le k) (fun c' h => ht c' (by simp [h]))

theorem switchCases_hit (hw : Fresh w) (hr : w.refs p = some o) (hd : Den w o T a l) (hti : Mem.HasDesc o.ms)
    {pre post : List (List Nat × (Addr → PM (Option Nat)))} {ts : List Nat} {f : Addr → PM Nat} (hp : ∀ c ∈ pre, T ∉ c.1) (ht : T ∈ ts) :
    IsCall w (switchCases p (pre ++ (ts, valued f) :: post) none) (f a) := by
  induction pre generalizing w with
  | nil => exact (casesFn_hit hw hr hd hti ht).bindPure fun r => switchCases_some _ _
  | cons c pre ih =>
    exact IsCall.evBind (casesFn_skip hw hr hd hti (hp c (by simp))) fun k hk =>
      ih (hw.le hk) hr (hd.le k) (fun c' h => hp c' (by simp [h]))

/-- A case whose function returns `nullopt` is as if it were not there. -/
theorem casesFn_nullopt (hw : Fresh w) (hr : w.refs p = some o) (hd : Den w o T a l) (hti : Mem.HasDesc o.ms) (ts : List Nat) :
    Ev w (casesFn p (fun _ => pure none) ts none) none := by
  induction ts generalizing w with
  | nil => exact Ev.pure _ _
  | cons t ts ih =>
    refine Ev.bind (a := none) ?_ fun k hk => ih (hw.le hk) hr (hd.le k)
    refine Ev.bind (anyCastPtr_ev hw hr hd hti) fun k _ => ?_
    cases castOf T a t <;> exact Ev.pure _ _

theorem switchCases_nullopt (hw : Fresh w) (hr : w.refs p = some o) (hd : Den w o T a l) (hti : Mem.HasDesc o.ms)
    {cs : List (List Nat × (Addr → PM (Option Nat)))} (h : ∀ c ∈ cs, T ∉ c.1 ∨ c.2 = fun _ => pure none) : Ev w (switchCases p cs none) none := by
  induction cs generalizing w with
  | nil => exact Ev.pure _ _
  | cons c cs ih =>
    refine Ev.bind (a := none) ?_ fun k hk => ih (hw.le hk) hr (hd.le k) (fun c' h' => h c' (by simp [h']))
    rcases h c (by simp) with h | h
    · exact casesFn_skip hw hr hd hti h
    · rw [h]; exact casesFn_nullopt hw hr hd hti _

theorem switchCases_append {cs cs' : List (List Nat × (Addr → PM (Option Nat)))} {g : PM Nat} (h : Ev w (switchCases p cs none) none)
    (h' : ∀ k, w.tmps ≤ k → IsCall { w with tmps := k } (switchCases p cs' none) g) : IsCall w (switchCases p (cs ++ cs') none) g := by
  have key : ∀ (cs : List (List Nat × (Addr → PM (Option Nat)))) res, switchCases p (cs ++ cs') res = (switchCases p cs res >>= switchCases p cs') := by
    intro cs
    induction cs with
    | nil => intro res; funext w; rfl
    | cons c cs ih =>
      intro res
      funext w
      simp only [List.cons_append, switchCases, pbind_apply, ih]
      cases casesFn p c.2 c.1 res w <;> rfl
  rw [key]
  exact IsCall.evBind h h'

theorem finishFn_some (fin : Finish) (r : Nat) : finishFn p fin (some r) = pure (some r) := by
  cases fin <;> rfl

theorem derefPtr_ev (hr : w.refs p = some o) (hp : o.kind.isPtr = true) (hv : o.val.isNone = false) :
    Ev w (derefPtr p) { o with kind := if o.kind.isConst then .constPolyRef else .polyRef } := by
  refine Ev.bind (getRef_ev hr) fun j hj => ?_
  by_cases hc : o.kind.isConst = true
  · simp only [hc, if_true]; exact Ev.pure _ _
  · simp only [hc, hv, if_false, Bool.false_eq_true]; exact Ev.pure _ _

end chain

/-- C48: the first case that lists the dynamic type of `x` is called exactly once, with the address of the
object, and nothing else is called, whatever follows. Missing: a function in that case that returns `nullopt` or an empty optional. -/
theorem C48_first_match_partial (C : CfgOk cfg) {w : PW} {S : SRefs} (h : Reach cfg w S) {x : Opd} {T : Nat} {a : Addr} (hx : Target w S x T a)
    (hm : HasDescr w S x) {pre post : List (List Nat × (Addr → PM (Option Nat)))} {ts : List Nat} {f : Addr → PM Nat}
    (hpre : ∀ c ∈ pre, T ∉ c.1) (hts : T ∈ ts) (cst : Bool) (fin : Finish) :
    IsCall w (typeSwitch cst x (pre ++ (ts, valued f) :: post) fin) (f a) := by
  have I := h.inv C
  obtain ⟨k, ms, l, ⟨o, ho, hd, hk, hms⟩, hkp, hti⟩ := switchPtr_gives I hx hm cst
  refine IsCall.evBind ho fun j hj => IsCall.withTemp ?_
  have hw := I.fresh.le hj
  rw [hd.val]
  exact (switchCases_hit (hw.push o) (push_same _ _) ((hd.le j).push hw) (by rw [hms]; exact hti) hpre hts).bindPure
    fun r => finishFn_some _ _

/-- C48: if no case lists the type, no case is called; `default_(v)` gives `v`, `no_default()` gives nullopt. -/
theorem C48_no_match (C : CfgOk cfg) {w : PW} {S : SRefs} (h : Reach cfg w S) {x : Opd} {T : Nat} {a : Addr} (hx : Target w S x T a)
    (hm : HasDescr w S x) {cs : List (List Nat × (Addr → PM (Option Nat)))} (hcs : ∀ c ∈ cs, T ∉ c.1) (cst : Bool) (v : Nat) :
    Returns w (typeSwitch cst x cs (.value v)) (some v) ∧ Returns w (typeSwitch cst x cs .noDefault) none := by
  have I := h.inv C
  obtain ⟨k, ms, l, ⟨o, ho, hd, hk, hms⟩, hkp, hti⟩ := switchPtr_gives I hx hm cst
  constructor
  · refine (Ev.bind ho fun j hj => Ev.withTemp (I.fresh.le hj) ?_ : Ev w (typeSwitch cst x cs (.value v)) (some v)).returns
    have hw := I.fresh.le hj
    rw [hd.val]
    exact Ev.bind (switchCases_skip (hw.push o) (push_same _ _) ((hd.le j).push hw) (by rw [hms]; exact hti) hcs) fun i _ =>
      Ev.pure _ _
  · refine (Ev.bind ho fun j hj => Ev.withTemp (I.fresh.le hj) ?_ : Ev w (typeSwitch cst x cs .noDefault) none).returns
    have hw := I.fresh.le hj
    rw [hd.val]
    exact Ev.bind (switchCases_skip (hw.push o) (push_same _ _) ((hd.le j).push hw) (by rw [hms]; exact hti) hcs) fun i _ =>
      Ev.pure _ _

/-- C48: if no case lists the type, `default_(f)` calls `f` once with a reference to the object: calls through it
arrive at the object. -/
theorem C48_default (C : CfgOk cfg) {w : PW} {S : SRefs} (h : Reach cfg w S) {x : Opd} {T : Nat} {a : Addr} (hx : Target w S x T a)
    (hm : HasDescr w S x) {cs : List (List Nat × (Addr → PM (Option Nat)))} (hcs : ∀ c ∈ cs, T ∉ c.1) (cst : Bool)
    (d : RefObj → PM Nat) :
    ∃ r, IsCall w (typeSwitch cst x cs (.callable d)) (d r) ∧ r.val = some a ∧ (r.kind = .polyRef ∨ r.kind = .constPolyRef) ∧
      ∀ m ∈ r.ms, Returns w (withTemp r fun t => dispatch t m) (T, some a) := by
  have I := h.inv C
  obtain ⟨k, ms, l, ⟨o, ho, hd, hk, hms⟩, hkp, hti⟩ := switchPtr_gives I hx hm cst
  have hkp' : o.kind.isPtr = true := by rw [hk]; exact hkp
  have hks : o.kind.isStateful = false := isPtr_stateful hkp'
  have hrd : Den w { o with kind := if o.kind.isConst then .constPolyRef else .polyRef } T a l :=
    hd.kind (by rw [hks]; split <;> rfl)
  refine ⟨{ o with kind := if o.kind.isConst then .constPolyRef else .polyRef }, ?_, hd.val, ?_, ?_⟩
  · refine IsCall.evBind ho fun j hj => IsCall.withTemp ?_
    have hw := I.fresh.le hj
    rw [show o.val.isNone = false by rw [hd.val]; rfl]
    refine IsCall.evBind (switchCases_skip (hw.push o) (push_same _ _) ((hd.le j).push hw) (by rw [hms]; exact hti) hcs) fun i _ => ?_
    refine IsCall.evBind (derefPtr_ev (push_same _ _) hkp' (by rw [hd.val]; rfl)) fun i2 _ => ?_
    exact IsCall.self _ _
  · split
    · exact Or.inr rfl
    · exact Or.inl rfl
  · intro m hm'
    refine (Ev.withTemp I.fresh ?_).returns
    exact dispatch_ev (I.fresh.push _) (push_same _ _) (hrd.push I.fresh) hm'

/-- The full C48 fails: a case that matches but whose function returns `nullopt` does not end the switch. The next case that lists the type is called
too. -/
theorem C48_nullopt_fails (C : CfgOk cfg) {w : PW} {S : SRefs} (h : Reach cfg w S) {x : Opd} {T : Nat} {a : Addr} (hx : Target w S x T a)
    (hm : HasDescr w S x) {pre mid post : List (List Nat × (Addr → PM (Option Nat)))} {ts ts' : List Nat} {f : Addr → PM Nat}
    (hpre : ∀ c ∈ pre, T ∉ c.1) (_ : T ∈ ts) (hmid : ∀ c ∈ mid, T ∉ c.1) (hts' : T ∈ ts') (cst : Bool) (fin : Finish) :
    IsCall w (typeSwitch cst x (pre ++ (ts, fun _ => pure none) :: mid ++ (ts', valued f) :: post) fin) (f a) := by
  have I := h.inv C
  obtain ⟨k, ms, l, ⟨o, ho, hd, hk, hms⟩, hkp, hti⟩ := switchPtr_gives I hx hm cst
  refine IsCall.evBind ho fun j hj => IsCall.withTemp ?_
  have hw := I.fresh.le hj
  rw [hd.val]
  refine (switchCases_append (switchCases_nullopt (hw.push o) (push_same _ _) ((hd.le j).push hw) (by rw [hms]; exact hti) ?_) fun i hi => ?_).bindPure
    fun r => finishFn_some _ _
  · intro c hc
    rcases List.mem_append.1 hc with hc | hc
    · exact .inl (hpre c hc)
    · rcases List.mem_cons.1 hc with rfl | hc
      · exact .inr rfl
      · exact .inl (hmid c hc)
  · exact switchCases_hit (pre := []) ((hw.push o).le hi) (push_same _ _) (((hd.le j).push hw).le i) (by rw [hms]; exact hti)
      (fun c hc => by cases hc) hts'

/-- ... and the default is used although a case matched. -/
theorem C48_nullopt_default_fails (C : CfgOk cfg) {w : PW} {S : SRefs} (h : Reach cfg w S) {x : Opd} {T : Nat} {a : Addr} (hx : Target w S x T a)
    (hm : HasDescr w S x) {pre post : List (List Nat × (Addr → PM (Option Nat)))} {ts : List Nat}
    (hpre : ∀ c ∈ pre, T ∉ c.1) (_ : T ∈ ts) (hpost : ∀ c ∈ post, T ∉ c.1) (cst : Bool) (v : Nat) :
    Returns w (typeSwitch cst x (pre ++ (ts, fun _ => pure none) :: post) (.value v)) (some v) := by
  have I := h.inv C
  obtain ⟨k, ms, l, ⟨o, ho, hd, hk, hms⟩, hkp, hti⟩ := switchPtr_gives I hx hm cst
  refine (Ev.bind ho fun j hj => Ev.withTemp (I.fresh.le hj) ?_ : Ev w (typeSwitch cst x _ (.value v)) (some v)).returns
  have hw := I.fresh.le hj
  rw [hd.val]
  refine Ev.bind (switchCases_nullopt (hw.push o) (push_same _ _) ((hd.le j).push hw) (by rw [hms]; exact hti) ?_) fun i _ => Ev.pure _ _
  intro c hc
  rcases List.mem_append.1 hc with hc | hc
  · exact .inl (hpre c hc)
  · rcases List.mem_cons.1 hc with rfl | hc
    · exact .inr rfl
    · exact .inl (hpost c hc)

/-! What a switch gives, whatever the functions return. -/

section pureFns
variable {w : PW} {p : RId} {o : RefObj} {T : Nat} {a : Addr} {l : Option Nat}

theorem casesFn_pure (hw : Fresh w) (hr : w.refs p = some o) (hd : Den w o T a l) (hti : Mem.HasDesc o.ms) (g : Addr → Option Nat) (ts : List Nat) :
    Ev w (casesFn p (fun x => pure (g x)) ts none) (if T ∈ ts then g a else none) := by
  induction ts generalizing w with
  | nil => exact Ev.pure _ _
  | cons t ts ih =>
    by_cases he : T = t
    · subst he
      rw [if_pos (by simp)]
      refine Ev.bind (a := g a) ?_ fun k hk => ?_
      · refine Ev.bind (anyCastPtr_ev hw hr hd hti) fun k _ => ?_
        rw [show castOf T a T = some a from if_pos rfl]
        exact Ev.pure _ _
      · cases hg : g a with
        | some r => rw [casesFn_some]; exact Ev.pure _ _
        | none =>
          have h := ih (hw.le hk) hr (hd.le k)
          rw [hg, ite_self] at h
          exact h
    · have hi : (if T ∈ t :: ts then g a else none) = if T ∈ ts then g a else none := by simp [he]
      rw [hi]
      exact Ev.bind (caseFn_skip hw hr hd hti he) fun k hk => ih (hw.le hk) hr (hd.le k)

theorem switchCases_pure (hw : Fresh w) (hr : w.refs p = some o) (hd : Den w o T a l) (hti : Mem.HasDesc o.ms) (cs : List (List Nat × (Addr → Option Nat))) :
    Ev w (switchCases p (cs.map fun c => (c.1, fun x => pure (c.2 x))) none) (cs.findSome? fun c => if T ∈ c.1 then c.2 a else none) := by
  induction cs generalizing w with
  | nil => exact Ev.pure _ _
  | cons c cs ih =>
    refine Ev.bind (casesFn_pure hw hr hd hti c.2 c.1) fun k hk => ?_
    rw [List.findSome?_cons]
    cases hc : (if T ∈ c.1 then c.2 a else none) with
    | some r => rw [switchCases_some]; exact Ev.pure _ _
    | none => exact ih (hw.le hk) hr (hd.le k)

end pureFns

/-- **C48, exactly (functions without effects, which may return `nullopt`).** The result is that of the first case that lists the type and whose function returns
something; if there is none, `default_(v)` gives `v` and `no_default()` nullopt. -/
theorem C48_exact (C : CfgOk cfg) {w : PW} {S : SRefs} (h : Reach cfg w S) {x : Opd} {T : Nat} {a : Addr} (hx : Target w S x T a)
    (hm : HasDescr w S x) (cs : List (List Nat × (Addr → Option Nat))) (cst : Bool) (v : Nat) :
    Returns w (typeSwitch cst x (cs.map fun c => (c.1, fun x => pure (c.2 x))) (.value v))
        (some ((cs.findSome? fun c => if T ∈ c.1 then c.2 a else none).getD v)) ∧
      Returns w (typeSwitch cst x (cs.map fun c => (c.1, fun x => pure (c.2 x))) .noDefault) (cs.findSome? fun c => if T ∈ c.1 then c.2 a else none) := by
  have I := h.inv C
  obtain ⟨k, ms, l, ⟨o, ho, hd, hk, hms⟩, hkp, hti⟩ := switchPtr_gives I hx hm cst
  have key : ∀ (fin : Finish) (r : Option Nat),
      (∀ w' q, Ev w' (finishFn q fin (cs.findSome? fun c => if T ∈ c.1 then c.2 a else none)) r) →
      Returns w (typeSwitch cst x (cs.map fun c => (c.1, fun x => pure (c.2 x))) fin) r := by
    intro fin r hf
    refine (Ev.bind ho fun j hj => Ev.withTemp (I.fresh.le hj) ?_ : Ev w (typeSwitch cst x _ fin) r).returns
    have hw := I.fresh.le hj
    rw [hd.val]
    exact Ev.bind (switchCases_pure (hw.push o) (push_same _ _) ((hd.le j).push hw) (by rw [hms]; exact hti) cs) fun i _ => hf _ _
  constructor
  · refine key _ _ fun w' q => ?_
    cases cs.findSome? fun c => if T ∈ c.1 then c.2 a else none <;> exact Ev.pure _ _
  · refine key _ _ fun w' q => ?_
    cases cs.findSome? fun c => if T ∈ c.1 then c.2 a else none <;> exact Ev.pure _ _

/-- An any with a value of type 2 and a `poly_ref` to it: the case for types 3 and 2 gets the address; without it
the default is used. -/
example : ∃ w S, Reach exCfg w S ∧
    (decide (anyTarget w.mem 0 = some (2, .mem (.blk 0))) && decide ((S 1).map (fun s => (s.kind, s.target)) = some (.polyRef, some (2, .mem (.blk 0)))) &&
     okVal (typeSwitch false (.any 0) [([1], fun _ => pure (some 10)), ([3, 2], fun a => pure (some (if a = .mem (.blk 0) then 20 else 0))),
       ([2], fun _ => ub)] (.callable fun _ => ub) w) (some 20) &&
     okVal (typeSwitch true (.ref 1) [([1], fun _ => pure (some 10)), ([2], valued fun a => readAddr a 2)] .noDefault w) (some 7) &&
     okVal (typeSwitch true (.ref 1) [([1], fun _ => ub), ([5, 4], fun _ => ub)] .noDefault w) none &&
     okVal (typeSwitch true (.any 0) [([1], fun _ => ub)] (.callable fun r => pure (if r.val = some (.mem (.blk 0)) then 1 else 0)) w) (some 1) &&
     okVal (typeSwitch true (.any 0) [([2], fun _ => pure none), ([2], fun _ => pure (some 3))] (.value 5) w) (some 3) &&
     okVal (typeSwitch true (.any 0) [([2], fun _ => pure none)] (.value 5) w) (some 5) &&
     okVal (typeSwitch true (.any 2) [([2], fun _ => ub)] (.value 5) w) (some 5)) = true :=
  run_witness 6 (ops := cmpProg) (by decide +kernel)

end AnyAny.Poly
