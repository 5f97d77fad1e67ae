import Verif.Model.VisitPoly
import Verif.Props.TypeSwitch
import Verif.Props.VisitInvoke
/-
C44 for polymorphic arguments: any objects, references, pointers and variables of a client program.
-/
namespace AnyAny.Poly
open AnyAny.Mem (Method Cfg CfgOk Obj content addrOf snap WF exCfg)
open AnyAny.Visit (Arg Overload Outcome resolve Valid Accepts Matches StrictTotal Sorts)

variable {cfg : Cfg}

/-- What an argument is: the dynamic type and address of the object (`none`: empty any, null pointer), and whether
it gives const access. The class has `type_info`. -/
def ArgIs (w : PW) (S : SRefs) (x : VArg) (tg : Option (Nat × Addr)) (cst : Bool) : Prop :=
  match x with
  | .any a c => Mem.alive w.mem a ∧ anyTarget w.mem a = tg ∧ (∃ ms, Mem.methodsOf w.mem a = some ms ∧ Mem.HasDesc ms) ∧ c = cst
  | .ref n => ∃ s, S n = some s ∧ s.kind.isStateful = false ∧ s.target = tg ∧ Mem.HasDesc s.ms ∧ s.kind.isConst = cst
  | .var x c => (∃ t v, w.vars x = some (t, v) ∧ tg = some (t, .var x)) ∧ c = cst

/-- The argument as `resolve` should see it. -/
def seen (tg : Option (Nat × Addr)) (cst : Bool) : Arg (Option Nat) Addr := ⟨tg.map (·.1), cst, tg.map (·.2)⟩

theorem raw_ev {w : PW} {r : RId} {o : RefObj} (h : w.refs r = some o) : Ev w (raw r) o.val :=
  Ev.bind (getRef_ev h) fun _ _ => Ev.pure _ _

theorem anyArg_ev {w : PW} {a : Nat} {tg : Option (Nat × Addr)} {cst : Bool} (W : WF cfg w.mem) (hw : Fresh w) (h1 : Mem.alive w.mem a)
    (h2 : anyTarget w.mem a = tg) (h3 : ∃ ms, Mem.methodsOf w.mem a = some ms ∧ Mem.HasDesc ms) :
    Ev w (getTypeDescriptor (.any a cst)) (tg.map (·.1)) ∧ Ev w (toAddress (.any a cst)) (tg.map (·.2), cst) := by
  obtain ⟨s, hs, hc, hms⟩ := Mem.snap_some (w := w.mem) h1
  obtain ⟨st, D⟩ := (Mem.Rep.of_wf W).det hs
  obtain ⟨ms, hm1, hm2⟩ := h3
  have hst : w.mem.anys a = some st := D.get
  have hstms : st.ms = ms := by simpa [Mem.methodsOf, hst] using hm1
  have hti : Mem.HasDesc s.ms := by rw [D.ms, hstms]; exact hm2
  have htd := Mem.typeDescriptor_spec (Mem.Rep.of_wf W) hs fun _ => hti
  have hk : (if cst then Kind.constPolyPtr else .polyPtr).isPtr = true := by split <;> rfl
  cases ho : s.obj with
  | none =>
    have htg : tg = none := by
      rw [← h2]; simp [anyTarget, hc, ho]
    subst htg
    constructor
    · exact ⟨w.tmps, Nat.le_refl _, by simp [getTypeDescriptor, liftMem, htd, ho]⟩
    · obtain ⟨o, g1, g2, _⟩ : GivesNull w (switchPtr cst (.any a)) (if cst then .constPolyPtr else .polyPtr) st.ms :=
        GivesNull.bindEv (getAny_ev hst) fun j _ => ptrOfAny_null (w := { w with tmps := j }) W hs ho hk
      refine Ev.bind g1 fun j hj => Ev.bind (a := none) (Ev.withTemp (hw.le hj) ?_) fun i _ => Ev.pure _ _
      have := raw_ev (push_same { w with tmps := j } o)
      rw [g2.val] at this
      exact this
  | some ob =>
    obtain ⟨p, g1, g2, _⟩ := ptrOfAny_gives (k := if cst then .constPolyPtr else .polyPtr) (ms := st.ms) W hs ho hk
      (by rw [D.ms]; exact List.infix_refl _)
    have htg : tg = some (ob.ty, .mem p) := by rw [← h2]; simp [anyTarget, g1, g2]
    subst htg
    constructor
    · exact ⟨w.tmps, Nat.le_refl _, by simp [getTypeDescriptor, liftMem, htd, ho]⟩
    · obtain ⟨o, g3, g4, _⟩ : Gives w (switchPtr cst (.any a)) (if cst then .constPolyPtr else .polyPtr) st.ms ob.ty (.mem p) none :=
        Gives.bindEv (getAny_ev hst) fun j _ => by
          obtain ⟨p', g1', _, g3'⟩ := ptrOfAny_gives (w := { w with tmps := j }) (k := if cst then .constPolyPtr else .polyPtr) (ms := st.ms)
            W hs ho hk (by rw [D.ms]; exact List.infix_refl _)
          have g1' : addrOf w.mem a = some p' := g1'
          rw [g1] at g1'; cases g1'
          exact g3'
      refine Ev.bind g3 fun j hj => Ev.bind (a := some (.mem p)) (Ev.withTemp (hw.le hj) ?_) fun i _ => Ev.pure _ _
      have := raw_ev (push_same { w with tmps := j } o)
      rw [g4.val] at this
      exact this

theorem refArg_ev {w : PW} {S : SRefs} {n : Nat} {s : SRef} (I : Inv cfg w S) (hs : S n = some s) (hk : s.kind.isStateful = false)
    (hti : Mem.HasDesc s.ms) : Ev w (getTypeDescriptor (.ref n)) (s.target.map (·.1)) ∧
      Ev w (toAddress (.ref n)) (s.target.map (·.2), s.kind.isConst) := by
  obtain ⟨o, hr, A⟩ := I.get hs
  have hm := A.means
  constructor
  · cases ht : s.target with
    | none => rw [ht] at hm; exact typeDescriptor_null hr hm
    | some p => rw [ht] at hm; exact typeDescriptor_ev I.fresh hr hm (by rw [A.ms]; exact hti)
  · refine Ev.bind (getRef_ev hr) fun j hj => ?_
    have hv := hm.val
    rw [A.kind]
    by_cases hp : s.kind.isPtr = true
    · simp only [hp, if_true]
      refine Ev.bind (raw_ev (w := { w with tmps := j }) hr) fun i _ => ?_
      rw [hv]; exact Ev.pure _ _
    · simp only [hp, if_false, Bool.false_eq_true]
      cases ht : s.target with
      | none => rw [ht] at hm; have := IsNull.ptr hm; rw [A.kind] at this; exact absurd this hp
      | some p =>
        rw [ht] at hm
        obtain ⟨q, g1, g2, _⟩ := addrOfRef_gives (w := { w with tmps := j }) hr (Den.le hm j) (by rw [A.kind]; exact hk)
        refine Ev.bind g1 fun i hi => Ev.bind (a := some p.2) (Ev.withTemp ((I.fresh.le hj).le hi) ?_) fun i _ => Ev.pure _ _
        have := raw_ev (push_same { w with tmps := i } q)
        rw [g2.val] at this
        exact this

theorem arg_ev {w : PW} {S : SRefs} {x : VArg} {tg : Option (Nat × Addr)} {cst : Bool} (I : Inv cfg w S) (h : ArgIs w S x tg cst) :
    Ev w (getTypeDescriptor x) (tg.map (·.1)) ∧ Ev w (toAddress x) (tg.map (·.2), cst) := by
  cases x with
  | any a c => obtain ⟨h1, h2, h3, rfl⟩ := h; exact anyArg_ev I.wf I.fresh h1 h2 h3
  | ref n => obtain ⟨s, h1, h2, rfl, h4, rfl⟩ := h; exact refArg_ev I h1 h2 h4
  | var x c =>
    obtain ⟨⟨t, v, h1, rfl⟩, rfl⟩ := h
    exact ⟨⟨w.tmps, Nat.le_refl _, by simp [getTypeDescriptor, h1]⟩, Ev.pure _ _⟩

theorem Inv.tmpsLe {w : PW} {S : SRefs} (I : Inv cfg w S) (k : Nat) : Inv cfg { w with tmps := k } S :=
  I.other rfl I.wf

theorem visitArgs_ev {w : PW} {S : SRefs} (I : Inv cfg w S) (xs : List (VArg × Option (Nat × Addr) × Bool))
    (h : ∀ x ∈ xs, ArgIs w S x.1 x.2.1 x.2.2) : Ev w (visitArgs (xs.map (·.1))) (xs.map fun x => seen x.2.1 x.2.2) := by
  induction xs generalizing w with
  | nil => exact Ev.pure _ _
  | cons x xs ih =>
    have hx := h x (by simp)
    have hj : ∀ {j : Nat} {y : VArg} {tg cst}, ArgIs w S y tg cst → ArgIs { w with tmps := j } S y tg cst := by
      intro j y tg cst hy; cases y <;> exact hy
    refine Ev.bind (arg_ev I hx).1 fun j _ => Ev.bind (arg_ev (I.tmpsLe j) (hj hx)).2 fun i _ => ?_
    exact Ev.bind (ih (I.tmpsLe i) fun y hy => hj (h y (by simp [hy]))) fun k _ => Ev.pure _ _

/-- C44: `resolve` sees every argument as its dynamic type and the address of the object. -/
theorem C44_arguments (C : CfgOk cfg) {w : PW} {S : SRefs} (h : Reach cfg w S) (xs : List (VArg × Option (Nat × Addr) × Bool))
    (hxs : ∀ x ∈ xs, ArgIs w S x.1 x.2.1 x.2.2) (lt : Option Nat → Option Nat → Bool)
    (sort : List (List (Option Nat) × Nat) → List (List (Option Nat) × Nat)) (safe : Bool) (fs : List (Overload (Option Nat))) :
    Returns w (visitResolve lt sort safe fs (xs.map (·.1))) (resolve none lt sort safe fs (xs.map fun x => seen x.2.1 x.2.2)) :=
  (Ev.bind (visitArgs_ev (h.inv C) xs hxs) fun _ _ => Ev.pure _ _ : Ev w (visitResolve lt sort safe fs (xs.map (·.1))) _).returns

/-- C44 for a client program: the overload whose parameter types are the dynamic types of the arguments is
called with the addresses of the objects; it takes no const argument by non-const reference. -/
theorem C44_polymorphic_calls (C : CfgOk cfg) {w : PW} {S : SRefs} (h : Reach cfg w S) (xs : List (VArg × Option (Nat × Addr) × Bool))
    (hxs : ∀ x ∈ xs, ArgIs w S x.1 x.2.1 x.2.2) {lt : Option Nat → Option Nat → Bool} (O : StrictTotal lt)
    {sort : List (List (Option Nat) × Nat) → List (List (Option Nat) × Nat)} (St : Sorts lt sort) {fs : List (Overload (Option Nat))}
    (V : Valid none fs) {i : Nat} {f : Overload (Option Nat)} (hf : fs[i]? = some f) (hl : f.callee = .lambda)
    (htypes : f.params.map (·.desc) = xs.map fun x => x.2.1.map (·.1))
    (hconst : ∀ (k : Nat) (p : Visit.Param (Option Nat)) (x : VArg × Option (Nat × Addr) × Bool), f.params[k]? = some p → xs[k]? = some x →
      x.2.2 = true → p.pass ≠ .lref ∧ p.pass ≠ .rref) (safe : Bool) :
    ∃ out, Returns w (visitResolve lt sort safe fs (xs.map (·.1))) (.call i out) ∧
      out.map (·.1) = xs.map fun x => x.2.1.map (·.2) := by
  obtain ⟨out, h1, h2⟩ := Visit.C44_calls (A := Addr) (args := xs.map fun x => seen x.2.1 x.2.2) O St V hf hl
    (Visit.matches_iff.2 (by rw [htypes, List.map_map]; rfl)) (by
      intro k p a hp ha hc
      rw [List.getElem?_map] at ha
      cases hx : xs[k]? with
      | none => rw [hx] at ha; cases ha
      | some x => rw [hx] at ha; cases ha; exact hconst k p x hp hx hc) safe
  refine ⟨out, ?_, ?_⟩
  · have := C44_arguments C h xs hxs lt sort safe fs
    rw [h1] at this; exact this
  · rw [h2, List.map_map]; rfl

/-- C44 for a client program: no overload has these parameter types, so nothing is called. -/
theorem C44_polymorphic_nullopt (C : CfgOk cfg) {w : PW} {S : SRefs} (h : Reach cfg w S) (xs : List (VArg × Option (Nat × Addr) × Bool))
    (hxs : ∀ x ∈ xs, ArgIs w S x.1 x.2.1 x.2.2 ∧ x.2.1.isSome) {lt : Option Nat → Option Nat → Bool} (O : StrictTotal lt)
    {sort : List (List (Option Nat) × Nat) → List (List (Option Nat) × Nat)} (St : Sorts lt sort) {fs : List (Overload (Option Nat))}
    (V : Valid none fs) (hno : ∀ f ∈ fs, f.params.map (·.desc) ≠ xs.map fun x => x.2.1.map (·.1)) (safe : Bool) :
    Returns w (visitResolve lt sort safe fs (xs.map (·.1))) .nullopt := by
  have h1 := Visit.C44_nullopt (A := Addr) (args := xs.map fun x => seen x.2.1 x.2.2) O St V (by
      intro a ha
      obtain ⟨x, hx, rfl⟩ := List.mem_map.1 ha
      have := (hxs x hx).2
      cases hx2 : x.2.1 with
      | none => rw [hx2] at this; cases this
      | some t => simp [seen, hx2]) (by
      intro f hf hm
      apply hno f hf
      rw [Visit.matches_iff.1 hm, List.map_map]; rfl) safe
  have := C44_arguments C h xs (fun x hx => (hxs x hx).1) lt sort safe fs
  rw [h1] at this; exact this

/-! ### an example -/

def optLt : Option Nat → Option Nat → Bool
  | none, some _ => true
  | some a, some b => decide (a < b)
  | _, none => false

theorem optLt_strict : StrictTotal optLt where
  irrefl a := by cases a <;> simp [optLt]
  trans a b c h1 h2 := by
    cases a <;> cases b <;> cases c <;> simp_all [optLt]; omega
  total a b h1 h2 := by
    cases a <;> cases b <;> simp_all [optLt]; omega

def visitFs : List (Overload (Option Nat)) :=
  [⟨[⟨some 2, .constLref⟩, ⟨some 1, .lref⟩], .lambda⟩, ⟨[⟨some 1, .value⟩, ⟨some 2, .lref⟩], .lambda⟩]

/-- An any (const) with a value of type 2, one of type 1 and a reference to the first. -/
example : ∃ w S, Reach exCfg w S ∧
    (okVal (visitResolve optLt (Visit.insertionSort optLt) true visitFs [.any 0 true, .any 2 false] w)
       (.call 0 [(some (.mem (.blk 0)), .constLvalue), ((anyTarget w.mem 2).map (·.2), .lvalue)]) &&
     okVal (visitResolve optLt (Visit.insertionSort optLt) true visitFs [.any 2 true, .ref 1] w)
       (.call 1 [((anyTarget w.mem 2).map (·.2), .xvalue), (some (.mem (.blk 0)), .lvalue)]) &&
     okVal (visitResolve optLt (Visit.insertionSort optLt) true visitFs [.any 2 false, .any 0 true] w) .nullopt &&
     okVal (visitResolve optLt (Visit.insertionSort optLt) true visitFs [.any 0 false, .ref 1] w) .nullopt &&
     decide ((anyTarget w.mem 2).map (·.1) = some 1)) = true :=
  run_witness 6 (ops := cmpProg) (by decide +kernel)

example : Valid none visitFs := ⟨by decide +kernel, by decide +kernel⟩

end AnyAny.Poly
