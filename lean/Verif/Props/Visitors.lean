import Verif.Model.Visitors
import Verif.Lemmas.TypeList
import Verif.Props.TypeList
import Verif.Props.TypeSwitch
/-
C49: visitor interfaces. Partial: `const` types in the interface do not compile when used.
-/
namespace AnyAny.Visitors
open AnyAny.Mem (Method Cfg CfgOk Obj content addrOf snap WF exCfg)
open AnyAny.Poly
open AnyAny.TypeList AnyAny.TypeList.Spec

variable {cfg : Cfg}

theorem leaves_list_map {ι : Type} (f : ι → List VM) (l : List ι) :
    leaves (l.map fun t => (.list ((f t).map .leaf) : Item VM)) = l.flatMap f := by
  induction l with
  | nil => rfl
  | cons a l ih => simp [leaves, leaves1, ih, leaves_map_leaf, List.flatMap_cons]

theorem leaves_leaf_map {ι : Type} (f : ι → VM) (l : List ι) : leaves (l.map fun t => (.leaf (f t) : Item VM)) = l.map f := by
  have := leaves_map_leaf (l.map f)
  rwa [List.map_map] at this

theorem visitorInterface_eq (ts : List VTy) : visitorInterface ts = some (ts.map (fun t => .visit [t]) ++ [.tag]) := by
  unfold visitorInterface
  rw [C25_interfaceAlias, leaves_append, leaves_leaf_map]
  rfl

theorem visitor2Interface_eq (l1 l2 : List VTy) :
    visitor2Interface l1 l2 = some (l1.flatMap (fun t => l2.map fun u => .visit [t, u]) ++ [.tag]) := by
  have h1 : ∀ t, visitOneWithAllOthers t l2 = some (l2.map fun u => .visit [t, u]) := by
    intro t
    unfold visitOneWithAllOthers
    rw [C25_interfaceAlias, leaves_leaf_map]
  unfold visitor2Interface
  rw [C25_interfaceAlias, leaves_append]
  simp only [h1, Option.getD_some]
  rw [leaves_list_map]
  rfl

/-- C49: `visitor_interface<Ts...>` has one method visiting `T` for every occurrence of `T` in `Ts...`, and no other
visit method. -/
theorem C49_one_method_per_type (ts : List VTy) : ∃ ms, visitorInterface ts = some ms ∧
    (∀ t, ms.count (.visit [t]) = ts.count t) ∧ ∀ ps, .visit ps ∈ ms → ∃ t ∈ ts, ps = [t] := by
  refine ⟨_, visitorInterface_eq ts, ?_, ?_⟩
  · intro t
    rw [List.count_append]
    have : List.count (VM.visit [t]) [.tag] = 0 := by simp
    rw [this, Nat.add_zero]
    induction ts with
    | nil => rfl
    | cons a ts ih => simp [List.count_cons, ih]
  · intro ps h
    simp only [List.mem_append, List.mem_map, List.mem_singleton] at h
    rcases h with ⟨t, h1, h2⟩ | h
    · cases h2; exact ⟨t, h1, rfl⟩
    · cases h

/-- C49: `visitor2_interface<L1, L2>` has one method per pair of types. -/
theorem C49_one_method_per_pair (l1 l2 : List VTy) : ∃ ms, visitor2Interface l1 l2 = some ms ∧
    (∀ t u, ms.count (.visit [t, u]) = l1.count t * l2.count u) ∧ ∀ ps, .visit ps ∈ ms → ∃ t ∈ l1, ∃ u ∈ l2, ps = [t, u] := by
  refine ⟨_, visitor2Interface_eq l1 l2, ?_, ?_⟩
  · intro t u
    rw [List.count_append]
    have : List.count (VM.visit [t, u]) [.tag] = 0 := by simp
    rw [this, Nat.add_zero]
    have h2 : ∀ a, List.count (VM.visit [t, u]) (l2.map fun u => VM.visit [a, u]) = if a == t then l2.count u else 0 := by
      intro a
      induction l2 with
      | nil => simp
      | cons b l2 ih =>
        rw [List.map_cons, List.count_cons, ih, List.count_cons]
        by_cases ha : a = t
        · subst ha; simp
        · simp [ha]
    induction l1 with
    | nil => simp
    | cons a l1 ih =>
      rw [List.flatMap_cons, List.count_append, ih, h2, List.count_cons]
      by_cases ha : a = t
      · subst ha; simp [Nat.add_mul, Nat.add_comm]
      · simp [ha]
  · intro ps h
    simp only [List.mem_append, List.mem_flatMap, List.mem_map, List.mem_singleton] at h
    rcases h with ⟨t, h1, u, h2, h3⟩ | h
    · cases h3; exact ⟨t, h1, u, h2, rfl⟩
    · cases h

/-! ### which overload -/

/-- Bases are as in C++: no class is a base of one of its bases. -/
def Classes.Ok (C : Classes) : Prop := ∀ a b, C.base a b = true → C.base b a = false

variable {C : Classes}

/-- `T&` accepts the object: `T` is its type or a base of it, and const if the object is (or is an rvalue). -/
def Accepts (C : Classes) (p : VTy) (a : VArg) : Prop :=
  (p.1 = a.ty ∨ C.base p.1 a.ty = true) ∧ (a.needConst = true → p.2 = true)

/-- The parameters accept the objects. -/
def AcceptsAll (C : Classes) (ps : List VTy) (as : List VArg) : Prop :=
  ps.length = as.length ∧ ∀ (i : Nat) (p : VTy) (a : VArg), ps[i]? = some p → as[i]? = some a → Accepts C p a

theorem binds_iff {p : VTy} {a : VArg} : binds C p a = true ↔ Accepts C p a := by
  unfold binds Accepts
  cases a.needConst <;> simp

theorem bindsAll_iff {ps : List VTy} {as : List VArg} : bindsAll C ps as = true ↔ AcceptsAll C ps as := by
  induction ps generalizing as with
  | nil => cases as <;> simp [bindsAll, AcceptsAll]
  | cons p ps ih =>
    cases as with
    | nil => simp [bindsAll, AcceptsAll]
    | cons a as =>
      simp only [bindsAll, Bool.and_eq_true, ih, binds_iff, AcceptsAll, List.length_cons]
      constructor
      · rintro ⟨h1, h2, h3⟩
        refine ⟨by omega, fun i q b hq hb => ?_⟩
        cases i with
        | zero => simp at hq hb; subst hq hb; exact h1
        | succ i => simp at hq hb; exact h3 i q b hq hb
      · rintro ⟨h1, h2⟩
        exact ⟨h2 0 p a rfl rfl, by omega, fun i q b hq hb => h2 (i + 1) q b (by simpa using hq) (by simpa using hb)⟩

theorem mem_viable {ms : List VM} {as : List VArg} {ps : List VTy} : ps ∈ viable C ms as ↔ .visit ps ∈ ms ∧ AcceptsAll C ps as := by
  rw [← bindsAll_iff]
  unfold viable
  rw [List.mem_filterMap]
  constructor
  · rintro ⟨m, h1, h2⟩
    cases m with
    | tag => cases h2
    | visit qs =>
      simp only at h2
      split at h2
      · rename_i hb; cases h2; exact ⟨h1, hb⟩
      · cases h2
  · rintro ⟨h1, h2⟩; exact ⟨_, h1, by simp [h2]⟩

/-- `p` is closer to the object than `q`: a class than its bases, and `T` than `const T`. -/
def Closer (C : Classes) (p q : VTy) : Prop :=
  (p.1 = q.1 ∧ p.2 = false ∧ q.2 = true) ∨ (p.1 ≠ q.1 ∧ C.base q.1 p.1 = true)

/-- `ps` are closer to the objects than `qs`: none farther, one closer. -/
def CloserAll (C : Classes) (ps qs : List VTy) : Prop :=
  (∀ (i : Nat) (p q : VTy), ps[i]? = some p → qs[i]? = some q → ¬ Closer C q p) ∧
    ∃ (i : Nat) (p q : VTy), ps[i]? = some p ∧ qs[i]? = some q ∧ Closer C p q

theorem betterParam_iff {p q : VTy} : betterParam C p q = true ↔ Closer C p q := by
  unfold betterParam Closer
  by_cases h : p.1 = q.1 <;> simp [h]

theorem better_iff {ps qs : List VTy} : better C ps qs = true ↔ CloserAll C ps qs := by
  have hz : ∀ (i : Nat) (x : VTy × VTy), (ps.zip qs)[i]? = some x ↔ ps[i]? = some x.1 ∧ qs[i]? = some x.2 := by
    intro i x
    rw [List.getElem?_zip_eq_some]
  unfold better CloserAll
  rw [Bool.and_eq_true, List.all_eq_true, List.any_eq_true]
  constructor
  · rintro ⟨h1, x, h2, h3⟩
    refine ⟨fun i p q hp hq => ?_, ?_⟩
    · have := h1 (p, q) (List.mem_of_getElem? ((hz i (p, q)).2 ⟨hp, hq⟩))
      rw [← betterParam_iff]
      simpa using this
    · obtain ⟨i, hi⟩ := List.getElem?_of_mem h2
      obtain ⟨h4, h5⟩ := (hz i x).1 hi
      exact ⟨i, _, _, h4, h5, betterParam_iff.1 h3⟩
  · rintro ⟨h1, i, p, q, h2, h3, h4⟩
    refine ⟨fun x hx => ?_, (p, q), List.mem_of_getElem? ((hz i (p, q)).2 ⟨h2, h3⟩), betterParam_iff.2 h4⟩
    obtain ⟨j, hj⟩ := List.getElem?_of_mem hx
    obtain ⟨h5, h6⟩ := (hz j x).1 hj
    have := h1 j _ _ h5 h6
    rw [← betterParam_iff] at this
    simpa using this

/-- C49: the method that is chosen is the one of the interface that accepts the objects and is closer to them than all others that do. -/
theorem C49_overload {ms : List VM} {as : List VArg} {ps : List VTy} : pick C ms as = some ps ↔
    .visit ps ∈ ms ∧ AcceptsAll C ps as ∧ ∀ qs, .visit qs ∈ ms → AcceptsAll C qs as → qs = ps ∨ CloserAll C ps qs := by
  have hall : ∀ ps, ((viable C ms as).all fun qs => qs == ps || better C ps qs) = true ↔
      ∀ qs, .visit qs ∈ ms → AcceptsAll C qs as → qs = ps ∨ CloserAll C ps qs := by
    intro ps
    rw [List.all_eq_true]
    simp only [Bool.or_eq_true, beq_iff_eq, better_iff, mem_viable, and_imp]
  constructor
  · intro h
    have h1 := mem_viable.1 (List.mem_of_find?_eq_some h)
    exact ⟨h1.1, h1.2, (hall ps).1 (by have := List.find?_some h; exact this)⟩
  · rintro ⟨h1, h2, h3⟩
    have hv := mem_viable.2 ⟨h1, h2⟩
    cases hf : pick C ms as with
    | none =>
      have := List.find?_eq_none.1 hf _ hv
      exact absurd ((hall ps).2 h3) this
    | some qs =>
      have h4 := mem_viable.1 (List.mem_of_find?_eq_some hf)
      have h5 := (hall qs).1 (by have := List.find?_some hf; exact this) ps h1 h2
      rcases h3 qs h4.1 h4.2 with h6 | h6
      · rw [h6]
      · rcases h5 with h5 | h5
        · rw [h5]
        · obtain ⟨i, p, q, hp, hq, hc⟩ := h6.2
          exact absurd hc (h5.1 i q p hq hp)

/-- C49: a method whose parameter types are the static types of the objects, including const, is the one chosen. -/
theorem C49_exact (hC : C.Ok) {ms : List VM} {as : List VArg} (h : .visit (as.map fun a => (a.ty, a.needConst)) ∈ ms) :
    pick C ms as = some (as.map fun a => (a.ty, a.needConst)) := by
  have hat : ∀ (i : Nat) (p : VTy), (as.map fun a : VArg => (a.ty, a.needConst))[i]? = some p → ∃ a : VArg, as[i]? = some a ∧ p = (a.ty, a.needConst) := by
    intro i p hp
    rw [List.getElem?_map] at hp
    cases ha : as[i]? with
    | none => rw [ha] at hp; cases hp
    | some a => rw [ha] at hp; exact ⟨a, rfl, (Option.some.inj hp).symm⟩
  refine C49_overload.2 ⟨h, ⟨by simp, ?_⟩, ?_⟩
  · intro i p a hp ha
    obtain ⟨b, hb, rfl⟩ := hat i p hp
    rw [hb] at ha; cases ha
    exact ⟨.inl rfl, fun h => h⟩
  · intro qs _ hq
    by_cases e : qs = as.map fun a => (a.ty, a.needConst)
    · exact .inl e
    · refine .inr ⟨?_, ?_⟩
      · rintro i p q hp hq' (⟨h1, h2, h3⟩ | ⟨h1, h2⟩)
        · obtain ⟨a, ha, rfl⟩ := hat i p hp
          have := (hq.2 i q a hq' ha).2 h3
          rw [h2] at this; cases this
        · obtain ⟨a, ha, rfl⟩ := hat i p hp
          rcases (hq.2 i q a hq' ha).1 with h3 | h3
          · exact h1 h3
          · rw [hC _ _ h3] at h2; cases h2
      · have : ∃ i : Nat, (as.map fun a : VArg => (a.ty, a.needConst))[i]? ≠ qs[i]? := by
          refine Classical.byContradiction fun hn => e (List.ext_getElem? fun i => ?_).symm
          exact Classical.byContradiction fun h => hn ⟨i, h⟩
        obtain ⟨i, hi⟩ := this
        have hl := hq.1
        cases ha : as[i]? with
        | none =>
          have h1 : as.length ≤ i := List.getElem?_eq_none_iff.1 ha
          rw [List.getElem?_map, ha, List.getElem?_eq_none_iff.2 (by omega)] at hi
          exact absurd rfl hi
        | some a =>
          have h1 : i < as.length := by
            obtain ⟨h, _⟩ := List.getElem?_eq_some_iff.1 ha; exact h
          have hqi : qs[i]? = some qs[i] := List.getElem?_eq_getElem (by omega)
          have hpi : (as.map fun a => (a.ty, a.needConst))[i]? = some (a.ty, a.needConst) := by rw [List.getElem?_map, ha]; rfl
          refine ⟨i, _, _, hpi, hqi, ?_⟩
          rw [hpi, hqi] at hi
          have hacc := hq.2 i _ a hqi ha
          generalize qs[i] = q at *
          obtain ⟨qt, qc⟩ := q
          rcases hacc with ⟨h2 | h2, h3⟩
          · simp only at h2 h3
            subst h2
            left
            refine ⟨rfl, ?_⟩
            cases hn : a.needConst <;> cases qc <;> simp_all
          · refine .inr ⟨?_, h2⟩
            intro e'
            simp only at e' h2
            rw [← e'] at h2
            have := hC _ _ h2
            rw [h2] at this; cases this

/-! ### the call -/

/-- The visitor: an any holding, or a reference to, an object of type `V` at `p`. -/
def VisitorAt (w : PW) (S : SRefs) (x : Opd) (V : Nat) (p : Addr) : Prop :=
  match x with
  | .any c => Mem.alive w.mem c ∧ anyTarget w.mem c = some (V, p)
  | .ref n => ∃ s, S n = some s ∧ s.kind.isPtr = false ∧ s.target = some (V, p)

theorem visitor_ev {w : PW} {S : SRefs} {x : Opd} {m : Method} {V : Nat} {p : Addr} (I : Inv cfg w S) (hx : VisitorAt w S x V p)
    (hm : HasMethod w S x m) : (∀ j, Ev { w with tmps := j } (entryTy x m) V) ∧ ∀ j, Ev { w with tmps := j } (valuePtr x) p := by
  cases x with
  | any a =>
    obtain ⟨h1, h2⟩ := hx
    cases hc : content w.mem a with
    | none => simp [anyTarget, hc] at h2
    | some o =>
      obtain ⟨s, vp, hs, hvt, hty, hok, hin, _⟩ := any_full (t := o.ty) (v := o.val) I.wf (by simp [Mem.view, hc]) hm
      have hg : ∀ j, Ev { w with tmps := j } (liftMem (Mem.getAny a)) s := fun j => getAny_ev (w := { w with tmps := j }) hs
      simp [anyTarget, hc, addrOf, hs] at h2
      obtain ⟨rfl, rfl⟩ := h2
      refine ⟨fun j => ?_, fun j => Ev.bind (hg j) fun k _ => Ev.pure _ _⟩
      refine Ev.bind (hg j) fun k _ => ⟨k, Nat.le_refl _, ?_⟩
      simp [liftMem, Mem.slotTy_ok hvt hok hin, hty]
  | ref n =>
    obtain ⟨s, hs, hk, ht⟩ := hx
    obtain ⟨s', hs', hin⟩ := hm
    rw [hs] at hs'; cases hs'
    obtain ⟨o, hr, A⟩ := I.get hs
    have hd : Den w o V p s.lender := by have := A.means; rw [ht] at this; exact this
    refine ⟨fun j => ?_, fun j => ?_⟩
    · exact Ev.bind (dispatchAt_ev (w := { w with tmps := j }) hr (hd.le j) (by rw [A.ms]; exact hin)) fun k _ => Ev.pure _ _
    · refine Ev.bind (getRef_ev (w := { w with tmps := j }) hr) fun k _ => ?_
      rw [hd.val]; exact Ev.pure _ _

/-- C49, partial: for objects that are not const, `x.visit(v...)` calls, once, the stored visitor with the very objects, through the overload for their
static types, if there is one, or the closest one for bases of these; overloads returning `aa::noop` are not called. More exactly: whenever the
chosen overload has no const type. Missing: const types (see `C49_const_fails`). -/
theorem C49_visits_partial (hcfg : CfgOk cfg) {w : PW} {S : SRefs} (h : Reach cfg w S) {x : Opd} {V : Nat} {p : Addr}
    (hx : VisitorAt w S x V p) (num : VM → Nat) (isNoop : Nat → List VTy → Bool) {ms : List VM} (hms : ∀ m ∈ ms, HasMethod w S x (.user (num m)))
    {as : List VArg} {ps : List VTy} (hp : pick C ms as = some ps) (hn : ∀ q ∈ ps, q.2 = false) :
    ∃ run, visit C num isNoop ms x as = some run ∧
      Returns w run (if isNoop V ps then [] else [⟨V, p, ps, as.map (·.addr)⟩]) := by
  have hb : bodyOk ps = true := List.all_eq_true.2 fun q hq => by simp [hn q hq]
  refine ⟨callVisit num isNoop x ps as, by simp [visit, hp, hb], ?_⟩
  obtain ⟨h1, h2⟩ := visitor_ev (h.inv hcfg) hx (hms _ (C49_overload.1 hp).1)
  refine (Ev.bind (h1 w.tmps) fun j _ => Ev.bind (h2 j) fun k _ => ?_ : Ev w (callVisit num isNoop x ps as) _).returns
  split <;> exact Ev.pure _ _

/-- C49 (what compiles): `x.visit(v...)` compiles exactly if one overload is the best for the objects and its types are not const. -/
theorem C49_compiles (num : VM → Nat) (isNoop : Nat → List VTy → Bool) (ms : List VM) (x : Opd) (as : List VArg) :
    (visit C num isNoop ms x as).isSome = true ↔ ∃ ps, pick C ms as = some ps ∧ ∀ q ∈ ps, q.2 = false := by
  unfold visit
  cases hp : pick C ms as with
  | none => simp
  | some ps =>
    simp only [Option.some.injEq, exists_eq_left']
    by_cases hb : bodyOk ps = true
    · simp only [hb, if_true, Option.isSome_some, true_iff]
      intro q hq
      simpa using List.all_eq_true.1 hb q hq
    · simp only [if_neg hb, Option.isSome_none, Bool.false_eq_true, false_iff]
      refine (fun h => absurd (List.all_eq_true.2 fun q hq => by simp [h q hq]) hb)

/-- C49 fails for const types: an interface may have a method for visiting `const T`, chosen for const objects of type `T`; using it does not compile. -/
theorem C49_const_fails (hC : C.Ok) (ts : List VTy) (t : Nat) (ht : (t, true) ∈ ts) (num : VM → Nat) (isNoop : Nat → List VTy → Bool) (x : Opd) (a : Addr) :
    ∃ ms, visitorInterface ts = some ms ∧ pick C ms [⟨t, true, a⟩] = some [(t, true)] ∧ visit C num isNoop ms x [⟨t, true, a⟩] = none := by
  have hp : pick C (ts.map (fun t => VM.visit [t]) ++ [.tag]) [⟨t, true, a⟩] = some [(t, true)] :=
    C49_exact hC (as := [⟨t, true, a⟩]) (by simp [ht])
  exact ⟨_, visitorInterface_eq ts, hp, by simp [visit, hp, bodyOk]⟩

/-- Types 5 and 6, the first also const; visitor objects of types 2 and 1. -/
def exTys : List VTy := [(5, false), (5, true), (6, false)]

example : visitorInterface exTys = some [.visit [(5, false)], .visit [(5, true)], .visit [(6, false)], .tag] := by
  rw [visitorInterface_eq]; rfl

example : visitor2Interface [(5, false), (6, true)] exTys = some [.visit [(5, false), (5, false)], .visit [(5, false), (5, true)],
    .visit [(5, false), (6, false)], .visit [(6, true), (5, false)], .visit [(6, true), (5, true)], .visit [(6, true), (6, false)], .tag] := by
  rw [visitor2Interface_eq]; rfl

/-- Class 6 is derived from class 5, and class 7 from 6 and 8. -/
def exCls : Classes := ⟨fun b d => (b == 5 && (d == 6 || d == 7)) || (d == 7 && (b == 6 || b == 8))⟩

example : exCls.Ok := by
  intro a b h
  simp [exCls] at h ⊢
  omega

/-- The const overload is chosen for a const object only, that for a base for objects without overload; an rvalue of type 6 is visited as const 5. -/
example : (visitorInterface exTys).map (fun ms => (pick exCls ms [⟨5, false, .var 0⟩], pick exCls ms [⟨5, true, .var 0⟩],
    pick exCls ms [⟨7, false, .var 0⟩], pick exCls ms [⟨6, true, .var 0⟩])) = some (some [(5, false)], some [(5, true)], some [(6, false)], some [(5, true)]) := by
  rw [visitorInterface_eq]; rfl

/-- Ambiguous for two non-const objects, and for an object with two bases. -/
example : pick exCls [.visit [(5, false), (5, true)], .visit [(5, true), (5, false)]] [⟨5, false, .var 0⟩, ⟨5, false, .var 1⟩] = none ∧
    pick exCls [.visit [(6, false)], .visit [(8, false)]] [⟨7, false, .var 0⟩] = none := by
  decide

def exNum : VM → Nat
  | .visit [(5, false)] => 0
  | .visit [(6, false)] => 1
  | _ => 2

def runVisit (r : Option (PM (List VCall))) (w : PW) (c : List VCall) : Bool :=
  match r with
  | some m => okVal (m w) c
  | none => false

/-- A visitor of type 2 in an any and the same through a reference of another class (methods in another order); its overload for
type 6 returns `aa::noop`. -/
example : ∃ w S, Reach exCfg w S ∧
    (runVisit (visit exCls exNum (fun _ ps => ps == [(6, false)]) [.visit [(5, false)], .visit [(6, false)], .tag] (.any 0) [⟨5, false, .var 3⟩]) w
       [⟨2, .mem (.blk 0), [(5, false)], [.var 3]⟩] &&
     runVisit (visit exCls exNum (fun _ ps => ps == [(6, false)]) [.visit [(5, false)], .visit [(6, false)]] (.ref 2) [⟨5, false, .var 3⟩]) w
       [⟨2, .mem (.blk 0), [(5, false)], [.var 3]⟩] &&
     runVisit (visit exCls exNum (fun _ ps => ps == [(6, false)]) [.visit [(5, false)], .visit [(6, false)]] (.ref 2) [⟨6, false, .var 3⟩]) w [] &&
     decide (anyTarget w.mem 0 = some (2, .mem (.blk 0)))) = true :=
  run_witness 6 (ops := exProg) (by decide +kernel)

end AnyAny.Visitors
