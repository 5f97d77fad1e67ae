import Verif.Lemmas.Poly
import Verif.Lemmas.AnyMemRun
/-
Null pointers, the invariant that relates reference objects to their meaning, and its preservation by
every statement of a client program.
-/
namespace AnyAny.Poly
open AnyAny.TypeList
open AnyAny.Mem (Method Cfg CfgOk Ptr VtPtr World AnySt Obj upd content addrOf WF VtOk numberOfFirst_getElem Rep Snap snap absOf)

variable {cfg : Cfg} {w : PW} {r : RId} {o : RefObj} {T : Nat} {a : Addr} {l : Option Nat} {ms : List Method} {k : Kind}

/-! ### null pointers -/

/-- `m` makes a null pointer of class `k<ms...>`. -/
def GivesNull (w : PW) (m : PM RefObj) (k : Kind) (ms : List Method) : Prop :=
  ∃ o, Ev w m o ∧ IsNull o ∧ o.kind = k ∧ o.ms = ms

theorem GivesNull.withTemp {x : RefObj} {f : RId → PM RefObj} (hw : Fresh w)
    (h : GivesNull (push w x) (f (.tmp w.tmps)) k ms) : GivesNull w (withTemp x f) k ms := by
  obtain ⟨o, h1, h2⟩ := h
  exact ⟨o, Ev.withTemp hw h1, h2⟩

theorem GivesNull.bindEv {α} {m : PM α} {f : α → PM RefObj} {x : α} (h : Ev w m x)
    (hf : ∀ j, w.tmps ≤ j → GivesNull { w with tmps := j } (f x) k ms) : GivesNull w (m >>= f) k ms := by
  obtain ⟨j, hj, h⟩ := h
  obtain ⟨o, ⟨i, hi, h1⟩, h2⟩ := hf j hj
  refine ⟨o, ⟨i, Nat.le_trans hj hi, ?_⟩, h2⟩
  rw [pbind_apply, h]; exact h1

theorem GivesNull.bind {m : PM RefObj} {f : RefObj → PM RefObj} {k' ms'} (h : GivesNull w m k' ms')
    (hf : ∀ j o, w.tmps ≤ j → IsNull o → o.kind = k' → o.ms = ms' → GivesNull { w with tmps := j } (f o) k ms) :
    GivesNull w (m >>= f) k ms := by
  obtain ⟨o, h1, h2, h3, h4⟩ := h
  exact GivesNull.bindEv h1 fun j hj => hf j o hj h2 h3 h4

theorem ptrNull_isNull (hk : k.isPtr = true) : IsNull (ptrNull k ms) := by
  refine ⟨hk, rfl, fun h => ?_, fun h => ?_⟩
  · have h : byValue ms = true := h
    exact ⟨none, by simp [ptrNull, nullView, h]⟩
  · have h : byValue ms = false := h
    exact ⟨none, by simp [ptrNull, nullView, h]⟩

theorem ptrNull_gives (hk : k.isPtr = true) : GivesNull w (pure (ptrNull k ms)) k ms :=
  ⟨_, Ev.pure _ _, ptrNull_isNull hk, rfl, rfl⟩

theorem convPtr_null (hw : Fresh w) (hr : w.refs r = some o) (h : IsNull o) (hk : k.isPtr = true) :
    GivesNull w (convPtr k ms r) k ms := by
  refine GivesNull.bindEv (getRef_ev hr) fun j hj => GivesNull.withTemp (hw.le hj) ?_
  refine GivesNull.bindEv (getRef_ev (push_same _ _)) fun i _ => ?_
  rw [h.val]
  exact ptrNull_gives hk

theorem blindFrom_null (hr : w.refs r = some o) (h : IsNull o) (hk : k.isPtr = true) :
    GivesNull w (blindFrom k r) k o.ms := by
  refine GivesNull.bindEv (getRef_ev hr) fun j hj => ?_
  cases hb : byValue o.ms with
  | true =>
    obtain ⟨e, he⟩ := h.byVal hb
    have h1 : Ev { w with tmps := j } (vtablePtr r) (some (.inRef r 0)) := by
      refine Ev.bind (getRef_ev (w := { w with tmps := j }) hr) fun i _ => ?_
      rw [he]; exact Ev.pure _ _
    refine GivesNull.bindEv h1 fun i _ => ?_
    have h2 : Ev { w with tmps := i } (mkView o.ms (some (.inRef r 0))) (.value [e]) := by
      unfold mkView
      rw [if_pos hb]
      refine ⟨i, Nat.le_refl _, ?_⟩
      obtain ⟨k', ms', view, val⟩ := o
      simp only at he
      subst he
      simp [loadTable, entryAt, hr]
    refine GivesNull.bindEv h2 fun i2 _ => ?_
    rw [h.val]
    exact ⟨_, Ev.pure _ _, ⟨hk, rfl, fun _ => ⟨e, rfl⟩, fun h => by rw [hb] at h; cases h⟩, rfl, rfl⟩
  | false =>
    obtain ⟨p, he⟩ := h.byPtr hb
    have h1 : Ev { w with tmps := j } (vtablePtr r) p := by
      refine Ev.bind (getRef_ev (w := { w with tmps := j }) hr) fun i _ => ?_
      rw [he]; exact Ev.pure _ _
    refine GivesNull.bindEv h1 fun i _ => ?_
    have h2 : Ev { w with tmps := i } (mkView o.ms p) (.ptr p) := by
      unfold mkView
      rw [if_neg (by simp [hb])]
      exact Ev.pure _ _
    refine GivesNull.bindEv h2 fun i2 _ => ?_
    rw [h.val]
    exact ⟨_, Ev.pure _ _, ⟨hk, rfl, (fun h => by rw [hb] at h; cases h), fun _ => ⟨p, rfl⟩⟩, rfl, rfl⟩

theorem constPtr_null (hw : Fresh w) (hr : w.refs r = some o) (h : IsNull o) : GivesNull w (constPtr r) .constPolyPtr o.ms :=
  GivesNull.bindEv (getRef_ev hr) fun _ hj => GivesNull.withTemp (hw.le hj) (blindFrom_null (push_same _ _) h rfl)

theorem constPointerCast_null (hw : Fresh w) (hr : w.refs r = some o) (h : IsNull o) :
    GivesNull w (constPointerCast r) .polyPtr o.ms :=
  GivesNull.bindEv (getRef_ev hr) fun _ hj => GivesNull.withTemp (hw.le hj) (blindFrom_null (push_same _ _) h rfl)

theorem constPtrConv_null (hw : Fresh w) (hr : w.refs r = some o) (h : IsNull o) :
    GivesNull w (constPtrConv ms r) .constPolyPtr ms := by
  refine GivesNull.bindEv (getRef_ev hr) fun j hj => GivesNull.withTemp (hw.le hj) ?_
  have hw' := (hw.le hj).push o
  refine GivesNull.bind (constPtr_null hw' (push_same _ _) h) fun i c hi hc _ _ => GivesNull.withTemp (hw'.le hi) ?_
  refine GivesNull.bindEv (getRef_ev (push_same _ _)) fun i _ => ?_
  rw [hc.val]
  exact ptrNull_gives rfl

theorem ptrOfNullT_gives (hk : k.isPtr = true) (t : Nat) : GivesNull w (ptrOfNullT k ms t) k ms := by
  have hp : Points w (.static ⟨t, ms, 0⟩) ms t := Points.static (v := ⟨t, ms, 0⟩) ⟨[], by simp⟩
  refine GivesNull.bindEv (mkView_ev hp) fun j _ => ?_
  refine ⟨_, Ev.pure _ _, ⟨hk, rfl, fun h => ?_, fun h => ?_⟩, rfl, rfl⟩
  · have h : byValue ms = true := h
    have hl : ms.length = 1 := by simpa [byValue] using h
    match ms, hl with
    | [m], _ => exact ⟨some ⟨m, t⟩, by simp [byValue]⟩
  · have h : byValue ms = false := h
    exact ⟨_, by rw [if_neg (by simp [h])]⟩

theorem convert_null (hw : Fresh w) {s : SRef} (hr : w.refs r = some o) (h : IsNull o) (hk : o.kind = s.kind)
    (hc : Converts k ms s) : GivesNull w (convert k ms r) k ms := by
  refine GivesNull.bindEv (getRef_ev hr) fun j hj => ?_
  have hw' := hw.le hj
  have hr' : ({ w with tmps := j } : PW).refs r = some o := hr
  unfold Converts at hc
  rw [← hk] at hc
  have hp := h.ptr
  have copy : ∀ {k'}, o.kind = k' → ms = o.ms → GivesNull { w with tmps := j } (Pure.pure o : PM RefObj) k' ms :=
    fun h1 h2 => ⟨o, Ev.pure _ _, h, h1, h2.symm⟩
  cases hok : o.kind <;> rw [hok] at hp hc <;> (try cases hp) <;> cases k <;> simp only [] at hc ⊢
  · by_cases he : ms = o.ms
    · rw [if_pos he]; exact copy hok he
    · rw [if_neg he]; exact convPtr_null hw' hr' h rfl
  · by_cases he : ms = o.ms
    · rw [if_pos he, he]; exact constPtr_null hw' hr' h
    · rw [if_neg he]; exact constPtrConv_null hw' hr' h
  · by_cases he : ms = o.ms
    · rw [if_pos he]; exact copy hok he
    · rw [if_neg he]; exact convPtr_null hw' hr' h rfl

/-! ### construction -/

theorem polyOfVar_gives {x t v : Nat} (hx : w.vars x = some (t, v)) (hk : k.isStateful = false) :
    Gives w (polyOfVar k ms x) k ms t (.var x) none := by
  have hp : Points w (.static ⟨t, ms, 0⟩) ms t := Points.static (v := ⟨t, ms, 0⟩) ⟨[], by simp⟩
  have : Gives w (do
      let v ← mkView ms (some (.static ⟨t, ms, 0⟩))
      pure ⟨k, ms, v, some (.var x)⟩ : PM RefObj) k ms t (.var x) none :=
    Gives.bindEv (mkView_ev hp) fun j _ =>
      ⟨_, Ev.pure _ _, den_mk hk (hp.le j) (fun _ _ r off h => by cases h), rfl, rfl⟩
  obtain ⟨o, ⟨j, hj, h1⟩, h2⟩ := this
  refine ⟨o, ⟨j, hj, ?_⟩, h2⟩
  simp only [polyOfVar, hx]; exact h1

theorem statefulOfVar_gives {x t v : Nat} (hx : w.vars x = some (t, v)) (hk : k.isStateful = true) :
    Gives w (statefulOfVar k ms x) k ms t (.var x) none :=
  ⟨_, ⟨w.tmps, Nat.le_refl _, by simp only [statefulOfVar, hx]⟩, den_stateful hk, rfl, rfl⟩

theorem ptrOfAny_gives {c : Nat} {s : Snap} {ob : Obj} (W : WF cfg w.mem) (hs : snap w.mem c = some s) (ho : s.obj = some ob)
    (hk : k.isPtr = true) (hi : ms <:+: s.ms) :
    ∃ p, addrOf w.mem c = some p ∧ content w.mem c = some ob ∧ Gives w (ptrOfAny k ms (some c)) k ms ob.ty (.mem p) none := by
  have hks : k.isStateful = false := by cases k <;> first | rfl | cases hk
  obtain ⟨st, D⟩ := (Rep.of_wf W).det hs
  obtain ⟨v, hv, _, hty, hok, _⟩ := D.objSome ob ho
  refine ⟨st.vp, by simp [addrOf, D.get], by rw [D.cont, ho], ?_⟩
  have h0 : Ev w (liftMem (Mem.getAny c)) st := ⟨w.tmps, Nat.le_refl _, by simp [liftMem, Mem.getAny, D.get]⟩
  refine Gives.bindEv h0 fun j _ => ?_
  rw [hv]
  simp only []
  have hp : Points { w with tmps := j } (.static v) st.ms v.ty := Points.static hok
  obtain ⟨p', g1, g2, g3⟩ := subtable_ev hp (by rw [← D.ms]; exact hi)
  refine Gives.bindEv g1 fun i _ => Gives.bindEv (mkView_ev (g2.le i)) fun i2 _ => ?_
  refine ⟨_, Ev.pure _ _, ?_, rfl, rfl⟩
  rw [hty]
  exact den_mk hks (g2.le _) fun _ _ => g3 none fun r off h => by cases h

theorem ptrOfAny_null {c : Nat} {s : Snap} (W : WF cfg w.mem) (hs : snap w.mem c = some s) (ho : s.obj = none)
    (hk : k.isPtr = true) : GivesNull w (ptrOfAny k ms (some c)) k ms := by
  obtain ⟨st, D⟩ := (Rep.of_wf W).det hs
  have h0 : Ev w (liftMem (Mem.getAny c)) st := ⟨w.tmps, Nat.le_refl _, by simp [liftMem, Mem.getAny, D.get]⟩
  refine GivesNull.bindEv h0 fun j _ => ?_
  rw [D.objNone ho]
  exact ptrNull_gives hk

/-! ### use -/

theorem dispatchAt_ev {m : Method} (hr : w.refs r = some o) (h : Den w o T a l) (hm : m ∈ o.ms) :
    Ev w (dispatchAt r m) (T, some a) := by
  refine Ev.bind (getRef_ev hr) fun j _ => ?_
  obtain ⟨p, h1, h2, _⟩ := vtablePtr_ev (w := { w with tmps := j }) hr (h.le j)
  refine Ev.bind h1 fun i _ => Ev.bind (Ev.pure _ _) fun i' _ => ?_
  cases hn : numberOfFirst m o.ms with
  | none => exact absurd hm ((numberOfImpl_none m o.ms 0).1 hn)
  | some n =>
    refine Ev.bind ((h2.le _).ev (numberOfFirst_getElem hn)) fun i2 _ => Ev.bind (Ev.pure _ _) fun i3 _ => ?_
    rw [h.val]
    show Ev _ (if m = m then pure (T, some a) else ub) _
    rw [if_pos rfl]
    exact Ev.pure _ _

theorem dispatch_ev {m : Method} (hw : Fresh w) (hr : w.refs r = some o) (h : Den w o T a l) (hm : m ∈ o.ms) :
    Ev w (dispatch r m) (T, some a) := by
  refine Ev.bind (getRef_ev hr) fun j hj => ?_
  split
  · exact dispatchAt_ev (w := { w with tmps := j }) hr (h.le j) hm
  · exact Ev.withTemp (hw.le hj) (dispatchAt_ev (push_same _ _) ((h.le j).push (hw.le hj)) hm)

theorem descAt_ev (hr : w.refs r = some o) (h : Den w o T a l) (hm : Mem.HasDesc o.ms) : Ev w (descAt r) T := by
  obtain ⟨m, h1, h2⟩ := Mem.descMethod_mem hm
  refine Ev.bind (getRef_ev hr) fun j hj => ?_
  rw [h1]
  exact Ev.bind (dispatchAt_ev (w := { w with tmps := j }) hr (h.le j) h2) fun _ _ => Ev.pure _ _

theorem typeDescriptor_ev (hw : Fresh w) (hr : w.refs r = some o) (h : Den w o T a l) (hm : Mem.HasDesc o.ms) :
    Ev w (typeDescriptor r) (some T) := by
  refine Ev.bind (getRef_ev hr) fun j hj => ?_
  rw [h.val]
  simp only [Option.isNone_some, Bool.and_false, Bool.false_eq_true, if_false]
  split
  · rename_i hp
    obtain ⟨d, h1, h2, h3, h4⟩ := derefPtr_gives (w := { w with tmps := j }) hr (h.le j) hp
    refine Ev.bind h1 fun i hi => Ev.withTemp ((hw.le hj).le hi) ?_
    exact Ev.bind (descAt_ev (push_same _ _) ((h2.le i).push ((hw.le hj).le hi)) (by rw [h4]; exact hm)) fun _ _ =>
      Ev.pure _ _
  · exact Ev.bind (descAt_ev (w := { w with tmps := j }) hr (h.le j) hm) fun _ _ => Ev.pure _ _

theorem typeDescriptor_null (hr : w.refs r = some o) (h : IsNull o) : Ev w (typeDescriptor r) none := by
  refine Ev.bind (getRef_ev hr) fun j hj => ?_
  rw [h.val, h.ptr]
  exact Ev.pure _ _

/-- The cast's result. -/
def castOf (T : Nat) (a : Addr) (t : Nat) : Option Addr := if T = t then some a else none

theorem anyCastPtrAt_ev {t : Nat} (hw : Fresh w) (hr : w.refs r = some o) (h : Den w o T a l) (hm : Mem.HasDesc o.ms) :
    Ev w (anyCastPtrAt t r) (castOf T a t) := by
  refine Ev.bind (getRef_ev hr) fun j hj => ?_
  rw [h.val]
  simp only [Option.isNone_some, Bool.false_eq_true, if_false]
  refine Ev.bind (typeDescriptor_ev (w := { w with tmps := j }) (hw.le hj) hr (h.le j) hm) fun i _ => ?_
  unfold castOf
  by_cases he : T = t
  · simp only [he, ne_eq, not_true, if_false, if_true]; exact Ev.pure _ _
  · have : some T ≠ some t := fun h => he (Option.some.inj h)
    simp only [he, this, ne_eq, not_false_iff, if_true, if_false]; exact Ev.pure _ _

theorem anyCastPtr_ev {t : Nat} (hw : Fresh w) (hr : w.refs r = some o) (h : Den w o T a l) (hm : Mem.HasDesc o.ms) :
    Ev w (anyCastPtr r t) (castOf T a t) :=
  Ev.bind (getRef_ev hr) fun j hj => Ev.withTemp (hw.le hj)
    (anyCastPtrAt_ev ((hw.le hj).push o) (push_same _ _) ((h.le j).push (hw.le hj)) hm)

theorem anyCastPtr_null {t : Nat} (hw : Fresh w) (hr : w.refs r = some o) (h : IsNull o) : Ev w (anyCastPtr r t) none :=
  Ev.bind (getRef_ev hr) fun j hj => Ev.withTemp (hw.le hj) <| by
    refine Ev.bind (getRef_ev (push_same _ _)) fun i _ => ?_
    rw [h.val]
    exact Ev.pure _ _

/-- `m` throws and changes nothing. -/
def Ex {α} (w : PW) (m : PM α) : Prop := ∃ k, w.tmps ≤ k ∧ m w = .exn { w with tmps := k }

theorem Ex.bind {α β} {m : PM α} {f : α → PM β} {x : α} (h : Ev w m x)
    (hf : ∀ k, w.tmps ≤ k → Ex { w with tmps := k } (f x)) : Ex w (m >>= f) := by
  obtain ⟨k, hk, h⟩ := h
  obtain ⟨j, hj, h'⟩ := hf k hk
  refine ⟨j, Nat.le_trans hk hj, ?_⟩
  rw [pbind_apply, h]; exact h'

theorem Ex.withTemp {α} {x : RefObj} {f : RId → PM α} (hw : Fresh w) (h : Ex (push w x) (f (.tmp w.tmps))) :
    Ex w (withTemp x f) := by
  obtain ⟨k, hk, h⟩ := h
  refine ⟨k, Nat.le_trans (Nat.le_succ _) hk, ?_⟩
  have h0 : f (.tmp w.tmps) { w with refs := updR w.refs (.tmp w.tmps) (some x), tmps := w.tmps + 1 } =
    .exn { push w x with tmps := k } := h
  have hr : updR (updR w.refs (.tmp w.tmps) (some x)) (.tmp w.tmps) none = w.refs := by
    funext y
    simp only [updR]
    split
    · subst_vars; exact (hw _ (Nat.le_refl _)).symm
    · rfl
  simp only [Poly.withTemp, h0]
  simp only [push, hr]

theorem anyCastRefAt_res {t : Nat} (hw : Fresh w) (hr : w.refs r = some o) (h : Den w o T a l)
    (hs : o.kind.isStateful = false) (hm : Mem.HasDesc o.ms) :
    (T = t → Ev w (anyCastRefAt t r) a) ∧ (T ≠ t → Ex w (anyCastRefAt t r)) := by
  obtain ⟨q, h1, h2, h3, h4⟩ := addrOfRef_gives hr h hs
  have hc : ∀ i, w.tmps ≤ i → Ev { w with tmps := i } (withTemp q (anyCastPtrAt t)) (castOf T a t) := fun i hi =>
    Ev.withTemp (hw.le hi) (anyCastPtrAt_ev ((hw.le hi).push q) (push_same _ _) ((h2.le i).push (hw.le hi)) (by rw [h4]; exact hm))
  constructor
  · intro he
    refine Ev.bind h1 fun i hi => Ev.bind (hc i hi) fun j _ => ?_
    simp only [castOf, he, if_true]; exact Ev.pure _ _
  · intro he
    refine Ex.bind h1 fun i hi => Ex.bind (hc i hi) fun j _ => ?_
    simp only [castOf, he, if_false]; exact ⟨j, Nat.le_refl _, rfl⟩

theorem anyCastRef_res {t n : Nat} (hw : Fresh w) (hr : w.refs (.var n) = some o) (h : Den w o T a l)
    (hm : Mem.HasDesc o.ms) :
    (T = t → Ev w (anyCastRef (.var n) t) a) ∧ (T ≠ t → Ex w (anyCastRef (.var n) t)) := by
  cases hs : o.kind.isStateful with
  | true =>
    have key : ∀ j, w.tmps ≤ j → ∃ v, Ev { w with tmps := j } (getView (.var n)) v ∧ ∀ i, j ≤ i →
        (T = t → Ev { w with tmps := i } (withTemp v (anyCastRefAt t)) a) ∧
        (T ≠ t → Ex { w with tmps := i } (withTemp v (anyCastRefAt t))) := by
      intro j hj
      obtain ⟨v, h1, h2, h3, h4⟩ := getView_gives (w := { w with tmps := j }) (hw.le hj) hr (h.le j) hs
      refine ⟨v, h1, fun i hi => ?_⟩
      have hw' := (hw.le hj).le hi
      have := anyCastRefAt_res (t := t) (hw'.push v) (push_same _ _) ((h2.le i).push hw')
        (by rw [h3]; split <;> rfl) (by rw [h4]; exact hm)
      exact ⟨fun he => Ev.withTemp hw' (this.1 he), fun he => Ex.withTemp hw' (this.2 he)⟩
    constructor
    · intro he
      refine Ev.bind (getRef_ev hr) fun j hj => ?_
      rw [if_pos hs]
      obtain ⟨v, h1, h2⟩ := key j hj
      exact Ev.bind h1 fun i hi => (h2 i hi).1 he
    · intro he
      refine Ex.bind (getRef_ev hr) fun j hj => ?_
      rw [if_pos hs]
      obtain ⟨v, h1, h2⟩ := key j hj
      exact Ex.bind h1 fun i hi => (h2 i hi).2 he
  | false =>
    constructor
    · intro he
      refine Ev.bind (getRef_ev hr) fun j hj => ?_
      rw [if_neg (by simp [hs])]
      exact Ev.withTemp (hw.le hj) ((anyCastRefAt_res ((hw.le hj).push o) (push_same _ _) ((h.le j).push (hw.le hj)) hs hm).1 he)
    · intro he
      refine Ex.bind (getRef_ev hr) fun j hj => ?_
      rw [if_neg (by simp [hs])]
      exact Ex.withTemp (hw.le hj) ((anyCastRefAt_res ((hw.le hj).push o) (push_same _ _) ((h.le j).push (hw.le hj)) hs hm).2 he)

/-! ### meaning, null or not -/

/-- The pointer or reference object `o` has target `tg`. -/
def Means (w : PW) (o : RefObj) (tg : Option (Nat × Addr)) (l : Option Nat) : Prop :=
  match tg with
  | some (T, a) => Den w o T a l
  | none => IsNull o

theorem Means.push {x : RefObj} {tg} (hw : Fresh w) (h : Means w o tg l) : Means (push w x) o tg l := by
  cases tg with
  | none => exact h
  | some p => exact Den.push hw h

theorem Means.le {tg} (h : Means w o tg l) (j : Nat) : Means { w with tmps := j } o tg l := by
  cases tg with
  | none => exact h
  | some p => exact Den.le h j

theorem Means.val {tg} (h : Means w o tg l) : o.val = tg.map (·.2) := by
  cases tg with
  | none => exact IsNull.val h
  | some p => exact Den.val h

theorem means_td {tg} (hw : Fresh w) (hr : w.refs r = some o) (h : Means w o tg l) (hm : Mem.HasDesc o.ms) :
    Ev w (typeDescriptor r) (tg.map (·.1)) := by
  cases tg with
  | none => exact typeDescriptor_null hr h
  | some p => exact typeDescriptor_ev hw hr h hm

theorem ptrEqAt_ev {r' : RId} {o' : RefObj} {tg tg' l'} (hw : Fresh w) (hr : w.refs r = some o) (hr' : w.refs r' = some o')
    (h : Means w o tg l) (h' : Means w o' tg' l') (hm : Mem.HasDesc o.ms) (hm' : Mem.HasDesc o'.ms) :
    Ev w (ptrEqAt r r') (decide (tg = tg')) := by
  refine Ev.bind (Ev.bind (getRef_ev hr) fun _ _ => Ev.pure _ _) fun j hj => ?_
  refine Ev.bind (Ev.bind (getRef_ev (w := { w with tmps := j }) hr') fun _ _ => Ev.pure _ _) fun i hi => ?_
  rw [h.val, h'.val]
  have hw' := (hw.le hj).le hi
  by_cases he : tg.map (·.2) = tg'.map (·.2)
  · rw [if_pos he]
    refine Ev.bind (means_td (w := { w with tmps := i }) hw' hr (h.le i) hm) fun i2 hi2 => ?_
    refine Ev.bind (means_td (w := { w with tmps := i2 }) (hw'.le hi2) hr' (h'.le i2) hm') fun i3 _ => ?_
    have : (tg.map (·.1) == tg'.map (·.1)) = decide (tg = tg') := by
      rw [Bool.eq_iff_iff, beq_iff_eq, decide_eq_true_iff]
      cases tg <;> cases tg' <;> simp_all [Prod.ext_iff]
    rw [this]
    exact Ev.pure _ _
  · rw [if_neg he]
    have : decide (tg = tg') = false := by
      rw [decide_eq_false_iff_not]; rintro rfl; exact he rfl
    rw [this]
    exact Ev.pure _ _

theorem constPtr_means {tg} (hw : Fresh w) (hr : w.refs r = some o) (h : Means w o tg l) (hs : o.kind.isStateful = false) :
    ∃ c, Ev w (constPtr r) c ∧ Means w c tg l ∧ c.kind = .constPolyPtr ∧ c.ms = o.ms := by
  cases tg with
  | none => obtain ⟨c, h1, h2, h3⟩ := constPtr_null hw hr h; exact ⟨c, h1, h2, h3⟩
  | some p => obtain ⟨c, h1, h2, h3⟩ := constPtr_gives hw hr h hs; exact ⟨c, h1, h2, h3⟩

theorem Means.unpush {x : RefObj} {tg} (h : Means (Poly.push w x) o tg l) : Means w o tg l := by
  cases tg with
  | none => exact h
  | some p => exact Den.unpush h

theorem ptrEq_ev {r' : RId} {o' : RefObj} {tg tg' l'} (hw : Fresh w) (hr : w.refs r = some o) (hr' : w.refs r' = some o')
    (h : Means w o tg l) (h' : Means w o' tg' l') (hm : Mem.HasDesc o.ms) (hm' : Mem.HasDesc o'.ms)
    (hp : o.kind.isPtr = true) (hp' : o'.kind.isPtr = true) : Ev w (ptrEq r r') (decide (tg = tg')) := by
  have hs : o.kind.isStateful = false := by cases hk : o.kind <;> rw [hk] at hp <;> first | rfl | cases hp
  have hs' : o'.kind.isStateful = false := by cases hk : o'.kind <;> rw [hk] at hp' <;> first | rfl | cases hp'
  refine Ev.bind (getRef_ev hr) fun j hj => Ev.bind (getRef_ev (w := { w with tmps := j }) hr') fun i hi => ?_
  have hw0 := (hw.le hj).le hi
  refine Ev.withTemp hw0 ?_
  have hw1 := hw0.push o
  refine Ev.withTemp hw1 ?_
  have hw2 := hw1.push o'
  have H : Means _ o tg l := ((h.le i).push (x := o) hw0).push (x := o') hw1
  have H' : Means _ o' tg' l' := ((h'.le i).push (x := o) hw0).push (x := o') hw1
  have hx := push_other (o := o') hw1 (push_same { w with tmps := i } o)
  have hy := push_same (push { w with tmps := i } o) o'
  split
  · exact ptrEqAt_ev hw2 hx hy H H' hm hm'
  split
  · obtain ⟨c, h1, h2, h3, h4⟩ := constPtr_means hw2 hx H hs
    refine Ev.bind h1 fun i1 hi1 => Ev.withTemp (hw2.le hi1) (Ev.withTemp ((hw2.le hi1).push c) ?_)
    refine ptrEqAt_ev (((hw2.le hi1).push c).push o') (push_other ((hw2.le hi1).push c) (push_same _ _)) (push_same _ _)
      (((h2.le i1).push (hw2.le hi1)).push ((hw2.le hi1).push c))
      (((H'.le i1).push (hw2.le hi1)).push ((hw2.le hi1).push c)) (by rw [h4]; exact hm) hm'
  · obtain ⟨c, h1, h2, h3, h4⟩ := constPtr_means hw2 hy H' hs'
    refine Ev.bind h1 fun i1 hi1 => Ev.withTemp (hw2.le hi1) (Ev.withTemp ((hw2.le hi1).push c) ?_)
    have := ptrEqAt_ev (((hw2.le hi1).push c).push o) (push_other ((hw2.le hi1).push c) (push_same _ _)) (push_same _ _)
      (((h2.le i1).push (hw2.le hi1)).push ((hw2.le hi1).push c))
      (((H.le i1).push (hw2.le hi1)).push ((hw2.le hi1).push c)) (by rw [h4]; exact hm') hm
    have e : decide (tg = tg') = decide (tg' = tg) := by rw [decide_eq_decide]; exact eq_comm
    rw [e]; exact this

end AnyAny.Poly
