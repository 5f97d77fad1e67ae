import Verif.Spec.PolyHist
import Verif.Lemmas.AnyMemMono
namespace AnyAny.Poly
open AnyAny.TypeList
open AnyAny.Mem (Method Cfg Ptr VtPtr World AnySt Obj upd content addrOf WF VtOk numberOfFirst_getElem)

variable {cfg : Cfg}

@[simp] theorem pbind_apply {α β} (m : PM α) (f : α → PM β) (w : PW) :
    (m >>= f) w = match m w with
      | .ok a w' => f a w'
      | .exn w' => .exn w'
      | .ub => .ub
      | .term => .term := rfl
@[simp] theorem ppure_apply {α} (a : α) (w : PW) : (pure a : PM α) w = .ok a w := rfl

/-- `m` only looks: it returns `a` and leaves everything as it was (except the count of temporaries). -/
def Ev {α} (w : PW) (m : PM α) (a : α) : Prop := ∃ k, w.tmps ≤ k ∧ m w = .ok a { w with tmps := k }

theorem Ev.pure {α} (w : PW) (a : α) : Ev w (Pure.pure a : PM α) a := ⟨w.tmps, Nat.le_refl _, rfl⟩

theorem Ev.bind {α β} {w : PW} {m : PM α} {f : α → PM β} {a : α} {b : β} (h : Ev w m a)
    (hf : ∀ k, w.tmps ≤ k → Ev { w with tmps := k } (f a) b) : Ev w (m >>= f) b := by
  obtain ⟨k, hk, h⟩ := h
  obtain ⟨j, hj, h'⟩ := hf k hk
  refine ⟨j, Nat.le_trans hk hj, ?_⟩
  rw [pbind_apply, h]; exact h'

theorem Ev.unique {α} {w : PW} {m : PM α} {a b : α} (h : Ev w m a) (h' : Ev w m b) : a = b := by
  obtain ⟨_, _, h⟩ := h
  obtain ⟨_, _, h'⟩ := h'
  rw [h] at h'; cases h'; rfl

/-- Temporaries not yet created do not exist. -/
def Fresh (w : PW) : Prop := ∀ n, w.tmps ≤ n → w.refs (.tmp n) = none

theorem Fresh.le {w : PW} (h : Fresh w) {k : Nat} (hk : w.tmps ≤ k) : Fresh { w with tmps := k } :=
  fun n hn => h n (Nat.le_trans hk hn)

@[simp] theorem updR_same (f : RId → Option RefObj) (k : RId) (v) : updR f k v k = v := by simp [updR]
theorem updR_other (f : RId → Option RefObj) {k x : RId} (v) (h : x ≠ k) : updR f k v x = f x := by simp [updR, h]

/-- `w` with the temporary `o`. -/
def push (w : PW) (o : RefObj) : PW := { w with refs := updR w.refs (.tmp w.tmps) (some o), tmps := w.tmps + 1 }

theorem Fresh.push {w : PW} (h : Fresh w) (o : RefObj) : Fresh (push w o) := by
  intro n hn
  have hn : w.tmps + 1 ≤ n := hn
  show updR _ _ _ _ = _
  rw [updR_other _ _ (by intro h; injection h; omega)]
  exact h n (by omega)

theorem Ev.withTemp {α} {w : PW} {o : RefObj} {f : RId → PM α} {a : α} (hw : Fresh w)
    (h : Ev (push w o) (f (.tmp w.tmps)) a) : Ev w (withTemp o f) a := by
  obtain ⟨k, hk, h⟩ := h
  refine ⟨k, Nat.le_trans (Nat.le_succ _) hk, ?_⟩
  have h0 : f (.tmp w.tmps) { w with refs := updR w.refs (.tmp w.tmps) (some o), tmps := w.tmps + 1 } =
    .ok a { push w o with tmps := k } := h
  have hr : updR (updR w.refs (.tmp w.tmps) (some o)) (.tmp w.tmps) none = w.refs := by
    funext x
    simp only [updR]
    split
    · subst_vars; exact (hw _ (Nat.le_refl _)).symm
    · rfl
  simp only [Poly.withTemp, h0]
  simp only [push, hr]

@[simp] theorem push_same (w : PW) (o : RefObj) : (push w o).refs (.tmp w.tmps) = some o := by simp [push]
@[simp] theorem push_var (w : PW) (o : RefObj) (n : Nat) : (push w o).refs (.var n) = w.refs (.var n) := by
  simp [push, updR]
theorem push_other {w : PW} {o : RefObj} {r : RId} {x : RefObj} (hw : Fresh w) (h : w.refs r = some x) :
    (push w o).refs r = some x := by
  unfold push
  simp only []
  rw [updR_other]; exact h
  rintro rfl; rw [hw _ (Nat.le_refl _)] at h; cases h

theorem getRef_ev {w : PW} {r : RId} {o : RefObj} (h : w.refs r = some o) : Ev w (getRef r) o :=
  ⟨w.tmps, Nat.le_refl _, by simp [getRef, h]⟩

/-! ### vtable pointers -/

/-- Through `p` one reads entries for exactly the methods `ms`, all for type `T`. -/
def Points (w : PW) (p : VP) (ms : List Method) (T : Nat) : Prop :=
  ∀ i m, ms[i]? = some m → ∀ k, entryAt p i { w with tmps := k } = .ok (some ⟨m, T⟩) { w with tmps := k }

theorem Points.le {w : PW} {p ms T} (h : Points w p ms T) (k : Nat) : Points { w with tmps := k } p ms T :=
  fun i m hi j => h i m hi j

theorem Points.ev {w : PW} {p : VP} {ms : List Method} {T i : Nat} {m : Method} (h : Points w p ms T)
    (hi : ms[i]? = some m) : Ev w (entryAt p i) (some ⟨m, T⟩) := ⟨w.tmps, Nat.le_refl _, h i m hi w.tmps⟩

theorem Points.push {w : PW} {p : VP} {ms : List Method} {T : Nat} {o : RefObj} (hw : Fresh w)
    (h : Points w p ms T) : Points (push w o) p ms T := by
  intro i m hi k
  have := h i m hi k
  cases p with
  | static v =>
    simp only [entryAt] at this ⊢
    cases hv : v.table[v.off + i]? with
    | none => rw [hv] at this; cases this
    | some x => rw [hv] at this; simp only [PRes.ok.injEq] at this ⊢; exact ⟨this.1, trivial⟩
  | inRef r off =>
    cases hr : w.refs r with
    | none => simp [entryAt, hr] at this
    | some x =>
      have h' : (Poly.push w o).refs r = some x := push_other hw hr
      simp only [entryAt, hr, h'] at this ⊢
      obtain ⟨k', ms', view, val⟩ := x
      cases view with
      | ptr q => simp at this
      | value es =>
        simp only [] at this ⊢
        cases he : es[off + i]? with
        | none => rw [he] at this; cases this
        | some e => rw [he] at this; simp only [PRes.ok.injEq] at this ⊢; exact ⟨this.1, trivial⟩

theorem Points.static {w : PW} {v : VtPtr} {ms : List Method} (h : VtOk ms v) : Points w (.static v) ms v.ty := by
  intro i m hi k
  obtain ⟨t, ht⟩ := h
  have : v.table[v.off + i]? = some m := by
    rw [← List.getElem?_drop, ← ht, List.getElem?_append_left]
    · exact hi
    · exact (List.getElem?_eq_some_iff.1 hi).1
  simp [entryAt, this]

theorem Points.inRef {w : PW} {r : RId} {o : RefObj} {ms : List Method} {T : Nat} (h : w.refs r = some o)
    (hv : o.view = .value (ms.map fun m => some ⟨m, T⟩)) : Points w (.inRef r 0) ms T := by
  intro i m hi k
  obtain ⟨k', ms', view, val⟩ := o
  simp only at hv
  subst hv
  simp [entryAt, h, hi]

/-- The pointer `p` refers into a static table or into a view's lender. -/
def Lent (p : VP) (l : Option Nat) : Prop := ∀ r off, p = .inRef r off → ∃ n, r = .var n ∧ l = some n

theorem subtable_ev {w : PW} {p : VP} {ms from' : List Method} {T : Nat} (h : Points w p from' T)
    (hi : ms <:+: from') : ∃ p', Ev w (subtable ms from' p) p' ∧ Points w p' ms T ∧
      (∀ l, Lent p l → Lent p' l) := by
  unfold subtable
  by_cases he : ms = from'
  · subst he; rw [if_pos rfl]; exact ⟨p, Ev.pure w p, h, fun _ h => h⟩
  · rw [if_neg he]
    have h1 : hasSubsequence ms from' = true := (hasSubsequence_iff _ _).2 ((occurs_infix _ _).2 hi)
    cases hf : findSubsequence ms from' with
    | none => simp [hasSubsequence, hf] at h1
    | some i =>
      obtain ⟨bef, aft, hbef, hlen⟩ := ((findSubsequence_some _ _ _).1 hf).1
      have hget : ∀ j m, ms[j]? = some m → from'[i + j]? = some m := by
        intro j m hj
        have hjl := (List.getElem?_eq_some_iff.1 hj).1
        rw [hbef, ← hlen, List.append_assoc, List.getElem?_append_right (by omega)]
        rw [Nat.add_sub_cancel_left, List.getElem?_append_left hjl]; exact hj
      have hne : ∃ m, from'[i]? = some m := by
        cases ms with
        | cons m ms => exact ⟨m, by simpa using hget 0 m rfl⟩
        | nil =>
          have : i = 0 := by
            unfold findSubsequence at hf
            split at hf
            · simpa using hf.symm
            · cases hh : from' with
              | nil => simp_all
              | cons a t =>
                simp only [hh, findSubsequenceImpl] at hf
                split at hf
                · split at hf
                  · simpa using hf.symm
                  · cases hf
                · simp only [startsWith, if_true] at hf; simpa using hf.symm
          subst this
          cases hh : from' with
          | nil => exact absurd hh.symm he
          | cons a t => exact ⟨a, rfl⟩
      obtain ⟨m0, hm0⟩ := hne
      have hent : ∀ {P : VP → VP}, (∀ j, ∀ k, ∀ e, entryAt p (i + j) { w with tmps := k } = .ok e { w with tmps := k } →
            entryAt (P p) j { w with tmps := k } = .ok e { w with tmps := k }) → Points w (P p) ms T := by
        intro P hP j m hj k
        exact hP j k _ (h _ _ (hget j m hj) k)
      cases p with
      | static v =>
        refine ⟨.static { v with off := v.off + i }, ?_, ?_, ?_⟩
        · exact Ev.bind (h.ev hm0) fun k _ => Ev.pure _ _
        · refine hent (P := fun _ => .static { v with off := v.off + i }) ?_
          intro j k e he
          simp only [entryAt, Nat.add_assoc] at he ⊢; exact he
        · intro l _ r off hr; cases hr
      | inRef r off =>
        refine ⟨.inRef r (off + i), ?_, ?_, ?_⟩
        · exact Ev.bind (h.ev hm0) fun k _ => Ev.pure _ _
        · refine hent (P := fun _ => .inRef r (off + i)) ?_
          intro j k e he
          simp only [entryAt, Nat.add_assoc] at he ⊢; exact he
        · intro l hl r' off' hr; cases hr; exact hl r off rfl

theorem loadTable_ev {w : PW} {p : VP} {ms : List Method} {T : Nat} (h : Points w p ms T) (n : Nat)
    (hn : n ≤ ms.length) : Ev w (loadTable p n) ((ms.take n).map fun m => some ⟨m, T⟩) := by
  induction n generalizing w with
  | zero => exact Ev.pure _ _
  | succ n ih =>
    unfold loadTable
    have hlt : n < ms.length := by omega
    refine Ev.bind (ih h (by omega)) fun k _ => Ev.bind ((h.le k).ev (List.getElem?_eq_getElem hlt)) fun j _ => ?_
    rw [List.take_succ_eq_append_getElem hlt, List.map_append]
    exact Ev.pure _ _

theorem loadAll_ev {w : PW} {p : VP} {ms : List Method} {T : Nat} (h : Points w p ms T) :
    Ev w (loadTable p ms.length) (ms.map fun m => some ⟨m, T⟩) := by
  have := loadTable_ev h ms.length (Nat.le_refl _)
  rwa [List.take_length] at this

theorem gather_ev {w : PW} {p : VP} {from' : List Method} {T : Nat} (h : Points w p from' T) (ms : List Method)
    (hm : ∀ m ∈ ms, m ∈ from') : Ev w (gather p from' ms) (ms.map fun m => some ⟨m, T⟩) := by
  induction ms generalizing w with
  | nil => exact Ev.pure _ _
  | cons m ms ih =>
    unfold gather
    cases hn : numberOfFirst m from' with
    | none => exact absurd (hm m (by simp)) ((numberOfImpl_none m from' 0).1 hn)
    | some i =>
      exact Ev.bind (h.ev (numberOfFirst_getElem hn)) fun k _ =>
        Ev.bind (ih (h.le k) fun x hx => hm x (by simp [hx])) fun j _ => Ev.pure _ _

/-! ### meaning of a reference object -/

/-- Stateful references contain their vtable, poly references of one method too, others a pointer. -/
def viewVal (k : Kind) (ms : List Method) : Bool := k.isStateful || byValue ms

/-- The reference object `o` refers to the object of type `T` at `a`; `l`: it borrows the vtable of the
stateful reference `l`. -/
structure Den (w : PW) (o : RefObj) (T : Nat) (a : Addr) (l : Option Nat) : Prop where
  val : o.val = some a
  byVal : viewVal o.kind o.ms = true → o.view = .value (o.ms.map fun m => some ⟨m, T⟩)
  byPtr : viewVal o.kind o.ms = false → ∃ p, o.view = .ptr (some p) ∧ Points w p o.ms T ∧ (o.ms ≠ [] → Lent p l)

/-- The null pointer `o`. -/
structure IsNull (o : RefObj) : Prop where
  ptr : o.kind.isPtr = true
  val : o.val = none
  byVal : byValue o.ms = true → ∃ e, o.view = .value [e]
  byPtr : byValue o.ms = false → ∃ p, o.view = .ptr p

theorem Den.push {w : PW} {o x : RefObj} {T a l} (hw : Fresh w) (h : Den w o T a l) : Den (push w x) o T a l :=
  ⟨h.val, h.byVal, fun hb => let ⟨p, h1, h2, h3⟩ := h.byPtr hb; ⟨p, h1, h2.push hw, h3⟩⟩

theorem Den.le {w : PW} {o : RefObj} {T a l} (h : Den w o T a l) (k : Nat) : Den { w with tmps := k } o T a l :=
  ⟨h.val, h.byVal, fun hb => let ⟨p, h1, h2, h3⟩ := h.byPtr hb; ⟨p, h1, h2.le k, h3⟩⟩

theorem Den.kind {w : PW} {o : RefObj} {T a l} (h : Den w o T a l) {k : Kind} (hk : k.isStateful = o.kind.isStateful) :
    Den w { o with kind := k } T a l :=
  ⟨h.val, by simpa only [viewVal, hk] using h.byVal, by simpa only [viewVal, hk] using h.byPtr⟩

theorem vtablePtr_ev {w : PW} {r : RId} {o : RefObj} {T a l} (hr : w.refs r = some o) (h : Den w o T a l) :
    ∃ p, Ev w (vtablePtr r) (some p) ∧ Points w p o.ms T ∧ (viewVal o.kind o.ms = false → o.ms ≠ [] → Lent p l) := by
  cases hv : viewVal o.kind o.ms with
  | true =>
    have hview := h.byVal hv
    refine ⟨.inRef r 0, ?_, Points.inRef hr hview, fun h => by cases h⟩
    refine Ev.bind (getRef_ev hr) fun k _ => ?_
    rw [hview]; exact Ev.pure _ _
  | false =>
    obtain ⟨p, hview, h1, h2⟩ := h.byPtr hv
    refine ⟨p, ?_, h1, fun _ => h2⟩
    refine Ev.bind (getRef_ev hr) fun k _ => ?_
    rw [hview]; exact Ev.pure _ _

theorem mkView_ev {w : PW} {p : VP} {ms : List Method} {T : Nat} (h : Points w p ms T) :
    Ev w (mkView ms (some p)) (if byValue ms then .value (ms.map fun m => some ⟨m, T⟩) else .ptr (some p)) := by
  unfold mkView
  by_cases hb : byValue ms = true
  · rw [if_pos hb, if_pos hb]
    have hl : ms.length = 1 := by simpa [byValue] using hb
    have := loadAll_ev h
    rw [hl] at this
    exact Ev.bind this fun k _ => Ev.pure _ _
  · rw [if_neg hb, if_neg hb]; exact Ev.pure _ _

/-- The object made from a vtable pointer and an address. -/
theorem den_mk {w : PW} {p : VP} {ms : List Method} {T : Nat} {a : Addr} {l : Option Nat} {k : Kind}
    (hk : k.isStateful = false) (h : Points w p ms T) (hl : byValue ms = false → ms ≠ [] → Lent p l) :
    Den w ⟨k, ms, if byValue ms then .value (ms.map fun m => some ⟨m, T⟩) else .ptr (some p), some a⟩ T a l := by
  refine ⟨rfl, ?_, ?_⟩
  · simp only [viewVal, hk, Bool.false_or]; intro hb; rw [if_pos hb]
  · simp only [viewVal, hk, Bool.false_or]; intro hb
    rw [if_neg (by simp [hb])]
    exact ⟨p, rfl, h, hl hb⟩

theorem den_stateful {w : PW} {ms : List Method} {T : Nat} {a : Addr} {l : Option Nat} {k : Kind}
    (hk : k.isStateful = true) : Den w ⟨k, ms, .value (ms.map fun m => some ⟨m, T⟩), some a⟩ T a l := by
  refine ⟨rfl, fun _ => rfl, ?_⟩
  simp [viewVal, hk]

/-- Nothing refers to a temporary. -/
theorem Den.unpush {w : PW} {o x : RefObj} {T a l} (h : Den (Poly.push w x) o T a l) : Den w o T a l := by
  refine ⟨h.val, h.byVal, fun hb => ?_⟩
  obtain ⟨p, h1, h2, h3⟩ := h.byPtr hb
  refine ⟨p, h1, ?_, h3⟩
  intro i m hi k
  have hne : o.ms ≠ [] := by rintro h0; rw [h0] at hi; cases hi
  have := h2 i m hi k
  cases p with
  | static v =>
    simp only [entryAt] at this ⊢
    cases hv : v.table[v.off + i]? with
    | none => rw [hv] at this; cases this
    | some y => rw [hv] at this; simp only [PRes.ok.injEq] at this ⊢; exact ⟨this.1, trivial⟩
  | inRef r off =>
    obtain ⟨n, rfl, _⟩ := h3 hne r off rfl
    cases hr : w.refs (.var n) with
    | none => simp [entryAt, hr] at this
    | some y =>
      obtain ⟨k', ms', view, val⟩ := y
      simp only [entryAt, push_var, hr] at this ⊢
      cases view with
      | ptr q => simp at this
      | value es =>
        simp only [] at this ⊢
        cases he : es[off + i]? with
        | none => rw [he] at this; cases this
        | some e => rw [he] at this; simp only [PRes.ok.injEq] at this ⊢; exact ⟨this.1, trivial⟩

theorem Den.unle {w : PW} {o : RefObj} {T a l} {k : Nat} (h : Den { w with tmps := k } o T a l) : Den w o T a l :=
  h.le w.tmps

/-! ### conversions -/

/-- `m` makes an object of class `k<ms...>` that refers to the object of type `T` at `a`. -/
def Gives (w : PW) (m : PM RefObj) (k : Kind) (ms : List Method) (T : Nat) (a : Addr) (l : Option Nat) : Prop :=
  ∃ o, Ev w m o ∧ Den w o T a l ∧ o.kind = k ∧ o.ms = ms

theorem Gives.pure {w : PW} {o : RefObj} {T a l} (h : Den w o T a l) : Gives w (Pure.pure o) o.kind o.ms T a l :=
  ⟨o, Ev.pure _ _, h, rfl, rfl⟩

theorem Gives.withTemp {w : PW} {x : RefObj} {f : RId → PM RefObj} {k ms T a l} (hw : Fresh w)
    (h : Gives (push w x) (f (.tmp w.tmps)) k ms T a l) : Gives w (withTemp x f) k ms T a l := by
  obtain ⟨o, h1, h2, h3⟩ := h
  exact ⟨o, Ev.withTemp hw h1, h2.unpush, h3⟩

theorem Gives.bindEv {α} {w : PW} {m : PM α} {f : α → PM RefObj} {x : α} {k ms T a l} (h : Ev w m x)
    (hf : ∀ j, w.tmps ≤ j → Gives { w with tmps := j } (f x) k ms T a l) : Gives w (m >>= f) k ms T a l := by
  obtain ⟨j, hj, h⟩ := h
  obtain ⟨o, ⟨i, hi, h1⟩, h2, h3⟩ := hf j hj
  refine ⟨o, ⟨i, Nat.le_trans hj hi, ?_⟩, h2.unle, h3⟩
  rw [pbind_apply, h]; exact h1

theorem Gives.bind {w : PW} {m : PM RefObj} {f : RefObj → PM RefObj} {k k' ms ms' T T' a a' l l'}
    (h : Gives w m k' ms' T' a' l')
    (hf : ∀ j o, w.tmps ≤ j → Den { w with tmps := j } o T' a' l' → o.kind = k' → o.ms = ms' →
      Gives { w with tmps := j } (f o) k ms T a l) : Gives w (m >>= f) k ms T a l := by
  obtain ⟨o, h1, h2, h3, h4⟩ := h
  exact Gives.bindEv h1 fun j hj => hf j o hj (h2.le j) h3 h4

variable {w : PW} {r : RId} {o : RefObj} {T : Nat} {a : Addr} {l : Option Nat} {ms : List Method} {k : Kind}

theorem infix_byValue {ms ms' : List Method} (h : ms <:+: ms') (hb : byValue ms = false) (hne : ms ≠ []) :
    byValue ms' = false := by
  obtain ⟨x, y, rfl⟩ := h
  simp only [byValue, beq_eq_false_iff_ne, List.length_append] at hb ⊢
  have : ms.length ≠ 0 := by simpa using hne
  omega

theorem convRef_gives (hw : Fresh w) (hr : w.refs r = some o) (h : Den w o T a l) (hs : o.kind.isStateful = false)
    (hk : k.isStateful = false) (hi : ms <:+: o.ms) : Gives w (convRef k ms r) k ms T a l := by
  refine Gives.bindEv (getRef_ev hr) fun j hj => Gives.withTemp (hw.le hj) ?_
  have hw' := hw.le hj
  have h' : Den (push { w with tmps := j } o) o T a l := (h.le j).push hw'
  obtain ⟨p, h1, h2, h3⟩ := vtablePtr_ev (push_same _ _) h'
  refine Gives.bindEv h1 fun i _ => Gives.bindEv (Ev.pure _ _) fun i' _ => ?_
  obtain ⟨p', g1, g2, g3⟩ := subtable_ev (h2.le i') hi
  refine Gives.bindEv g1 fun i2 _ => Gives.bindEv (mkView_ev (g2.le i2)) fun i3 _ => ?_
  refine ⟨_, Ev.pure _ _, ?_, rfl, rfl⟩
  rw [h.val]
  refine den_mk hk (g2.le _) fun hb hne => g3 l (h3 ?_ ?_)
  · simp only [viewVal, hs, Bool.false_or]; exact infix_byValue hi hb hne
  · rintro h0; rw [h0] at hi; exact hne (List.infix_nil.1 hi)

theorem convPtrFrom_gives (hr : w.refs r = some o) (h : Den w o T a l) (hs : o.kind.isStateful = false)
    (hk : k.isStateful = false) (hi : ms <:+: o.ms) : Gives w (convPtrFrom k ms r) k ms T a l := by
  refine Gives.bindEv (getRef_ev hr) fun j hj => ?_
  simp only [h.val]
  obtain ⟨p, h1, h2, h3⟩ := vtablePtr_ev (w := { w with tmps := j }) hr (h.le j)
  refine Gives.bindEv h1 fun i _ => Gives.bindEv (Ev.pure _ _) fun i' _ => ?_
  obtain ⟨p', g1, g2, g3⟩ := subtable_ev (h2.le i') hi
  refine Gives.bindEv g1 fun i2 _ => Gives.bindEv (mkView_ev (g2.le i2)) fun i3 _ => ?_
  refine ⟨_, Ev.pure _ _, ?_, rfl, rfl⟩
  refine den_mk hk (g2.le _) fun hb hne => g3 l (h3 ?_ ?_)
  · simp only [viewVal, hs, Bool.false_or]; exact infix_byValue hi hb hne
  · rintro h0; rw [h0] at hi; exact hne (List.infix_nil.1 hi)

theorem convPtr_gives (hw : Fresh w) (hr : w.refs r = some o) (h : Den w o T a l) (hs : o.kind.isStateful = false)
    (hk : k.isStateful = false) (hi : ms <:+: o.ms) : Gives w (convPtr k ms r) k ms T a l := by
  refine Gives.bindEv (getRef_ev hr) fun j hj => Gives.withTemp (hw.le hj) ?_
  exact convPtrFrom_gives (push_same _ _) ((h.le j).push (hw.le hj)) hs hk hi

theorem blindFrom_gives (hr : w.refs r = some o) (h : Den w o T a l) (hs : o.kind.isStateful = false)
    (hk : k.isStateful = false) : Gives w (blindFrom k r) k o.ms T a l := by
  refine Gives.bindEv (getRef_ev hr) fun j hj => ?_
  obtain ⟨p, h1, h2, h3⟩ := vtablePtr_ev (w := { w with tmps := j }) hr (h.le j)
  refine Gives.bindEv h1 fun i _ => Gives.bindEv (mkView_ev (h2.le i)) fun i3 _ => ?_
  refine ⟨_, Ev.pure _ _, ?_, rfl, rfl⟩
  rw [h.val]
  exact den_mk hk (h2.le _) fun hb hne => h3 (by simp only [viewVal, hs, Bool.false_or]; exact hb) hne

theorem constPtr_gives (hw : Fresh w) (hr : w.refs r = some o) (h : Den w o T a l) (hs : o.kind.isStateful = false) :
    Gives w (constPtr r) .constPolyPtr o.ms T a l := by
  refine Gives.bindEv (getRef_ev hr) fun j hj => Gives.withTemp (hw.le hj) ?_
  exact blindFrom_gives (push_same _ _) ((h.le j).push (hw.le hj)) hs rfl

theorem constPointerCast_gives (hw : Fresh w) (hr : w.refs r = some o) (h : Den w o T a l) (hs : o.kind.isStateful = false) :
    Gives w (constPointerCast r) .polyPtr o.ms T a l := by
  refine Gives.bindEv (getRef_ev hr) fun j hj => Gives.withTemp (hw.le hj) ?_
  exact blindFrom_gives (push_same _ _) ((h.le j).push (hw.le hj)) hs rfl

theorem addrOfRef_gives (hr : w.refs r = some o) (h : Den w o T a l) (hs : o.kind.isStateful = false) :
    Gives w (addrOfRef r) (if o.kind.isConst then .constPolyPtr else .polyPtr) o.ms T a l := by
  refine Gives.bindEv (getRef_ev hr) fun j hj => ?_
  exact blindFrom_gives (w := { w with tmps := j }) hr (h.le j) hs (by split <;> rfl)

theorem constPtrConv_gives (hw : Fresh w) (hr : w.refs r = some o) (h : Den w o T a l) (hs : o.kind.isStateful = false)
    (hi : ms <:+: o.ms) : Gives w (constPtrConv ms r) .constPolyPtr ms T a l := by
  refine Gives.bindEv (getRef_ev hr) fun j hj => Gives.withTemp (hw.le hj) ?_
  have hw' := (hw.le hj).push o
  refine Gives.bind (constPtr_gives hw' (push_same _ _) ((h.le j).push (hw.le hj)) hs) fun i c hi' hc hck hcm => ?_
  refine Gives.withTemp (hw'.le hi') ?_
  exact convPtrFrom_gives (push_same _ _) (hc.push (hw'.le hi')) (by rw [hck]; rfl) rfl (by rw [hcm]; exact hi)

theorem derefPtr_gives (hr : w.refs r = some o) (h : Den w o T a l) (hp : o.kind.isPtr = true) :
    Gives w (derefPtr r) (if o.kind.isConst then .constPolyRef else .polyRef) o.ms T a l := by
  have hs : o.kind.isStateful = false := by cases hk : o.kind <;> rw [hk] at hp <;> first | rfl | cases hp
  refine Gives.bindEv (getRef_ev hr) fun j hj => ?_
  by_cases hc : o.kind.isConst = true
  · simp only [hc, if_true]
    exact ⟨_, Ev.pure _ _, (h.le j).kind (k := .constPolyRef) (by rw [hs]; rfl), rfl, rfl⟩
  · simp only [hc, h.val, Option.isNone_some, if_false, Bool.false_eq_true]
    have h' := (h.le j).kind (k := .polyRef) (by rw [hs]; rfl)
    rw [h.val] at h'
    exact ⟨_, Ev.pure _ _, h', rfl, rfl⟩

theorem statefulOfPoly_gives (hw : Fresh w) (hr : w.refs r = some o) (h : Den w o T a l) (hk : k.isStateful = true) (l') :
    Gives w (statefulOfPoly k r) k o.ms T a l' := by
  refine Gives.bindEv (getRef_ev hr) fun j hj => Gives.withTemp (hw.le hj) ?_
  obtain ⟨p, h1, h2, h3⟩ := vtablePtr_ev (push_same _ _) ((h.le j).push (x := o) (hw.le hj))
  refine Gives.bindEv h1 fun i _ => Gives.bindEv (Ev.pure _ _) fun i' _ => ?_
  refine Gives.bindEv (loadAll_ev (h2.le i')) fun i2 _ => ?_
  rw [h.val]
  exact ⟨_, Ev.pure _ _, den_stateful hk, rfl, rfl⟩

theorem gatherPoly_gives (hw : Fresh w) (hr : w.refs r = some o) (h : Den w o T a l) (hm : ∀ m ∈ ms, m ∈ o.ms) (l') :
    Gives w (gatherPoly ms r) .ref ms T a l' := by
  refine Gives.bindEv (getRef_ev hr) fun j hj => Gives.withTemp (hw.le hj) ?_
  obtain ⟨p, h1, h2, h3⟩ := vtablePtr_ev (push_same _ _) ((h.le j).push (x := o) (hw.le hj))
  refine Gives.bindEv h1 fun i _ => Gives.bindEv (Ev.pure _ _) fun i' _ => ?_
  refine Gives.bindEv (gather_ev (h2.le i') ms hm) fun i2 _ => ?_
  rw [h.val]
  exact ⟨_, Ev.pure _ _, den_stateful rfl, rfl, rfl⟩

theorem gatherStateful_gives (hr : w.refs r = some o) (h : Den w o T a l) (hs : o.kind.isStateful = true)
    (hk : k.isStateful = true) (hm : ∀ m ∈ ms, m ∈ o.ms) (l') : Gives w (gatherStateful k ms r) k ms T a l' := by
  refine Gives.bindEv (getRef_ev hr) fun j hj => ?_
  have hv := h.byVal (by simp [viewVal, hs])
  refine Gives.bindEv (gather_ev (Points.inRef (w := { w with tmps := j }) hr hv) ms hm) fun i2 _ => ?_
  rw [h.val]
  exact ⟨_, Ev.pure _ _, den_stateful hk, rfl, rfl⟩

theorem crefOfRef_gives (hr : w.refs r = some o) (h : Den w o T a l) (hs : o.kind.isStateful = true) (l') :
    Gives w (crefOfRef r) .cref o.ms T a l' := by
  refine Gives.bindEv (getRef_ev hr) fun j hj => ?_
  refine ⟨_, Ev.pure _ _, ?_, rfl, rfl⟩
  have hv := h.byVal (by simp [viewVal, hs])
  exact ⟨h.val, fun _ => hv, by simp [viewVal, Kind.isStateful]⟩

theorem crefOfPolyRef_gives (hw : Fresh w) (hr : w.refs r = some o) (h : Den w o T a l) (hs : o.kind.isStateful = false) (l') :
    Gives w (crefOfPolyRef r) .cref o.ms T a l' := by
  refine Gives.bindEv (getRef_ev hr) fun j hj => Gives.withTemp (hw.le hj) ?_
  have hw' := (hw.le hj).push o
  refine Gives.bind (convRef_gives hw' (push_same _ _) ((h.le j).push (hw.le hj)) hs (k := .constPolyRef) rfl
    (List.infix_refl o.ms)) fun i c hi hc hck hcm => Gives.withTemp (hw'.le hi) ?_
  have := statefulOfPoly_gives (k := .cref) ((hw'.le hi).push c) (push_same _ _) (hc.push (hw'.le hi)) rfl l'
  rwa [hcm] at this

theorem crefGatherRef_gives (hw : Fresh w) (hr : w.refs r = some o) (h : Den w o T a l) (hs : o.kind.isStateful = true)
    (hm : ∀ m ∈ ms, m ∈ o.ms) (l') : Gives w (crefGatherRef ms r) .cref ms T a l' := by
  refine Gives.bind (crefOfRef_gives hr h hs l) fun i c hi hc hck hcm => Gives.withTemp (hw.le hi) ?_
  exact gatherStateful_gives (push_same _ _) (hc.push (hw.le hi)) (by rw [hck]; rfl) rfl (by rw [hcm]; exact hm) l'

theorem crefGatherPoly_gives (hw : Fresh w) (hr : w.refs r = some o) (h : Den w o T a l)
    (hm : ∀ m ∈ ms, m ∈ o.ms) (l') : Gives w (crefGatherPoly ms r) .cref ms T a l' := by
  refine Gives.bindEv (getRef_ev hr) fun j hj => Gives.withTemp (hw.le hj) ?_
  have hw' := (hw.le hj).push o
  refine Gives.bind (gatherPoly_gives hw' (push_same _ _) ((h.le j).push (hw.le hj)) hm l)
    fun i c hi hc hck hcm => Gives.withTemp (hw'.le hi) ?_
  have := crefOfRef_gives (push_same _ _) (hc.push (x := c) (hw'.le hi)) (by rw [hck]; rfl) l'
  rwa [hcm] at this

theorem crefGatherConst_gives (hw : Fresh w) (hr : w.refs r = some o) (h : Den w o T a l) (hk : o.kind = .constPolyRef)
    (hm : ∀ m ∈ ms, m ∈ o.ms) (l') : Gives w (crefGatherConst ms r) .cref ms T a l' := by
  refine Gives.bindEv (getRef_ev hr) fun j hj => Gives.withTemp (hw.le hj) ?_
  have hw1 := (hw.le hj).push o
  refine Gives.bind (addrOfRef_gives (push_same _ _) ((h.le j).push (hw.le hj)) (by rw [hk]; rfl))
    fun i c hi hc hck hcm => Gives.withTemp (hw1.le hi) ?_
  have hck' : c.kind = .constPolyPtr := by rw [hck, hk]; rfl
  have hw2 := (hw1.le hi).push c
  refine Gives.bind (constPointerCast_gives hw2 (push_same _ _) (hc.push (hw1.le hi)) (by rw [hck']; rfl))
    fun i2 d hi2 hd hdk hdm => Gives.withTemp (hw2.le hi2) ?_
  have hw3 := (hw2.le hi2).push d
  refine Gives.bind (derefPtr_gives (push_same _ _) (hd.push (hw2.le hi2)) (by rw [hdk]; rfl))
    fun i3 e hi3 he hek hem => Gives.withTemp (hw3.le hi3) ?_
  exact crefGatherPoly_gives ((hw3.le hi3).push e) (push_same _ _) (he.push (hw3.le hi3))
    (by rw [hem, hdm, hcm]; exact hm) l'

theorem getView_gives (hw : Fresh w) {n : Nat} (hr : w.refs (.var n) = some o) (h : Den w o T a l) (hs : o.kind.isStateful = true) :
    Gives w (getView (.var n)) (if o.kind.isConst then .constPolyRef else .polyRef) o.ms T a (some n) := by
  refine Gives.bindEv (getRef_ev hr) fun j hj => ?_
  have hv := h.byVal (by simp [viewVal, hs])
  have hp := Points.inRef (w := { w with tmps := j }) hr hv
  refine Gives.bindEv (mkView_ev hp) fun i2 hi2 => Gives.withTemp ((hw.le hj).le hi2) ?_
  have hkk : (if o.kind.isConst = true then Kind.constPolyPtr else .polyPtr).isStateful = false := by split <;> rfl
  have hd : Den { w with tmps := i2 } ⟨if o.kind.isConst then .constPolyPtr else .polyPtr, o.ms,
      if byValue o.ms then .value (o.ms.map fun m => some ⟨m, T⟩) else .ptr (some (.inRef (.var n) 0)), some a⟩ T a (some n) :=
    den_mk hkk (hp.le i2) fun _ _ r off hr => by cases hr; exact ⟨n, rfl, rfl⟩
  have hw' : Fresh { w with tmps := i2 } := (hw.le hj).le hi2
  rw [h.val]
  have := derefPtr_gives (push_same _ _) (hd.push hw') (by show Kind.isPtr _ = true; split <;> rfl)
  have hkc : (if o.kind.isConst = true then Kind.constPolyPtr else .polyPtr).isConst = o.kind.isConst := by
    split <;> simp_all [Kind.isConst]
  simpa only [hkc] using this

/-- C34 and C31 in one: converting keeps the target. -/
theorem convert_gives (hw : Fresh w) {s : SRef} (hr : w.refs r = some o) (h : Den w o T a l) (hk : o.kind = s.kind)
    (hms : o.ms = s.ms) (hc : Converts k ms s) :
    Gives w (convert k ms r) k ms T a (if k.isStateful then none else l) := by
  refine Gives.bindEv (getRef_ev hr) fun j hj => ?_
  have hw' := hw.le hj
  have h' := h.le j
  have hr' : ({ w with tmps := j } : PW).refs r = some o := hr
  unfold Converts at hc
  rw [← hk, ← hms] at hc
  have copy : ∀ {k'}, o.kind = k' → ms = o.ms → Gives { w with tmps := j } (Pure.pure o : PM RefObj) k' ms T a l :=
    fun h1 h2 => ⟨o, Ev.pure _ _, h', h1, h2.symm⟩
  have copyS : ∀ {k'}, o.kind = k' → k'.isStateful = true → ms = o.ms →
      Gives { w with tmps := j } (Pure.pure o : PM RefObj) k' ms T a none := by
    intro k' h1 h3 h2
    subst h1
    refine ⟨o, Ev.pure _ _, ⟨h.val, h.byVal, ?_⟩, rfl, h2.symm⟩
    simp [viewVal, h3]
  have nil : ∀ {k'}, o.kind = k' → k'.isStateful = false → o.kind.isStateful = false := fun h1 h2 => by rw [h1]; exact h2
  have st : ∀ {k'}, o.kind = k' → k'.isStateful = true → o.kind.isStateful = true := fun h1 h2 => by rw [h1]; exact h2
  cases k with
  | polyRef =>
    cases hok : o.kind <;> simp only [hok] at hc ⊢
    · by_cases he : ms = o.ms
      · rw [if_pos he]; exact copy hok he
      · rw [if_neg he]; exact convRef_gives hw' hr' h' (nil hok rfl) rfl hc
  | constPolyRef =>
    cases hok : o.kind <;> simp only [hok] at hc ⊢
    · exact convRef_gives hw' hr' h' (nil hok rfl) rfl hc
    · by_cases he : ms = o.ms
      · rw [if_pos he]; exact copy hok he
      · rw [if_neg he]; exact convRef_gives hw' hr' h' (nil hok rfl) rfl hc
  | polyPtr =>
    cases hok : o.kind <;> simp only [hok] at hc ⊢
    · by_cases he : ms = o.ms
      · rw [if_pos he]; exact copy hok he
      · rw [if_neg he]; exact convPtr_gives hw' hr' h' (nil hok rfl) rfl hc
  | constPolyPtr =>
    cases hok : o.kind <;> simp only [hok] at hc ⊢
    · by_cases he : ms = o.ms
      · rw [if_pos he, he]; exact constPtr_gives hw' hr' h' (nil hok rfl)
      · rw [if_neg he]; exact constPtrConv_gives hw' hr' h' (nil hok rfl) hc
    · by_cases he : ms = o.ms
      · rw [if_pos he]; exact copy hok he
      · rw [if_neg he]; exact convPtr_gives hw' hr' h' (nil hok rfl) rfl hc
  | ref =>
    cases hok : o.kind <;> simp only [hok] at hc ⊢
    · by_cases he : ms = o.ms
      · rw [if_pos he, he]; exact statefulOfPoly_gives hw' hr' h' rfl _
      · rw [if_neg he]; exact gatherPoly_gives hw' hr' h' hc _
    · by_cases he : ms = o.ms
      · rw [if_pos he]; exact copyS hok rfl he
      · rw [if_neg he]; exact gatherStateful_gives hr' h' (st hok rfl) rfl hc _
  | cref =>
    cases hok : o.kind <;> simp only [hok] at hc ⊢
    · by_cases he : ms = o.ms
      · rw [if_pos he, he]; exact crefOfPolyRef_gives hw' hr' h' (nil hok rfl) _
      · rw [if_neg he]; exact crefGatherPoly_gives hw' hr' h' hc _
    · by_cases he : ms = o.ms
      · rw [if_pos he, he]; exact statefulOfPoly_gives hw' hr' h' rfl _
      · rw [if_neg he]; exact crefGatherConst_gives hw' hr' h' hok hc _
    · by_cases he : ms = o.ms
      · rw [if_pos he, he]; exact crefOfRef_gives hr' h' (st hok rfl) _
      · rw [if_neg he]; exact crefGatherRef_gives hw' hr' h' (st hok rfl) hc _
    · by_cases he : ms = o.ms
      · rw [if_pos he]; exact copyS hok rfl he
      · rw [if_neg he]; exact gatherStateful_gives hr' h' (st hok rfl) rfl hc _

end AnyAny.Poly
