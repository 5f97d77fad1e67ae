import Verif.Model.Invoke
import Verif.Props.Stability
/-
C69: `invoke` respects const. C70: arguments reach the method.
-/
namespace AnyAny.Invoke

/-! ### C70

The specification: `Arrives`, `Consumed` and the two counts. -/

/-- The value an expression has. -/
def Expr.value (s : Store) : Expr → Option Val
  | .lval i | .xval i => s.objs i
  | .prval v => some v

/-- The object an expression designates. -/
def Expr.object : Expr → Option Nat
  | .lval i | .xval i => some i
  | .prval _ => none

/-- A parameter of type `t` may be initialised from `e` (the call compiles), and `e` designates an existing
object if it designates one. -/
def Fits (s : Store) (t : ArgTy) (e : Expr) : Prop :=
  (e.value s).isSome ∧
  match t, e with
  | .lref, .xval _ | .lref, .prval _ | .rref, .lval _ => False
  | _, _ => True

/-- What the method gets for an argument: references refer to the very object that was passed (a new one for
a prvalue), values are new objects with the value that was passed. -/
def Arrives (s s' : Store) (t : ArgTy) (e : Expr) (p : Nat) : Prop :=
  if t = .value ∨ e.object = none then s.next ≤ p ∧ s'.objs p = e.value s else e.object = some p

/-- The caller asked for the object `i` to be moved into a by-value argument. -/
def Consumed (ts : List ArgTy) (es : List Expr) (i : Nat) : Prop := (ArgTy.value, Expr.xval i) ∈ ts.zip es

def copiesOf (l : List (ArgTy × Expr)) : Nat := l.countP fun a => a.1 == .value && (match a.2 with | .lval _ => true | _ => false)
def movesOf (l : List (ArgTy × Expr)) : Nat := l.countP fun a => a.1 == .value && (match a.2 with | .xval _ => true | _ => false)
def valuesOf (ts : List ArgTy) : Nat := ts.countP fun t => t == .value

/-- Two by-value arguments do not compete for the same object: if both designate it, neither moves. -/
def Compatible (a b : ArgTy × Expr) : Prop :=
  a.1 = .value → b.1 = .value → a.2.object = b.2.object → a.2.object = none ∨ a.2 = b.2 ∧ ∃ i, a.2 = .lval i

structure Store.Ok (s : Store) : Prop where
  beyond : ∀ i, s.next ≤ i → s.objs i = none

theorem Store.Ok.lt {s : Store} (h : s.Ok) {i : Nat} (hi : (s.objs i).isSome) : i < s.next := by
  rcases Nat.lt_or_ge i s.next with h1 | h1
  · exact h1
  · rw [h.beyond i h1] at hi; cases hi

/-- What it means for arguments to be sent: `n` additional moves for each by-value argument. -/
structure Sent (n : Nat) (ts : List ArgTy) (es : List Expr) (s : Store) (ps : List Nat) (s' : Store) : Prop where
  ok : s'.Ok
  len : ps.length = ts.length
  le : s.next ≤ s'.next
  arrive : ∀ (k : Nat) t e p, ts[k]? = some t → es[k]? = some e → ps[k]? = some p → Arrives s s' t e p
  bound : ∀ p ∈ ps, p < s'.next
  exist : ∀ p ∈ ps, (s'.objs p).isSome
  frame : ∀ i, i < s.next → ¬ Consumed ts es i → s'.objs i = s.objs i
  gone : ∀ i, Consumed ts es i → s'.objs i = (s.objs i).map .moved
  copies : s'.copies = s.copies + copiesOf (ts.zip es)
  moves : s'.moves = s.moves + movesOf (ts.zip es) + n * valuesOf ts
  distinct : (ts.zip ps).Pairwise fun a b => a.1 = .value ∨ b.1 = .value → a.2 ≠ b.2

theorem initParam_spec {s : Store} {t : ArgTy} {e : Expr} (h : s.Ok) (hf : Fits s t e) :
    ∃ p s', initParam t e s = some (p, s') ∧ s'.Ok ∧ s.next ≤ s'.next ∧ Arrives s s' t e p ∧ p < s'.next ∧ (s'.objs p).isSome ∧
      (∀ i, i < s.next → ¬ (t = .value ∧ e = .xval i) → s'.objs i = s.objs i) ∧
      (∀ i, t = .value ∧ e = .xval i → s'.objs i = (s.objs i).map .moved) ∧
      s'.copies = s.copies + copiesOf [(t, e)] ∧ s'.moves = s.moves + movesOf [(t, e)] := by
  obtain ⟨h1, h2⟩ := hf
  have fr : ∀ (s1 : Store) (v : Val), s1.next = s.next → s1.Ok →
      ({ s1 with objs := setObj s1.objs s1.next v, next := s1.next + 1 } : Store).Ok := by
    intro s1 v e1 o1
    refine ⟨fun i hi => ?_⟩
    have : i ≠ s1.next := by simp at hi; omega
    simp only [setObj, this, if_false]
    exact o1.beyond i (by simp at hi; omega)
  obtain ⟨v, hv⟩ := Option.isSome_iff_exists.1 h1
  have other : ∀ (f : Nat → Option Val) (v : Val) (i : Nat), i < s.next → setObj f s.next v i = f i := by
    intro f v i hi; simp [setObj, Nat.ne_of_lt hi]
  cases t <;> cases e <;> simp only [Expr.value] at hv <;> (try exact h2.elim)
  all_goals first
    | (-- references to existing objects
       refine ⟨_, s, rfl, h, Nat.le_refl _, rfl, h.lt (by rw [hv]; rfl), by rw [hv]; rfl, fun _ _ _ => rfl, fun _ hh => ?_, rfl, rfl⟩
       cases hh.1; done)
    | skip
  case value.lval i =>
    refine ⟨s.next, ⟨setObj s.objs s.next v, s.next + 1, s.copies + 1, s.moves⟩, by simp [initParam, hv, fresh],
      fr ⟨s.objs, s.next, s.copies + 1, s.moves⟩ v rfl ⟨h.beyond⟩, Nat.le_succ _,
      ⟨Nat.le_refl _, by simp [setObj, Expr.value, hv]⟩, Nat.lt_succ_self _, by simp [setObj], fun j hj _ => other _ _ j hj,
      (by rintro j ⟨_, hj⟩; cases hj), rfl, rfl⟩
  case value.xval i =>
    have hi : i < s.next := h.lt (by rw [hv]; rfl)
    have o1 : (⟨setObj s.objs i (.moved v), s.next, s.copies, s.moves + 1⟩ : Store).Ok := by
      refine ⟨fun j hj => ?_⟩
      have : j ≠ i := by simp at hj; omega
      simp only [setObj, this, if_false]
      exact h.beyond j hj
    refine ⟨s.next, ⟨setObj (setObj s.objs i (.moved v)) s.next v, s.next + 1, s.copies, s.moves + 1⟩,
      by simp [initParam, hv, fresh], fr ⟨_, _, _, _⟩ v rfl o1, Nat.le_succ _,
      ⟨Nat.le_refl _, by simp [setObj, Expr.value, hv]⟩, Nat.lt_succ_self _, by simp [setObj], fun j hj hn => ?_, ?_, rfl, rfl⟩
    · have : j ≠ i := fun hji => hn ⟨rfl, by rw [hji]⟩
      simp [setObj, Nat.ne_of_lt hj, this]
    · rintro j ⟨_, hj⟩
      cases hj
      simp [setObj, Nat.ne_of_lt hi, hv]
  all_goals
    refine ⟨s.next, ⟨setObj s.objs s.next v, s.next + 1, s.copies, s.moves⟩, by cases hv; simp [initParam, fresh],
      fr s _ rfl h, Nat.le_succ _, ⟨Nat.le_refl _, by simp [setObj, Expr.value, hv]⟩, Nat.lt_succ_self _, by simp [setObj],
      fun j hj _ => other _ _ j hj, (by rintro j ⟨_, hj⟩; cases hj), rfl, rfl⟩

theorem fits_mono {s s1 : Store} {t : ArgTy} {e : Expr} (hf : Fits s t e)
    (h : ∀ i, e.object = some i → (s.objs i).isSome → (s1.objs i).isSome) : Fits s1 t e := by
  refine ⟨?_, hf.2⟩
  have := hf.1
  cases e <;> simp only [Expr.value] at this ⊢ <;> first | exact h _ rfl this | rfl

theorem initParams_spec : ∀ {ts : List ArgTy} {es : List Expr} {s : Store}, s.Ok → ts.length = es.length →
    (∀ a ∈ ts.zip es, Fits s a.1 a.2) → (ts.zip es).Pairwise Compatible →
    ∃ ps s', initParams ts es s = some (ps, s') ∧ Sent 0 ts es s ps s'
  | [], [], s, h, _, _, _ => ⟨[], s, rfl, h, rfl, Nat.le_refl _, by simp, by simp, by simp, fun _ _ _ => rfl, fun _ h => (nomatch h), rfl, by simp [movesOf], List.Pairwise.nil⟩
  | [], _ :: _, _, _, hl, _, _ => nomatch hl
  | _ :: _, [], _, _, hl, _, _ => nomatch hl
  | t :: ts, e :: es, s, h, hl, hf, hc => by
    obtain ⟨p, s1, e1, ok1, le1, ar1, bd1, ex1, fr1, gn1, cp1, mv1⟩ := initParam_spec h (hf (t, e) (by simp))
    rw [List.zip_cons_cons, List.pairwise_cons] at hc
    have lt0 : ∀ a ∈ ts.zip es, ∀ i, a.2.object = some i → i < s.next := by
      intro a ha i hi
      have := (hf a (by simp [ha])).1
      refine h.lt ?_
      rcases a with ⟨_, _ | _ | _⟩ <;> simp only [Expr.object, Option.some.injEq] at hi
      · subst hi; exact this
      · subst hi; exact this
      · cases hi
    have some1 : ∀ i, i < s.next → (s1.objs i).isSome = (s.objs i).isSome := by
      intro i hi
      by_cases hh : t = .value ∧ e = .xval i
      · rw [gn1 i hh]; simp
      · rw [fr1 i hi hh]
    have hf1 : ∀ a ∈ ts.zip es, Fits s1 a.1 a.2 := fun a ha =>
      fits_mono (hf a (by simp [ha])) fun i hi hs => by rw [some1 i (lt0 a ha i hi)]; exact hs
    obtain ⟨ps, s2, e2, I⟩ := initParams_spec ok1 (by simpa using hl) hf1 hc.2
    have ncons : ∀ i, s.next ≤ i → ¬ Consumed ts es i := by
      intro i hi hh
      exact absurd (lt0 _ hh i rfl) (by omega)
    -- the value of a by-value argument of the tail is not changed by the head
    have hval : ∀ a ∈ ts.zip es, a.1 = .value ∨ a.2.object = none → a.2.value s1 = a.2.value s := by
      intro a ha hv
      rcases a with ⟨t', e'⟩
      cases ho : e'.object with
      | none => cases e' <;> simp [Expr.object] at ho; rfl
      | some i =>
        have hi := lt0 _ ha i ho
        have : ¬ (t = .value ∧ e = .xval i) := by
          rintro ⟨rfl, rfl⟩
          rcases hv with rfl | hv
          · rcases hc.1 _ ha rfl rfl (ho.symm ▸ rfl) with h5 | ⟨_, j, h5⟩
            · cases h5
            · cases h5
          · rw [ho] at hv; cases hv
        have := fr1 i hi this
        cases e' <;> simp only [Expr.object, Option.some.injEq] at ho
        · subst ho; exact this
        · subst ho; exact this
        · cases ho
    refine ⟨p :: ps, s2, by simp [initParams, e1, e2], I.ok, by simp [I.len], Nat.le_trans le1 I.le, ?_, ?_, ?_, ?_, ?_, ?_, ?_, ?_⟩
    · intro k t' e' p' ht he hp
      cases k with
      | zero =>
        simp only [List.getElem?_cons_zero, Option.some.injEq] at ht he hp
        subst ht he hp
        have keep : s.next ≤ p → s2.objs p = s1.objs p := fun hp => I.frame p bd1 (ncons p hp)
        unfold Arrives at ar1 ⊢
        split
        · rename_i hh
          rw [if_pos hh] at ar1
          exact ⟨ar1.1, by rw [keep ar1.1]; exact ar1.2⟩
        · rename_i hh
          rw [if_neg hh] at ar1
          exact ar1
      | succ k =>
        simp only [List.getElem?_cons_succ] at ht he hp
        have hin : (t', e') ∈ ts.zip es := by
          rw [List.mem_iff_getElem?]; exact ⟨k, by rw [List.getElem?_zip_eq_some]; exact ⟨ht, he⟩⟩
        have := I.arrive k t' e' p' ht he hp
        unfold Arrives at this ⊢
        split
        · rename_i hh
          rw [if_pos hh, hval _ hin hh] at this
          exact ⟨Nat.le_trans le1 this.1, this.2⟩
        · rename_i hh
          rw [if_neg hh] at this
          exact this
    · intro q hq
      rcases List.mem_cons.1 hq with rfl | hq
      · exact Nat.lt_of_lt_of_le bd1 I.le
      · exact I.bound q hq
    · intro q hq
      rcases List.mem_cons.1 hq with rfl | hq
      · by_cases hh : Consumed ts es q
        · rw [I.gone q hh]; simpa using ex1
        · rw [I.frame q bd1 hh]; exact ex1
      · exact I.exist q hq
    · intro i hi hn
      have h1 : ¬ (t = .value ∧ e = .xval i) := by rintro ⟨rfl, rfl⟩; exact hn (by simp [Consumed])
      have h2 : ¬ Consumed ts es i := fun hh => hn (by simp only [Consumed, List.zip_cons_cons, List.mem_cons]; exact Or.inr hh)
      rw [I.frame i (by omega) h2, fr1 i hi h1]
    · intro i hh
      simp only [Consumed, List.zip_cons_cons, List.mem_cons, Prod.mk.injEq] at hh
      rcases hh with ⟨rfl, rfl⟩ | hh
      · have hne : ¬ Consumed ts es i := fun h5 => by
          rcases hc.1 _ h5 rfl rfl rfl with h6 | ⟨_, j, h6⟩
          · cases h6
          · cases h6
        have hi : i < s.next := h.lt (hf _ (List.mem_cons_self ..)).1
        rw [I.frame i (by omega) hne, gn1 i ⟨rfl, rfl⟩]
      · have hi := lt0 _ hh i rfl
        have h1 : ¬ (t = .value ∧ e = .xval i) := by
          rintro ⟨rfl, rfl⟩
          rcases hc.1 _ hh rfl rfl rfl with h6 | ⟨_, j, h6⟩
          · cases h6
          · cases h6
        rw [I.gone i hh, fr1 i hi h1]
    · rw [I.copies, cp1]; simp only [copiesOf, List.zip_cons_cons, List.countP_cons, List.countP_nil]; omega
    · rw [I.moves, mv1]; simp only [movesOf, List.zip_cons_cons, List.countP_cons, List.countP_nil]; omega
    · rw [List.zip_cons_cons, List.pairwise_cons]
      refine ⟨?_, I.distinct⟩
      rintro ⟨t', q⟩ hq hv rfl
      obtain ⟨k, hk⟩ := List.mem_iff_getElem?.1 hq
      rw [List.getElem?_zip_eq_some] at hk
      have hk2 : k < es.length := by
        have := (List.getElem?_eq_some_iff.1 hk.1).1
        simp at hl; omega
      have he := List.getElem?_eq_getElem hk2
      have := I.arrive k t' es[k] p hk.1 he hk.2
      unfold Arrives at this ar1
      split at this
      · omega
      · rename_i hh
        rcases hv with rfl | hv
        · rw [if_pos (Or.inl rfl)] at ar1
          have hin : (t', es[k]) ∈ ts.zip es := by
            rw [List.mem_iff_getElem?]; exact ⟨k, by rw [List.getElem?_zip_eq_some]; exact ⟨hk.1, he⟩⟩
          have := lt0 _ hin p this
          omega
        · exact hh (Or.inl hv)

theorem castFwd_fits {s : Store} {t : ArgTy} {p : Nat} (h : (s.objs p).isSome) : Fits s t (castFwd t p) := by
  cases t <;> exact ⟨h, trivial⟩

theorem zip_castFwd : ∀ (ts : List ArgTy) (ps : List Nat),
    ts.zip (List.zipWith castFwd ts ps) = (ts.zip ps).map fun a => (a.1, castFwd a.1 a.2)
  | [], _ => rfl
  | _ :: _, [] => rfl
  | t :: ts, p :: ps => by simp [zip_castFwd ts ps]

theorem counts_castFwd : ∀ {ts : List ArgTy} {ps : List Nat}, ps.length = ts.length →
    copiesOf (ts.zip (List.zipWith castFwd ts ps)) = 0 ∧ movesOf (ts.zip (List.zipWith castFwd ts ps)) = valuesOf ts
  | [], [], _ => ⟨rfl, rfl⟩
  | [], _ :: _, h => nomatch h
  | _ :: _, [], h => nomatch h
  | t :: ts, p :: ps, h => by
    obtain ⟨h1, h2⟩ := counts_castFwd (ts := ts) (ps := ps) (by simpa using h)
    simp only [copiesOf, movesOf, valuesOf] at h1 h2 ⊢
    constructor
    · simp only [List.zipWith_cons_cons, List.zip_cons_cons, List.countP_cons, h1]
      cases t <;> rfl
    · simp only [List.zipWith_cons_cons, List.zip_cons_cons, List.countP_cons, h2]
      cases t <;> rfl

/-- Passing the parameters on with `static_cast<Args&&>(args)...`. -/
theorem Sent.again {n : Nat} {ts : List ArgTy} {es : List Expr} {s s1 : Store} {ps : List Nat} (h : Sent n ts es s ps s1)
    (hs : s.Ok) (hl : ts.length = es.length) (hf : ∀ a ∈ ts.zip es, Fits s a.1 a.2) :
    ∃ qs s2, initParams ts (List.zipWith castFwd ts ps) s1 = some (qs, s2) ∧ Sent (n + 1) ts es s qs s2 := by
  have hz := zip_castFwd ts ps
  obtain ⟨qs, s2, e, J⟩ := initParams_spec (ts := ts) (es := List.zipWith castFwd ts ps) h.ok (by simp [h.len])
    (by
      rw [hz]
      intro a ha
      obtain ⟨b, hb, rfl⟩ := List.mem_map.1 ha
      exact castFwd_fits (h.exist b.2 (List.of_mem_zip hb).2))
    (by
      rw [hz, List.pairwise_map]
      refine h.distinct.imp ?_
      rintro ⟨t1, p1⟩ ⟨t2, p2⟩ hd h1 h2 h3
      simp only at h1 h2; subst h1 h2
      cases h3
      exact absurd rfl (hd (Or.inl rfl)))
  have cons : ∀ i, Consumed ts (List.zipWith castFwd ts ps) i → (ArgTy.value, i) ∈ ts.zip ps := by
    intro i hi
    unfold Consumed at hi
    rw [hz] at hi
    obtain ⟨⟨t, p⟩, hb, e⟩ := List.mem_map.1 hi
    simp only [Prod.mk.injEq] at e
    obtain ⟨rfl, e⟩ := e
    cases e
    exact hb
  have old : ∀ i, i < s.next → ¬ Consumed ts (List.zipWith castFwd ts ps) i := by
    intro i hi hh
    obtain ⟨k, hk⟩ := List.mem_iff_getElem?.1 (cons i hh)
    rw [List.getElem?_zip_eq_some] at hk
    have hk2 : k < es.length := by
      have := (List.getElem?_eq_some_iff.1 hk.1).1
      omega
    have := h.arrive k .value es[k] i hk.1 (List.getElem?_eq_getElem hk2) hk.2
    rw [Arrives, if_pos (Or.inl rfl)] at this
    omega
  refine ⟨qs, s2, e, J.ok, J.len, Nat.le_trans h.le J.le, ?_, J.bound, J.exist, ?_, ?_, ?_, ?_, J.distinct⟩
  · intro k t e q ht he hq
    have hkp : k < ps.length := by
      have := (List.getElem?_eq_some_iff.1 ht).1
      rw [h.len]; exact this
    have hp := List.getElem?_eq_getElem hkp
    generalize ps[k] = p at hp
    have a1 := h.arrive k t e p ht he hp
    have a2 := J.arrive k t (castFwd t p) q ht (by simp [List.getElem?_zipWith, ht, hp]) hq
    unfold Arrives at a1 a2 ⊢
    by_cases hv : t = .value
    · subst hv
      rw [if_pos (Or.inl rfl)] at a1 a2 ⊢
      exact ⟨Nat.le_trans h.le a2.1, by rw [a2.2]; exact a1.2⟩
    · have hob : (castFwd t p).object = some p := by cases t <;> rfl
      rw [if_neg (by rw [hob]; simp [hv]), hob] at a2
      obtain rfl : q = p := by simpa using a2.symm
      split
      · rename_i hh
        rw [if_pos hh] at a1
        refine ⟨a1.1, ?_⟩
        rw [J.frame q (h.bound q (List.mem_of_getElem? hp)) ?_]
        · exact a1.2
        · intro hc
          obtain ⟨k', hk'⟩ := List.mem_iff_getElem?.1 (cons q hc)
          have hk0 : (ts.zip ps)[k]? = some (t, q) := by rw [List.getElem?_zip_eq_some]; exact ⟨ht, hp⟩
          have hne : k ≠ k' := by
            rintro rfl
            rw [hk0] at hk'
            cases hk'
            exact hv rfl
          obtain ⟨l1, e1⟩ := List.getElem?_eq_some_iff.1 hk0
          obtain ⟨l2, e2⟩ := List.getElem?_eq_some_iff.1 hk'
          rcases Nat.lt_or_gt_of_ne hne with hlt | hlt
          · have := List.pairwise_iff_getElem.1 h.distinct k k' l1 l2 hlt
            rw [e1, e2] at this
            exact this (Or.inr rfl) rfl
          · have := List.pairwise_iff_getElem.1 h.distinct k' k l2 l1 hlt
            rw [e1, e2] at this
            exact this (Or.inl rfl) rfl
      · rename_i hh
        rw [if_neg hh] at a1
        exact a1
  · intro i hi hn
    rw [J.frame i (Nat.lt_of_lt_of_le hi h.le) (old i hi), h.frame i hi hn]
  · intro i hc
    have hi : i < s.next := hs.lt (hf _ hc).1
    rw [J.frame i (Nat.lt_of_lt_of_le hi h.le) (old i hi), h.gone i hc]
  · rw [J.copies, h.copies, (counts_castFwd h.len).1]; omega
  · rw [J.moves, h.moves, (counts_castFwd h.len).2, Nat.zero_mul, Nat.add_mul]; omega

theorem forwardedAll_cast : ∀ {ts : List ArgTy} {ps : List Nat} (s : Store),
    forwardedAll (List.zipWith castFwd ts ps) s = some (List.zipWith castFwd ts ps, s)
  | [], _, _ => rfl
  | _ :: _, [], _ => rfl
  | t :: ts, p :: ps, s => by
    have : forwarded (castFwd t p) s = some (castFwd t p, s) := by cases t <;> rfl
    simp [forwardedAll, this, forwardedAll_cast (ts := ts) (ps := ps) s]

theorem initParams_addRref : ∀ {ts : List ArgTy} {ps : List Nat} (s : Store), ps.length = ts.length →
    initParams (ts.map addRref) (List.zipWith castFwd ts ps) s = some (ps, s)
  | [], [], _, _ => rfl
  | [], _ :: _, _, h => nomatch h
  | _ :: _, [], _, h => nomatch h
  | t :: ts, p :: ps, s, h => by
    have : initParam (addRref t) (castFwd t p) s = some (p, s) := by cases t <;> rfl
    simp [initParams, this, initParams_addRref (ts := ts) (ps := ps) s (by simpa using h)]

theorem invokeArgs_eq {ts : List ArgTy} {es : List Expr} {s s1 : Store} {ps : List Nat}
    (h : initParams ts es s = some (ps, s1)) (hl : ps.length = ts.length) :
    invokeArgs ts es s = initParams ts (List.zipWith castFwd ts ps) s1 := by
  simp [invokeArgs, h, forwardedAll_cast, invokerValue, initParams_addRref s1 hl]

/-- C70: however many arguments of whatever types a method has, `invoke<Method>(x, args...)` enters the method
with parameters that refer to the objects passed (reference types) or are new objects with the values
passed (by value). Nothing else changes: an object passed to a by-value argument as an rvalue is moved from,
all others keep their values. No copy is made except of lvalues passed by value; each by-value argument is
moved once more on the way. -/
theorem C70_invoke {ts : List ArgTy} {es : List Expr} {s : Store} (hs : s.Ok) (hl : ts.length = es.length)
    (hf : ∀ a ∈ ts.zip es, Fits s a.1 a.2) (hc : (ts.zip es).Pairwise Compatible) :
    ∃ ps s', invokeArgs ts es s = some (ps, s') ∧ ps.length = ts.length ∧
      (∀ (k : Nat) t e p, ts[k]? = some t → es[k]? = some e → ps[k]? = some p → Arrives s s' t e p) ∧
      (∀ i, i < s.next → ¬ Consumed ts es i → s'.objs i = s.objs i) ∧
      (∀ i, Consumed ts es i → s'.objs i = (s.objs i).map .moved) ∧
      s'.copies = s.copies + copiesOf (ts.zip es) ∧ s'.moves = s.moves + movesOf (ts.zip es) + valuesOf ts := by
  obtain ⟨ps, s1, e, I⟩ := initParams_spec hs hl hf hc
  obtain ⟨qs, s2, e2, J⟩ := I.again hs hl hf
  refine ⟨qs, s2, by rw [invokeArgs_eq e I.len, e2], J.len, J.arrive, J.frame, J.gone, J.copies, ?_⟩
  rw [J.moves]; omega

/-- C70: the same through `operator()` of `call<Ret(Args...)>`, with one more move of each by-value argument. -/
theorem C70_call_operator {ts : List ArgTy} {es : List Expr} {s : Store} (hs : s.Ok) (hl : ts.length = es.length)
    (hf : ∀ a ∈ ts.zip es, Fits s a.1 a.2) (hc : (ts.zip es).Pairwise Compatible) :
    ∃ ps s', pluginArgs ts es s = some (ps, s') ∧ ps.length = ts.length ∧
      (∀ (k : Nat) t e p, ts[k]? = some t → es[k]? = some e → ps[k]? = some p → Arrives s s' t e p) ∧
      (∀ i, i < s.next → ¬ Consumed ts es i → s'.objs i = s.objs i) ∧
      (∀ i, Consumed ts es i → s'.objs i = (s.objs i).map .moved) ∧
      s'.copies = s.copies + copiesOf (ts.zip es) ∧ s'.moves = s.moves + movesOf (ts.zip es) + 2 * valuesOf ts := by
  obtain ⟨ps, s1, e, I⟩ := initParams_spec hs hl hf hc
  obtain ⟨qs, s2, e2, J⟩ := I.again hs hl hf
  obtain ⟨rs, s3, e3, K⟩ := J.again hs hl hf
  exact ⟨rs, s3, by simp [pluginArgs, e, invokeArgs_eq e2 J.len, e3], K.len, K.arrive, K.frame, K.gone, K.copies, K.moves⟩

/-- A call with one argument of each kind, from lvalues, xvalues and prvalues. -/
def exStore : Store := ⟨fun i => if i < 3 then some (.val (i * 10)) else none, 3, 0, 0⟩

example : let ts := [ArgTy.value, .value, .value, .lref, .clref, .clref, .rref]
    let es := [Expr.lval 0, .xval 1, .prval (.val 7), .lval 0, .lval 2, .prval (.val 8), .xval 2]
    exStore.Ok ∧ ts.length = es.length ∧ (∀ a ∈ ts.zip es, Fits exStore a.1 a.2) ∧ (ts.zip es).Pairwise Compatible := by
  refine ⟨⟨fun i hi => ?_⟩, rfl, ?_, ?_⟩
  · have : ¬ i < 3 := by simpa [exStore] using hi
    simp [exStore, this]
  · intro a ha
    simp only [List.zip_cons_cons, List.zip_nil_right, List.mem_cons, List.not_mem_nil, or_false] at ha
    rcases ha with rfl | rfl | rfl | rfl | rfl | rfl | rfl <;> exact ⟨rfl, trivial⟩
  · simp [Compatible, Expr.object]

/-- Its result: parameters, copies, moves. -/
example : ((invokeArgs [.value, .value, .value, .lref, .clref, .clref, .rref]
    [.lval 0, .xval 1, .prval (.val 7), .lval 0, .lval 2, .prval (.val 8), .xval 2] exStore).map
      (fun r => (r.1, r.2.copies, r.2.moves))) = some ([7, 8, 9, 0, 2, 6, 2], 1, 4) := by decide +kernel

/-! ### C69 -/

open AnyAny.Mem (Cfg CfgOk World view)

/-- The operand gives only const access to the value: a const any, or a const reference class. (Constness of a
`poly_ref` object itself says nothing about the value it refers to, as for pointers.) -/
def Operand.constAccess (x : Operand) : Bool :=
  match x.cls with
  | .any => x.isConst
  | .constPolyRef | .statefulCref => true
  | .polyRef | .statefulRef => false

/-- `is_const_method_v` (noexport/anyany_details.hpp:107-108): `self` is taken by value or by reference to const. -/
def isConstMethod (cfg : Cfg) (m : Nat) : Bool :=
  match cfg.kind m with
  | .constRef | .byValue => true
  | .mutRef => false

/-- Calls that should compile do: every method with mutable access, const methods with any access. -/
theorem C69_accepts (x : Operand) (c : Bool) (h : x.constAccess = true → c = true) : compiles c x = true := by
  rcases x with ⟨cls, k, cat⟩
  cases c
  · cases cls <;> cases k <;> cases cat <;> first | rfl | exact absurd (h rfl) (by decide)
  · cases cls <;> cases k <;> cases cat <;> rfl

/-- C69: a call through const access compiles only for const methods, except for const rvalues of an any type
(`std::move(const_any)`), see `C69_const_rvalue_fails`. -/
theorem C69_rejects_partial (x : Operand) (c : Bool) (hx : x.constAccess = true) (hr : ¬ (x.cls = .any ∧ x.cat = .rvalue))
    (h : compiles c x = true) : c = true := by
  rcases x with ⟨cls, k, cat⟩
  cases c
  · cases cls <;> cases k <;> cases cat <;> first | exact absurd hx (by decide) | exact absurd h (by decide) | exact absurd ⟨rfl, rfl⟩ hr
  · rfl

/-- C69, exactly: a call compiles if and only if the operand gives mutable access, the method is const, or the operand is an rvalue of an
any type. -/
theorem C69_exact (x : Operand) (c : Bool) :
    compiles c x = true ↔ x.constAccess = false ∨ c = true ∨ (x.cls = .any ∧ x.cat = .rvalue) := by
  constructor
  · intro h
    cases hx : x.constAccess with
    | false => exact Or.inl rfl
    | true =>
      by_cases hr : x.cls = .any ∧ x.cat = .rvalue
      · exact Or.inr (Or.inr hr)
      · exact Or.inr (Or.inl (C69_rejects_partial x c hx hr h))
  · rintro (h | h | ⟨h1, h2⟩)
    · exact C69_accepts x c (by rw [h]; intro e; cases e)
    · exact C69_accepts x c (fun _ => h)
    · obtain ⟨cls, k, cat⟩ := x
      cases h1
      cases h2
      cases k <;> cases c <;> rfl

/-- C69: what that means for values: no call that compiles through const access to the any `a` (other than on a const
rvalue) changes the value of any any object; it returns or throws. -/
theorem C69_any_unchanged_partial {cfg : Cfg} (C : CfgOk cfg) {w : World} (h : Mem.Reachable cfg w) {a m x : Nat} {op : Operand}
    (hx : op.cls = .any) (hk : op.isConst = true) (hr : op.cat = .lvalue) (hc : compiles (isConstMethod cfg m) op = true)
    (L : Mem.Legal cfg w (.invoke a m x)) :
    ∃ w', (Mem.exec cfg (.invoke a m x) w = .ok () w' ∨ Mem.exec cfg (.invoke a m x) w = .exn w') ∧ Mem.vals w' = Mem.vals w := by
  have hm : cfg.kind m ≠ .mutRef := by
    have := C69_rejects_partial op _ (by simp [Operand.constAccess, hx, hk]) (by simp [hr]) hc
    intro e; rw [isConstMethod, e] at this; cases this
  rcases Mem.step_spec C (h.rep C) _ L with ⟨w', σ, e, _⟩ | ⟨w', σ, e, _⟩ | ⟨e, _⟩
  · refine ⟨w', Or.inl e, ?_⟩
    rw [Mem.C04_values_step C h L e]
    funext c
    simp only [Mem.specStep, Mem.upd]
    split
    · rename_i hca
      subst hca
      cases hv : Mem.vals w c with
      | none => rfl
      | some v =>
        cases v with
        | none => rfl
        | some tv =>
          simp only [Mem.afterInvoke]
    · rfl
  · refine ⟨w', Or.inr e, ?_⟩
    have := (Mem.C04_exception_step C h L e).1
    funext c
    have := this c (fun h => hm h.2.1)
    have ev : ∀ u : World, Mem.vals u c = (Mem.snap u c).map fun s => s.val := by
      intro u; cases hu : u.anys c <;> simp [Mem.vals, Mem.snap, hu, Mem.view, Mem.Snap.val]
    rw [ev, ev, this]
  · exact e.elim

/-- C69: the same through `const_poly_ref` and `stateful::cref`: the object referred to keeps its value and nothing
else changes. -/
theorem C69_reference_unchanged {cfg : Cfg} (C : CfgOk cfg) {w : Poly.PW} {S : Poly.SRefs} (h : Poly.Reach cfg w S)
    {n m x T v : Nat} {a : Poly.Addr} {s : Poly.SRef} {op : Operand}
    (hs : S n = some s) (ht : s.target = some (T, a)) (hm : .user m ∈ s.ms) (hv : Poly.holds w T v a)
    (hk : s.kind = .constPolyRef ∧ op.cls = .constPolyRef ∨ s.kind = .cref ∧ op.cls = .statefulCref)
    (hc : compiles (isConstMethod cfg m) op = true) :
    (∃ w', Poly.invokeRef cfg (.var n) m x w = .ok (cfg.impl m T v x).1 w' ∧ Poly.holds w' T v a ∧ Poly.OnlyAt w w' a) ∨
    (∃ w', Poly.invokeRef cfg (.var n) m x w = .exn w' ∧ Mem.snap w'.mem = Mem.snap w.mem ∧ w'.vars = w.vars ∧ w'.refs = w.refs) := by
  have hmm : cfg.kind m ≠ .mutRef := by
    have := C69_rejects_partial op _ (by rcases hk with ⟨_, h⟩ | ⟨_, h⟩ <;> simp [Operand.constAccess, h])
      (by rcases hk with ⟨_, h⟩ | ⟨_, h⟩ <;> simp [h]) hc
    intro e; rw [isConstMethod, e] at this; cases this
  rcases Poly.C62_invoke_reference C h hs ht hm hv (m := m) (x := x) with ⟨w', h1, h2, h3⟩ | ⟨_, _, w', h3, h4, h5, h6⟩ |
    ⟨_, w', h1, _, h3, h4⟩
  · refine Or.inl ⟨w', h1, ?_, h3⟩
    cases hkm : cfg.kind m with
    | mutRef => exact absurd hkm hmm
    | constRef => rw [hkm] at h2; exact h2
    | byValue => rw [hkm] at h2; exact h2
  · exact Or.inr ⟨w', h3, h4, h5, h6⟩
  · exact Or.inr ⟨w', h1, (h4 hmm).1, (h4 hmm).2, h3.1⟩

/-- C69 fails for const rvalues of an any type: every non-const method may be called on them, and such a call changes
the value of the const object. (anyany.hpp:1020: `U&&` with `U = const any` has no `static_assert`.) -/
theorem C69_const_rvalue_fails :
    (∀ (cfg : Cfg) (m : Nat), compiles (isConstMethod cfg m) ⟨.any, true, .rvalue⟩ = true) ∧
    ∃ w w', Mem.Reachable Mem.exCfg w ∧ Mem.Legal Mem.exCfg w (.invoke 0 1 5) ∧ isConstMethod Mem.exCfg 1 = false ∧
      Mem.exec Mem.exCfg (.invoke 0 1 5) w = .ok () w' ∧ view w 0 = some (0, 7) ∧ view w' 0 = some (0, 75) := by
  refine ⟨fun cfg m => by cases isConstMethod cfg m <;> rfl, ?_⟩
  obtain ⟨w, h, L, hv, ho, hw⟩ := Mem.run_witness (cfg := Mem.exCfg) (ops := [.valueCtor 0 Mem.exMs 1 0 (.lit 7) false])
    (P := fun w => Mem.Legal Mem.exCfg w (.invoke 0 1 5) ∧ view w 0 = some (0, 7) ∧
      (Mem.exec Mem.exCfg (.invoke 0 1 5) w).isOk = true ∧
      (Mem.exec Mem.exCfg (.invoke 0 1 5) w).world?.map (fun w' => view w' 0) = some (some (0, 75))) (by decide +kernel)
  cases e : Mem.exec Mem.exCfg (.invoke 0 1 5) w with
  | ok u w' =>
    rw [e] at hw
    exact ⟨w, w', h, L, rfl, e, hv, by simpa [Mem.Res.world?] using hw⟩
  | exn _ | ub | term => rw [e] at ho; cases ho

/-- A const lvalue any, a const method and a by-value method. -/
example : ∃ w, Mem.Reachable Mem.exCfg w ∧ (Mem.Legal Mem.exCfg w (.invoke 0 0 5) ∧ Mem.Legal Mem.exCfg w (.invoke 0 2 5)) ∧
    compiles (isConstMethod Mem.exCfg 0) ⟨.any, true, .lvalue⟩ = true ∧
    compiles (isConstMethod Mem.exCfg 2) ⟨.any, true, .lvalue⟩ = true ∧
    compiles (isConstMethod Mem.exCfg 1) ⟨.any, true, .lvalue⟩ = false ∧
    compiles (isConstMethod Mem.exCfg 1) ⟨.any, false, .lvalue⟩ = true := by
  obtain ⟨w, h, L⟩ := Mem.run_witness (cfg := Mem.exCfg) (ops := [.valueCtor 0 Mem.exMs 1 0 (.lit 7) false])
    (P := fun w => Mem.Legal Mem.exCfg w (.invoke 0 0 5) ∧ Mem.Legal Mem.exCfg w (.invoke 0 2 5)) (by decide +kernel)
  exact ⟨w, h, L, rfl, rfl, rfl, rfl⟩

/-- Const references that name methods which do not need a mutable object. -/
example : ∃ w S, Poly.Reach Mem.exCfg w S ∧
    ((S 6).any (fun s => decide (s.kind = .constPolyRef ∧ s.target = some (2, .mem (.blk 0)) ∧ .user 0 ∈ s.ms)) &&
     (S 7).any (fun s => decide (s.kind = .cref ∧ s.target = some (2, .mem (.blk 0)) ∧ .user 0 ∈ s.ms)) &&
     decide (Mem.view w.mem 0 = some (2, 74)) && decide (Mem.addrOf w.mem 0 = some (.blk 0)) &&
     compiles (isConstMethod Mem.exCfg 0) ⟨.constPolyRef, false, .lvalue⟩ &&
     compiles (isConstMethod Mem.exCfg 0) ⟨.statefulCref, false, .lvalue⟩) = true :=
  Poly.run_witness 8 (ops := Poly.exProg ++ [.conv 6 .constPolyRef [.user 0, .user 1] 1, .conv 7 .cref [.user 0] 6])
    (by decide +kernel)

end AnyAny.Invoke
