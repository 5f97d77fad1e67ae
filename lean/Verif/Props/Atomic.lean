import Verif.Model.Atomic
import Verif.Props.Poly
/-
C97: `std::atomic` of polymorphic pointers. `Reach cfg w S` is that of C31: `S` gives the class and the target (null, or dynamic type and address) of every pointer; by C38
`==` compares targets. `at_`, `e` and `d` are variables of one and the same pointer type.
-/
namespace AnyAny.Poly
open AnyAny.TypeList
open AnyAny.Mem (Method Cfg CfgOk Ptr VtPtr World AnySt Obj upd content addrOf snap exCfg exCfg_ok exMs)

variable {cfg : Cfg}

/-- Only stateful references are borrowed from. -/
private theorem lender_stateful {w : PW} {S : SRefs} (h : Reach cfg w S) :
    ∀ n s r, S n = some s → s.lender = some r → ∃ t, S r = some t ∧ t.kind.isStateful = true := by
  induction h with
  | init => intro n s r h; cases h
  | exn _ _ _ ih => exact ih
  | @ok w w' S op hr L _ ih =>
    -- a statement that defines `x` as `o`, where `o` borrows from a stateful reference other than `x`, if at all
    have key : ∀ (x : Nat) (o : Option SRef), NotLent S x →
        (∀ s r, o = some s → s.lender = some r → r ≠ x ∧ ∃ t, S r = some t ∧ t.kind.isStateful = true) →
        ∀ n s r, upd S x o n = some s → s.lender = some r → ∃ t, upd S x o r = some t ∧ t.kind.isStateful = true := by
      intro x o hN ho n s r hn hl
      simp only [upd] at hn ⊢
      by_cases hnx : n = x
      · rw [if_pos hnx] at hn
        obtain ⟨h1, t, h2, h3⟩ := ho s r hn hl
        exact ⟨t, by rw [if_neg h1]; exact h2, h3⟩
      · rw [if_neg hnx] at hn
        have hrx : r ≠ x := fun h => hN n s hn (h ▸ hl)
        obtain ⟨t, h2, h3⟩ := ih n s r hn hl
        exact ⟨t, by rw [if_neg hrx]; exact h2, h3⟩
    have src : ∀ (x m : Nat) (f : SRef → SRef), NotLent S x → (∀ s r, (f s).lender = some r → s.lender = some r) →
        ∀ s r, (S m).map f = some s → s.lender = some r → r ≠ x ∧ ∃ t, S r = some t ∧ t.kind.isStateful = true := by
      intro x m f hN hf s r hs hl
      obtain ⟨s', hs', rfl⟩ := Option.map_eq_some_iff.1 hs
      have := hf _ _ hl
      exact ⟨fun h => hN m s' hs' (h ▸ this), ih m s' r hs' this⟩
    cases op with
    | newVar | dropVar | mem | invoke => exact ih
    | ofVar x k ms y => exact key _ _ L.1 (fun s r h hl => by cases h; cases hl)
    | ofAny x k ms a => exact key _ _ L.1 (fun s r h hl => by cases h; cases hl)
    | ofNullT x k ms t => exact key _ _ L.1 (fun s r h hl => by cases h; cases hl)
    | ofNull x k ms => exact key _ _ L.1 (fun s r h hl => by cases h; cases hl)
    | drop x => exact key _ _ L (fun s r h hl => by cases h)
    | conv x k ms m =>
      refine key _ _ L.1 (src x m _ L.1 fun s r hl => ?_)
      by_cases hk : k.isStateful = true
      · simp [hk] at hl
      · simpa [hk] using hl
    | assign x m =>
      refine key _ _ L.1 fun s r h hl => ?_
      exact ⟨fun hx => L.1 m s h (hx ▸ hl), ih m s r h hl⟩
    | addrOf x m => exact key _ _ L.1 (src x m _ L.1 fun s r hl => hl)
    | deref x m => exact key _ _ L.1 (src x m _ L.1 fun s r hl => hl)
    | constCast x m => exact key _ _ L.1 (src x m _ L.1 fun s r hl => hl)
    | view x m =>
      obtain ⟨hN, hne, s0, hs0, hst⟩ := L
      refine key _ _ hN fun s r h hl => ?_
      rw [hs0] at h
      cases h
      cases hl
      exact ⟨fun h => hne h.symm, s0, hs0, hst⟩

private theorem ptr_notLent {w : PW} {S : SRefs} (h : Reach cfg w S) {r : Nat} {s : SRef} (hs : S r = some s) (hp : s.kind.isPtr = true) :
    NotLent S r := by
  intro n t ht hl
  obtain ⟨t', h1, h2⟩ := lender_stateful h n t r ht hl
  rw [hs] at h1
  cases h1
  revert hp h2
  cases s.kind <;> simp [Kind.isPtr, Kind.isStateful]

/-- The bytes determine the target. -/
private theorem bytes_target {w : PW} {o o' : RefObj} {s s' : SRef} (A : Agree w o s) (A' : Agree w o' s') (hk : s.kind = s'.kind) (hm : s.ms = s'.ms)
    (hne : s.ms ≠ []) (h : sameBytes o o' = true) : s.target = s'.target := by
  simp only [sameBytes, Bool.and_eq_true, beq_iff_eq] at h
  obtain ⟨hv, ha⟩ := h
  have hk' : o.kind = o'.kind := by rw [A.kind, A'.kind, hk]
  have hm' : o.ms = o'.ms := by rw [A.ms, A'.ms, hm]
  have hne' : o.ms ≠ [] := by rw [A.ms]; exact hne
  have M := A.means
  have M' := A'.means
  match ht : s.target, ht' : s'.target with
  | none, none => rfl
  | none, some (T', a') =>
    rw [ht] at M; rw [ht'] at M'
    have h1 := IsNull.val M
    have h2 := Den.val M'
    rw [ha, h2] at h1; cases h1
  | some (T, a), none =>
    rw [ht] at M; rw [ht'] at M'
    have h1 := IsNull.val M'
    have h2 := Den.val M
    rw [ha, h1] at h2; cases h2
  | some (T, a), some (T', a') =>
    rw [ht] at M; rw [ht'] at M'
    have h1 := Den.val M
    have h2 := Den.val M'
    rw [ha, h2] at h1
    cases h1
    obtain ⟨m, tl, hml⟩ : ∃ m tl, o.ms = m :: tl := by
      cases h : o.ms with
      | nil => exact absurd h hne'
      | cons m tl => exact ⟨m, tl, rfl⟩
    have hTT : T = T' := by
      cases hvv : viewVal o.kind o.ms with
      | true =>
        have e1 := Den.byVal M hvv
        have e2 := Den.byVal M' (by rw [← hk', ← hm']; exact hvv)
        rw [hv, e2, ← hm', hml] at e1
        simp only [List.map_cons, View.value.injEq, List.cons.injEq, Option.some.injEq, Entry.mk.injEq, true_and] at e1
        exact e1.1.symm
      | false =>
        obtain ⟨p, e1, P, _⟩ := Den.byPtr M hvv
        obtain ⟨p', e2, P', _⟩ := Den.byPtr M' (by rw [← hk', ← hm']; exact hvv)
        rw [hv, e2] at e1
        cases e1
        have q := P 0 m (by rw [hml]; rfl) 0
        have q' := P' 0 m (by rw [← hm', hml]; rfl) 0
        rw [q] at q'
        simp only [PRes.ok.injEq, Option.some.injEq, Entry.mk.injEq, true_and, and_true] at q'
        exact q'
    rw [hTT]

private theorem sameBytes_refl (o : RefObj) : sameBytes o o = true := by simp [sameBytes]

/-- **C97**, what holds: `at.compare_exchange_strong(expected, desired)` succeeds only if the pointer in the atomic equals `expected`, and then the atomic has the desired
pointer; if it fails, `expected` is the pointer in the atomic and the atomic is unchanged, and the next try (with nothing in between) succeeds, so that
the usual loops end. `load` and `store` copy the pointer. In every case the result is a state of C31, in which all pointers can be used. -/
theorem C97_partial (C : CfgOk cfg) {w : PW} {S : SRefs} (h : Reach cfg w S) {at_ e d : Nat} {s t u : SRef} (hs : S at_ = some s) (ht : S e = some t)
    (hu : S d = some u) (hp : s.kind.isPtr = true) (hk : s.kind = t.kind ∧ s.kind = u.kind) (hm : s.ms = t.ms ∧ s.ms = u.ms) (hne : s.ms ≠ []) :
    (∃ w', atomicLoad e at_ w = .ok () w' ∧ Reach cfg w' (upd S e (some s)) ∧
      ∃ w'', compareExchange at_ e d w' = .ok true w'') ∧
    (∃ w', atomicStore at_ d w = .ok () w' ∧ Reach cfg w' (upd S at_ (some u))) ∧
    ((∃ w', compareExchange at_ e d w = .ok true w' ∧ s.target = t.target ∧ Reach cfg w' (upd S at_ (some u))) ∨
     (∃ w', compareExchange at_ e d w = .ok false w' ∧ Reach cfg w' (upd S e (some s)) ∧
       ∃ w'', compareExchange at_ e d w' = .ok true w'')) := by
  have I := h.inv C
  obtain ⟨a, ha, A⟩ := I.get hs
  obtain ⟨x, hx, X⟩ := I.get ht
  obtain ⟨y, hy, Y⟩ := I.get hu
  have hNa : NotLent S at_ := ptr_notLent h hs hp
  have hNe : NotLent S e := ptr_notLent h ht (by rw [← hk.1]; exact hp)
  have hload : exec cfg (.assign e at_) w = .ok () { w with refs := updR w.refs (.var e) (some a) } := by
    simp [exec, bindVar, getRef, ha, setRef, bind, PM.bind]
  have hstore : exec cfg (.assign at_ d) w = .ok () { w with refs := updR w.refs (.var at_) (some y) } := by
    simp [exec, bindVar, getRef, hy, setRef, bind, PM.bind]
  have Rload : Reach cfg { w with refs := updR w.refs (.var e) (some a) } (upd S e (some s)) := by
    have := Reach.ok h (op := .assign e at_) ⟨hNe, t, s, ht, hs, hk.1.symm, hm.1.symm⟩ hload
    simp only [specStep, hs] at this
    exact this
  have Rstore : Reach cfg { w with refs := updR w.refs (.var at_) (some y) } (upd S at_ (some u)) := by
    have := Reach.ok h (op := .assign at_ d) ⟨hNa, s, u, hs, hu, hk.2, hm.2⟩ hstore
    simp only [specStep, hu] at this
    exact this
  have hretry : ∃ w'', compareExchange at_ e d { w with refs := updR w.refs (.var e) (some a) } = .ok true w'' := by
    have h1 : updR w.refs (.var e) (some a) (.var at_) = some a := by
      simp only [updR]; split <;> first | rfl | exact ha
    have h2 : updR w.refs (.var e) (some a) (.var e) = some a := by simp [updR]
    have h3 : ∃ z, updR w.refs (.var e) (some a) (.var d) = some z := by
      simp only [updR]; split
      · exact ⟨_, rfl⟩
      · exact ⟨_, hy⟩
    obtain ⟨z, h3⟩ := h3
    exact ⟨_, by simp [compareExchange, getRef, h1, h2, h3, setRef, bind, PM.bind, sameBytes_refl, pure, PM.pure]; rfl⟩
  refine ⟨⟨_, hload, Rload, hretry⟩, ⟨_, hstore, Rstore⟩, ?_⟩
  by_cases hb : sameBytes a x = true
  · refine .inl ⟨_, ?_, bytes_target A X hk.1 hm.1 hne hb, Rstore⟩
    simp [compareExchange, getRef, ha, hx, hy, setRef, bind, PM.bind, hb, pure, PM.pure]
  · refine .inr ⟨_, ?_, Rload, hretry⟩
    simp [compareExchange, getRef, ha, hx, hy, setRef, bind, PM.bind, hb, pure, PM.pure]

/-- For pointers with one method that are not null, `compare_exchange_strong` succeeds exactly if the pointers are equal. -/
theorem C97_one_method (C : CfgOk cfg) {w : PW} {S : SRefs} (h : Reach cfg w S) {at_ e d : Nat} {s t u : SRef} (hs : S at_ = some s) (ht : S e = some t)
    (hu : S d = some u) (hp : s.kind.isPtr = true) (hk : s.kind = t.kind) (hm : s.ms = t.ms) (h1 : s.ms.length = 1) (hn : s.target ≠ none) :
    ∃ w', compareExchange at_ e d w = .ok (decide (s.target = t.target)) w' := by
  have I := h.inv C
  obtain ⟨a, ha, A⟩ := I.get hs
  obtain ⟨x, hx, X⟩ := I.get ht
  obtain ⟨y, hy, Y⟩ := I.get hu
  have hne : s.ms ≠ [] := fun h => by rw [h] at h1; cases h1
  have hb : sameBytes a x = decide (s.target = t.target) := by
    rw [Bool.eq_iff_iff, decide_eq_true_iff]
    refine ⟨bytes_target A X hk hm hne, fun htt => ?_⟩
    obtain ⟨⟨T, p⟩, hT⟩ := Option.ne_none_iff_exists'.1 hn
    have M := A.means
    have M' := X.means
    rw [hT] at M
    rw [← htt, hT] at M'
    have hv : viewVal a.kind a.ms = true := by simp [viewVal, byValue, A.ms, h1]
    have hv' : viewVal x.kind x.ms = true := by simp [viewVal, byValue, X.ms, ← hm, h1]
    simp [sameBytes, Den.val M, Den.val M', Den.byVal M hv, Den.byVal M' hv', A.ms, X.ms, hm]
  cases hd : decide (s.target = t.target) with
  | true =>
    rw [hd] at hb
    exact ⟨_, by simp [compareExchange, getRef, ha, hx, hy, setRef, bind, PM.bind, hb, pure, PM.pure]; rfl⟩
  | false =>
    rw [hd] at hb
    exact ⟨_, by simp [compareExchange, getRef, ha, hx, hy, setRef, bind, PM.bind, hb, pure, PM.pure]; rfl⟩

/-- The full C97 fails: `P(nullptr)` and `P(static_cast<T*>(nullptr))` are equal, but `compare_exchange_strong` tells them apart, for all pointer types and all `T`. -/
theorem C97_null_fails (cfg : Cfg) {k : Kind} (hk : k.isPtr = true) (ms : List Method) (T : Nat) :
    ∃ w S, Reach cfg w S ∧ S 0 = some ⟨k, ms, none, none⟩ ∧ S 1 = some ⟨k, ms, none, none⟩ ∧ ∃ w', compareExchange 0 1 1 w = .ok false w' := by
  have hN : ∀ r, NotLent (fun _ => none) r := fun r n s h => by cases h
  have e1 : exec cfg (.ofNull 1 k ms) PW.init = .ok () { PW.init with refs := updR PW.init.refs (.var 1) (some (ptrNull k ms)) } := rfl
  have R1 := Reach.ok Reach.init (op := .ofNull 1 k ms) ⟨hN 1, hk⟩ e1
  have hN0 : NotLent (specStep PW.init (fun _ => none) (.ofNull 1 k ms)) 0 := by
    intro n s h
    simp only [specStep, upd] at h
    split at h
    · cases h; simp
    · cases h
  have e2 : ∃ o, exec cfg (.ofNullT 0 k ms T) { PW.init with refs := updR PW.init.refs (.var 1) (some (ptrNull k ms)) }
      = .ok () { PW.init with refs := updR (updR PW.init.refs (.var 1) (some (ptrNull k ms))) (.var 0) (some o) } ∧ o.view ≠ nullView ms := by
    by_cases hb : byValue ms = true
    · obtain ⟨m, rfl⟩ : ∃ m, ms = [m] := by
        match ms, hb with
        | [m], _ => exact ⟨m, rfl⟩
      exact ⟨⟨k, [m], .value [some ⟨m, T⟩], none⟩, rfl, by simp [nullView, byValue]⟩
    · refine ⟨⟨k, ms, .ptr (some (.static ⟨T, ms, 0⟩)), none⟩, ?_, by simp [nullView, hb]⟩
      simp [exec, bindVar, ptrOfNullT, mkView, hb, setRef, bind, PM.bind, pure, PM.pure]
  obtain ⟨o, e2, hv⟩ := e2
  have R2 := Reach.ok R1 (op := .ofNullT 0 k ms T) ⟨hN0, hk⟩ e2
  refine ⟨_, _, R2, by simp [specStep, upd], by simp [specStep, upd], ?_⟩
  have hb : sameBytes o (ptrNull k ms) = false := by simp [sameBytes, ptrNull, hv]
  exact ⟨_, by simp [compareExchange, getRef, setRef, bind, PM.bind, updR, hb, pure, PM.pure]; rfl⟩

/-- Nor does it hold for pointers that are not null: a pointer to `x` and a pointer to `x` converted from one with more methods are equal, but
`compare_exchange_strong` tells them apart, whenever there are two methods or more. -/
theorem C97_conversion_fails (cfg : Cfg) {ms ms' : List Method} (hi : ms <:+: ms') (hne : ms ≠ ms') (hl : 2 ≤ ms.length) (T v : Nat) :
    ∃ w S, Reach cfg w S ∧ S 0 = some ⟨.polyPtr, ms, some (T, .var 0), none⟩ ∧ S 1 = some ⟨.polyPtr, ms, some (T, .var 0), none⟩ ∧
      ∃ w', compareExchange 0 1 1 w = .ok false w' := by
  obtain ⟨i, hf⟩ : ∃ i, findSubsequence ms ms' = some i := by
    cases h : findSubsequence ms ms' with
    | none =>
      have : hasSubsequence ms ms' = true := (hasSubsequence_iff ms ms').2 ((occurs_infix ms ms').2 hi)
      simp [hasSubsequence, h] at this
    | some i => exact ⟨i, rfl⟩
  obtain ⟨b, c, hms', hbl⟩ := ((findSubsequence_some ms ms' i).1 hf).1
  obtain ⟨m0, hm0⟩ : ∃ m, ms'[i]? = some m := by
    refine ⟨ms'[i]'?_, List.getElem?_eq_getElem _⟩
    rw [hms', ← hbl]
    simp only [List.length_append]
    omega
  have hv : byValue ms = false := by simp [byValue]; omega
  have hv' : byValue ms' = false := by
    have : ms'.length = b.length + ms.length + c.length := by rw [hms', List.length_append, List.length_append]
    simp only [byValue, beq_eq_false_iff_ne]; omega
  let w1 : PW := { PW.init with vars := upd PW.init.vars 0 (some (T, v)) }
  let o' : RefObj := ⟨.polyPtr, ms', .ptr (some (.static ⟨T, ms', 0⟩)), some (.var 0)⟩
  let oc : RefObj := ⟨.polyPtr, ms, .ptr (some (.static ⟨T, ms', i⟩)), some (.var 0)⟩
  let od : RefObj := ⟨.polyPtr, ms, .ptr (some (.static ⟨T, ms, 0⟩)), some (.var 0)⟩
  let w2 : PW := { w1 with refs := updR w1.refs (.var 2) (some o') }
  let w3 : PW := { w2 with refs := updR (updR (updR w2.refs (.tmp 0) (some o')) (.tmp 0) none) (.var 0) (some oc), tmps := 1 }
  let w4 : PW := { w3 with refs := updR w3.refs (.var 1) (some od) }
  have e1 : exec cfg (.newVar 0 T v) PW.init = .ok () w1 := rfl
  have hvar : w1.vars 0 = some (T, v) := by simp [w1, upd]
  have e2 : exec cfg (.ofVar 2 .polyPtr ms' 0) w1 = .ok () w2 := by
    simp [exec, bindVar, Kind.isStateful, polyOfVar, hvar, mkView, hv', bind, PM.bind, pure, PM.pure, setRef, w2, o']
  have hr2 : w2.refs (.var 2) = some o' := by simp [w2, updR]
  have e3 : exec cfg (.conv 0 .polyPtr ms 2) w2 = .ok () w3 := by
    have ht : w2.tmps = 0 := rfl
    simp [exec, bindVar, convert, convPtr, convPtrFrom, getRef, hr2, bind, PM.bind, withTemp, updR, vtablePtr, nonNull, subtable, hne, hf, entryAt, hm0,
      mkView, hv, pure, PM.pure, setRef, w3, o', oc, ht]
  have hvar3 : w3.vars 0 = some (T, v) := hvar
  have e4 : exec cfg (.ofVar 1 .polyPtr ms 0) w3 = .ok () w4 := by
    simp [exec, bindVar, Kind.isStateful, polyOfVar, hvar3, mkView, hv, bind, PM.bind, pure, PM.pure, setRef, w4, od]
  have R1 := Reach.ok (cfg := cfg) Reach.init (op := .newVar 0 T v) trivial e1
  have R2 := Reach.ok R1 (op := .ofVar 2 .polyPtr ms' 0) (And.intro (fun n s h => nomatch h) (by rw [hvar]; rfl)) e2
  have N3 : NotLent (specStep w1 (specStep PW.init (fun _ => none) (.newVar 0 T v)) (.ofVar 2 .polyPtr ms' 0)) 0 := by
    intro n s h
    simp only [specStep, upd] at h
    split at h
    · cases h; simp
    · cases h
  have R3 := Reach.ok R2 (op := .conv 0 .polyPtr ms 2) ⟨N3, _, rfl, hi⟩ e3
  have N4 : NotLent (specStep w2 (specStep w1 (specStep PW.init (fun _ => none) (.newVar 0 T v)) (.ofVar 2 .polyPtr ms' 0)) (.conv 0 .polyPtr ms 2)) 1 := by
    intro n s h
    simp only [specStep, upd, if_true, Option.map_some] at h
    split at h
    · cases h; simp
    · split at h
      · cases h; simp
      · cases h
  have R4 := Reach.ok R3 (op := .ofVar 1 .polyPtr ms 0) ⟨N4, by rw [hvar3]; rfl⟩ e4
  refine ⟨_, _, R4, ?_, ?_, ?_⟩
  · simp [specStep, upd, hvar, Kind.isStateful]
  · simp [specStep, upd, hvar3]
  · have h0 : w4.refs (.var 0) = some oc := by simp [w4, w3, updR]
    have h1 : w4.refs (.var 1) = some od := by simp [w4, updR]
    have hb : sameBytes oc od = false := by simp [sameBytes, oc, od, Ne.symm hne]
    exact ⟨_, by simp [compareExchange, getRef, h0, h1, setRef, bind, PM.bind, hb, pure, PM.pure]; rfl⟩

/-! Examples: three pointers of one type, two to variable 0, one to variable 1; an interface of two methods, and one of one method. -/

example : ∃ w S, Reach exCfg w S ∧
    (decide (S 0 = some ⟨.polyPtr, exMs, some (2, .var 0), none⟩) && decide (S 1 = some ⟨.polyPtr, exMs, some (2, .var 0), none⟩) &&
     decide (S 2 = some ⟨.polyPtr, exMs, some (1, .var 1), none⟩) && !exMs.isEmpty) = true :=
  run_witness 4 (ops := [.newVar 0 2 7, .newVar 1 1 8, .ofVar 0 .polyPtr exMs 0, .ofVar 1 .polyPtr exMs 0, .ofVar 2 .polyPtr exMs 1]) (by decide +kernel)

example : ∃ w S, Reach exCfg w S ∧
    (decide (S 0 = some ⟨.constPolyPtr, [.user 0], some (2, .var 0), none⟩) && decide (S 1 = some ⟨.constPolyPtr, [.user 0], some (1, .var 1), none⟩)) = true :=
  run_witness 4 (ops := [.newVar 0 2 7, .newVar 1 1 8, .ofVar 0 .constPolyPtr [.user 0] 0, .ofVar 1 .constPolyPtr [.user 0] 1]) (by decide +kernel)

example : [Method.user 0, .user 1] <:+: [.typeInfo, .user 0, .user 1] ∧ 2 ≤ [Method.user 0, .user 1].length := ⟨⟨[.typeInfo], [], rfl⟩, by decide⟩

end AnyAny.Poly
