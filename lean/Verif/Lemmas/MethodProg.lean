import Verif.Spec.MethodProg
import Verif.Props.Fate
import Verif.Lemmas.AnyMemMat
/-
Simulation: the real program (addresses) does what the ideal program (identities of objects) does.
-/
namespace AnyAny.Mem.MProg
open AnyAny.Mem AnyAny.TypeList
variable {cfg : Cfg} {body : Nat → Nat → Nat → Prog}

/-- Objects stay where they are until they are destroyed, and no identity is used again. -/
structure Tame (w w' : World) : Prop where
  mono : w.nextObj ≤ w'.nextObj
  den : ∀ p t id, id < w.nextObj → Denotes w p t id → Denotes w' p t id

theorem Tame.refl (w : World) : Tame w w := ⟨Nat.le_refl _, fun _ _ _ _ h => h⟩

theorem tame_heir {w w' : World} {σ' : Abs} {f : Nat → Option Nat} (W : WF cfg w) (R' : Rep cfg w' σ')
    (H : Heir ⟨snap w, w.nextBlk, w.nextObj, w.copies⟩ σ' f) (hm : w.nextObj ≤ w'.nextObj) : Tame w w' := by
  refine ⟨hm, fun p t id hlt D c o' ⟨h1, h2⟩ => ?_⟩
  obtain ⟨s', k1, k2⟩ := snap_of_content h1
  rw [R'.snaps] at k1
  obtain ⟨a, s, ob, e1, e2, e3, e4⟩ := H.only c s' o' k1 k2 (by rw [h2]; exact hlt)
  have hc : content w a = some ob := by rw [(of_snap e2).2.1]; exact e3
  obtain ⟨d1, d2⟩ := D a ob ⟨hc, by rw [e4, h2]⟩
  obtain ⟨o2, g1, g2, g3, g4⟩ := H.contains W R' hc d1 e1
  rw [h1] at g1; cases g1
  exact ⟨g4, by rw [g3, d2]⟩

theorem tame_ok (C : CfgOk cfg) {w w' : World} {op : Op} (W : WF cfg w) (L : Legal cfg w op)
    (he : exec cfg op w = .ok () w') : WF cfg w' ∧ Tame w w' := by
  obtain ⟨σ', R', H⟩ := heir_step C W L he
  exact ⟨R'.wf, tame_heir W R' H ((mono_exec (cfg := cfg) op w).1 _ _ he).obj⟩

theorem tame_exn (C : CfgOk cfg) {w w' : World} {op : Op} (W : WF cfg w) (L : Legal cfg w op)
    (he : exec cfg op w = .exn w') : WF cfg w' ∧ Tame w w' := by
  obtain ⟨σ', f, R', H, _⟩ := heir_exn C W L he
  exact ⟨R'.wf, tame_heir W R' H ((mono_exec (cfg := cfg) op w).2 _ he).obj⟩

theorem content_snap (w : World) (a : Nat) : content w a = (snap w a).bind (·.obj) := by
  unfold snap content
  cases w.anys a <;> rfl

theorem methodsOf_snap (w : World) (a : Nat) : methodsOf w a = (snap w a).map (·.ms) := by
  unfold snap methodsOf
  cases w.anys a <;> rfl

theorem addrOf_snap {w : World} (W : WF cfg w) (a : Nat) : addrOf w a = (snap w a).map (·.loc a) := by
  cases h : snap w a with
  | some s => exact addr_of_snap W h
  | none =>
    have : w.anys a = none := by
      unfold snap at h
      cases hh : w.anys a with
      | none => rfl
      | some _ => simp [hh] at h
    simp [addrOf, this]

/-- Effect of a write. -/
theorem write_spec {w : World} (W : WF cfg w) {a : Nat} {o : Obj} {p : Ptr} (x : Nat) (hc : content w a = some o) (hp : addrOf w a = some p) :
    readObj p o.ty w = .ok o w ∧ ∃ w', writeObj p o.ty x w = .ok () w' ∧ WF cfg w' ∧ Tame w w' ∧
      content w' a = some { o with val := x } ∧ (∀ c, c ≠ a → content w' c = content w c) ∧
      (∀ c, addrOf w' c = addrOf w c) ∧ (∀ c, methodsOf w' c = methodsOf w c) := by
  obtain ⟨s, h1, h2⟩ := snap_of_content hc
  have R := Rep.of_wf W
  have hp' := addr_of_snap W h1
  rw [hp] at hp'; cases hp'
  refine ⟨readObj_spec R h1 h2, ?_⟩
  obtain ⟨w', k1, k2⟩ := writeObj_spec (x := x) R h1 h2
  have hsa : snap w' a = some { s with obj := some { o with val := x } } := by
    rw [k2.snaps]; simp [Abs.set, upd]
  have hso : ∀ c, c ≠ a → snap w' c = snap w c := fun c hc => by
    rw [k2.snaps]; simp [Abs.set, upd, hc]
  have hct : content w' a = some { o with val := x } := by rw [content_snap, hsa]; rfl
  have hco : ∀ c, c ≠ a → content w' c = content w c := fun c hc => by rw [content_snap, content_snap, hso c hc]
  have had : ∀ c, addrOf w' c = addrOf w c := fun c => by
    rw [addrOf_snap k2.wf, addrOf_snap W]
    by_cases e : c = a
    · subst e; rw [hsa, h1]; rfl
    · rw [hso c e]
  have hms : ∀ c, methodsOf w' c = methodsOf w c := fun c => by
    rw [methodsOf_snap, methodsOf_snap]
    by_cases e : c = a
    · subst e; rw [hsa, h1]; rfl
    · rw [hso c e]
  refine ⟨w', k1, k2.wf, ⟨Nat.le_of_eq k2.no.symm, fun q t id hlt D c o' hh => ?_⟩, hct, hco, had, hms⟩
  obtain ⟨g1, g2⟩ := hh
  rw [had c]
  by_cases e : c = a
  · subst e
    rw [hct] at g1; cases g1
    exact D c o ⟨hc, g2⟩
  · rw [hco c e] at g1
    exact D c o' ⟨g1, g2⟩

/-- Pointers of the simulation: identities in use. -/
def PtrsI (w : World) (h : Option Typed) (i : Option Nat) : Prop := Ptrs w h i ∧ ∀ id, i = some id → id < w.nextObj

def RefsI (w : World) (r : Option PRef) (i : Option (Nat × List Method)) : Prop :=
  Refs w r i ∧ (∀ id ms, i = some (id, ms) → id < w.nextObj) ∧ ∀ r', r = some r' → VtOk r'.ms r'.vt

def WaitingI (w : World) : List (Option Typed × (Bool → Prog)) → List (Option Nat × (Bool → Prog)) → Prop
  | [], [] => True
  | (h, k) :: st, (i, k') :: st' => PtrsI w h i ∧ k = k' ∧ WaitingI w st st'
  | _, _ => False

structure Sim (cfg : Cfg) (s : State Typed PRef) (i : Ideal) : Prop where
  wf : WF cfg i.w
  w : s.w = i.w
  prog : s.prog = i.prog
  me : PtrsI i.w s.me i.me
  ptrs : ∀ n, PtrsI i.w (s.ptrs n) (i.ptrs n)
  refs : ∀ n, RefsI i.w (s.refs n) (i.refs n)
  stack : WaitingI i.w s.stack i.stack

theorem PtrsI.tame {w w' : World} (T : Tame w w') {h : Option Typed} {i : Option Nat} (P : PtrsI w h i) : PtrsI w' h i := by
  refine ⟨?_, fun id hi => Nat.lt_of_lt_of_le (P.2 id hi) T.mono⟩
  match h, i, P with
  | none, none, _ => trivial
  | some h, some id, P => exact T.den _ _ _ (P.2 id rfl) P.1
  | none, some _, P => exact P.1.elim
  | some _, none, P => exact P.1.elim

theorem RefsI.tame {w w' : World} (T : Tame w w') {h : Option PRef} {i : Option (Nat × List Method)} (P : RefsI w h i) : RefsI w' h i := by
  refine ⟨?_, fun id ms hi => Nat.lt_of_lt_of_le (P.2.1 id ms hi) T.mono, P.2.2⟩
  match h, i, P with
  | none, none, _ => trivial
  | some h, some (id, ms), P => exact ⟨T.den _ _ _ (P.2.1 id ms rfl) P.1.1, P.1.2⟩
  | none, some _, P => exact P.1.elim
  | some _, none, P => exact P.1.elim

theorem WaitingI.tame {w w' : World} (T : Tame w w') : ∀ {st st'}, WaitingI w st st' → WaitingI w' st st'
  | [], [], _ => trivial
  | (_, _) :: _, (_, _) :: _, ⟨h1, h2, h3⟩ => ⟨h1.tame T, h2, h3.tame T⟩

theorem WaitingI.out {w : World} : ∀ {st st'}, WaitingI w st st' → Waiting w st st'
  | [], [], _ => trivial
  | (_, _) :: _, (_, _) :: _, ⟨h1, h2, h3⟩ => ⟨h1.1, h2, h3.out⟩

theorem Sim.same {s : State Typed PRef} {i : Ideal} (S : Sim cfg s i) : Same s i :=
  ⟨S.w, S.prog, S.me.1, fun n => (S.ptrs n).1, fun n => (S.refs n).1, S.stack.out⟩

theorem PtrsI.of_some {w : World} {h : Option Typed} {id : Nat} (P : PtrsI w h (some id)) :
    ∃ t, h = some t ∧ Denotes w t.ptr t.ty id := by
  match h, P with
  | some t, P => exact ⟨t, rfl, P.1⟩
  | none, P => exact P.1.elim

theorem RefsI.of_some {w : World} {h : Option PRef} {id : Nat} {ms : List Method} (P : RefsI w h (some (id, ms))) :
    ∃ t, h = some t ∧ Denotes w t.ptr t.vt.ty id ∧ t.ms = ms ∧ VtOk t.ms t.vt := by
  match h, P with
  | some t, P => exact ⟨t, rfl, P.1.1, P.1.2, P.2.2 t rfl⟩
  | none, P => exact P.1.elim

/-- A new pointer to the value of `a`. -/
theorem PtrsI.of_content {w : World} (W : WF cfg w) {a : Nat} {o : Obj} {p : Ptr} (hc : content w a = some o) (hp : addrOf w a = some p) :
    PtrsI w (some ⟨p, o.ty⟩) (some o.id) := by
  obtain ⟨_, _, _, _, _, _, _, hlt, _⟩ := content_full W hc
  refine ⟨fun c o' ⟨h1, h2⟩ => ?_, fun id h => by cases h; exact hlt⟩
  have := W.objInj c a o' o h1 hc h2
  subst this
  rw [hc] at h1; cases h1
  exact ⟨hp, rfl⟩

theorem upd_ptrs {A B : Type} {f : Nat → A} {g : Nat → B} {r : A → B → Prop} (h : ∀ n, r (f n) (g n)) {i : Nat} {x : A} {y : B} (hx : r x y) :
    ∀ n, r (upd f i x n) (upd g i y n) := fun n => by
  unfold upd
  by_cases e : n = i
  · simp only [e, if_true]; exact hx
  · simp only [e, if_false]; exact h n

theorem Sim.world {s : State Typed PRef} {i : Ideal} (S : Sim cfg s i) {w' : World} (W : WF cfg w') (T : Tame i.w w') (q : Prog) :
    Sim cfg { s with prog := q, w := w' } { i with prog := q, w := w' } :=
  ⟨W, rfl, rfl, S.me.tame T, fun n => (S.ptrs n).tame T, fun n => (S.refs n).tame T, S.stack.tame T⟩

theorem poke_spec {w : World} (W : WF cfg w) {h : Typed} {id : Nat} (D : Denotes w h.ptr h.ty id) (f : Nat → Nat) {a : Nat} {o : Obj} (H : Holds w a id o) :
    ∃ w', poke h f w = .ok o.val w' ∧ Write w a o (f o.val) w' ∧ WF cfg w' ∧ Tame w w' := by
  obtain ⟨d1, d2⟩ := D a o H
  obtain ⟨r, w', k1, k2, k3, _⟩ := write_spec W (f o.val) H.1 d1
  rw [d2] at r k1
  exact ⟨w', by simp [poke, bind_apply, r, k1], ⟨_, d1, by rw [d2]; exact k1⟩, k2, k3⟩

theorem enter_spec {w : World} (W : WF cfg w) {a m : Nat} {o : Obj} {ms : List Method} (hc : content w a = some o)
    (hm : methodsOf w a = some ms) (hin : .user m ∈ ms) : ∃ p, addrOf w a = some p ∧ enter a m w = .ok ⟨p, o.ty⟩ w := by
  obtain ⟨s, h1, h2⟩ := snap_of_content hc
  obtain ⟨st, D⟩ := (Rep.of_wf W).det h1
  obtain ⟨v, hv, _, hty, hok, _⟩ := D.objSome _ h2
  have hms : st.ms = ms := by
    rw [methodsOf, D.get] at hm; simpa using hm
  have hslot := slotTy_ok (m := .user m) hv hok (by rw [hms]; exact hin) w
  rw [← hty] at hslot
  exact ⟨st.vp, by simp [addrOf, D.get], by simp [enter, bind_apply, getAny_det D, hslot]⟩

theorem enterRef_spec {r : PRef} (ho : VtOk r.ms r.vt) {m : Nat} (hin : .user m ∈ r.ms) (w : World) :
    enterRef r m w = .ok ⟨r.ptr, r.vt.ty⟩ w := by
  unfold enterRef
  cases hn : numberOfFirst (.user m) r.ms with
  | none => exact absurd hin ((numberOfImpl_none _ r.ms 0).1 hn)
  | some i =>
    have hi := (numberOfFirst_getElem hn)
    have : r.vt.table[r.vt.off + i]? = some (.user m) := by
      obtain ⟨t, ht⟩ := ho
      rw [← List.getElem?_drop, ← ht, List.getElem?_append_left]
      · exact hi
      · exact (List.getElem?_eq_some_iff.1 hi).1
    simp [this]

/-- What a step from simulated states leads to. -/
def Good (cfg : Cfg) (body : Nat → Nat → Nat → Prog) (i : Ideal) : Next Typed PRef → Prop
  | .next s' => ∃ i', IStep cfg body i i' ∧ Sim cfg s' i'
  | .fin b w => w = i.w ∧ i.stack = [] ∧ i.prog = if b then .raise else .ret
  | .ub => False
  | .term => ∃ o k, i.prog = .op o k ∧ mayTerminate cfg i.w o ∧ exec cfg o i.w = .term

theorem leave_good {s : State Typed PRef} {i : Ideal} (S : Sim cfg s i) (b : Bool) (hp : i.prog = if b then .raise else .ret) :
    Good cfg body i (leave b s) := by
  obtain ⟨hwf, hw, _, hme, hpt, hrf, hst⟩ := S
  unfold leave
  match hs : s.stack, hi : i.stack with
  | [], [] => exact ⟨hw, hi, hp⟩
  | (h, k) :: st, (j, k') :: st' =>
    rw [hs, hi] at hst
    obtain ⟨h1, rfl, h3⟩ := hst
    cases b
    · exact ⟨_, .ret hp hi, hwf, hw, rfl, h1, hpt, hrf, h3⟩
    · exact ⟨_, .raise hp hi, hwf, hw, rfl, h1, hpt, hrf, h3⟩
  | [], _ :: _ => rw [hs, hi] at hst; exact hst.elim
  | _ :: _, [] => rw [hs, hi] at hst; exact hst.elim

theorem step_good (C : CfgOk cfg) {s : State Typed PRef} {i : Ideal} (S : Sim cfg s i) (hok : Ok cfg i) :
    Good cfg body i (step cfg body s) := by
  have W := S.wf
  have hw := S.w
  unfold Ok at hok
  unfold step
  rw [S.prog, hw]
  cases hp : i.prog with
  | ret => exact leave_good S false hp
  | raise => exact leave_good S true hp
  | op o k =>
    rw [hp] at hok
    rcases step_spec C (Rep.of_wf W) o hok with ⟨w', σ', h', _⟩ | ⟨w', σ', h', _⟩ | ⟨hm, h'⟩
    · obtain ⟨W', T⟩ := tame_ok C W hok h'
      simp only [h', Next.of]
      exact ⟨_, .opOk hp h', S.world W' T _⟩
    · obtain ⟨W', T⟩ := tame_exn C W hok h'
      simp only [h', Next.of]
      exact ⟨_, .opExn hp h', S.world W' T _⟩
    · simp only [h', Next.of]
      exact ⟨o, k, hp, hm, h'⟩
  | call a m x k =>
    rw [hp] at hok
    obtain ⟨h1, ms, h2, h3⟩ := hok
    obtain ⟨o, ho⟩ := Option.isSome_iff_exists.1 h1
    obtain ⟨p, e1, e2⟩ := enter_spec W ho h2 h3
    simp only [e2, Next.of]
    exact ⟨_, .call hp ho, W, rfl, rfl, PtrsI.of_content W ho e1, S.ptrs, S.refs, ⟨S.me, rfl, S.stack⟩⟩
  | take j a t k =>
    rw [hp] at hok
    obtain ⟨ms, h2, h3⟩ := hok
    have hs : ∃ sn, snap i.w a = some sn ∧ sn.ms = ms := by
      rw [methodsOf_snap] at h2
      simpa using h2
    obtain ⟨sn, hsn, hsm⟩ := hs
    have hcast := anyCastPtr_spec (t := t) (Rep.of_wf W) hsn (fun _ => by rw [hsm]; exact h3)
    by_cases hc : sn.obj.map (·.ty) = some t
    · rw [if_pos hc] at hcast
      obtain ⟨ob, hob, hty⟩ := Option.map_eq_some_iff.1 hc
      have ho : content i.w a = some ob := by rw [(of_snap hsn).2.1]; exact hob
      simp only [hcast, Next.of]
      refine ⟨_, .take hp ho hty, W, rfl, rfl, S.me, upd_ptrs S.ptrs ?_, S.refs, S.stack⟩
      rw [← hty]
      exact PtrsI.of_content W ho (addr_of_snap W hsn)
    · rw [if_neg hc] at hcast
      simp only [hcast, Next.of]
      refine ⟨_, .takeNull hp fun o ho hty => hc ?_, W, rfl, rfl, S.me, upd_ptrs S.ptrs ⟨trivial, fun _ h => nomatch h⟩, S.refs, S.stack⟩
      rw [(of_snap hsn).2.1] at ho
      rw [ho, ← hty]; rfl
  | bind j a ms k =>
    rw [hp] at hok
    obtain ⟨h1, ms', h2, h3⟩ := hok
    obtain ⟨o, ho⟩ := Option.isSome_iff_exists.1 h1
    obtain ⟨sn, hsn, hob⟩ := snap_of_content ho
    have hsm : sn.ms = ms' := by rw [methodsOf_snap, hsn] at h2; simpa using h2
    obtain ⟨tt, v, v', k1, k2, k3, k4, k5, k6⟩ := refTo_spec (Rep.of_wf W) hsn hob (by rw [hsm]; exact h3)
    have ha : addrOf i.w a = some tt.vp := by simp [addrOf, k1]
    simp only [k3, Next.of]
    refine ⟨_, .bind hp ho, W, rfl, rfl, S.me, S.ptrs, upd_ptrs S.refs ⟨⟨?_, rfl⟩, ?_, fun r' h => by cases h; exact k6⟩, S.stack⟩
    · simp only; rw [k5]; exact (PtrsI.of_content W ho ha).1
    · intro id ms' h; cases h; exact (PtrsI.of_content W ho ha).2 _ rfl
  | callRef j m x k =>
    rw [hp] at hok
    obtain ⟨id, ms, h1, ⟨a, o, ho⟩, h3⟩ := hok
    have P := S.refs j
    rw [h1] at P
    have hlt := P.2.1 id ms rfl
    obtain ⟨r, e1, e2, e3, e4⟩ := P.of_some
    have hent := enterRef_spec e4 (by rw [e3]; exact h3) i.w
    have hty := (e2 a o ho).2
    simp only [e1, hent, Next.of]
    rw [← hty]
    refine ⟨_, .callRef hp h1 ho, W, rfl, rfl, ⟨?_, fun _ h => by cases h; exact hlt⟩, S.ptrs, S.refs, ⟨S.me, rfl, S.stack⟩⟩
    simp only [Ptrs, hty]; exact e2
  | self f k =>
    rw [hp] at hok
    obtain ⟨id, h1, a, o, ho⟩ := hok
    have P := S.me
    rw [h1] at P
    obtain ⟨t, e1, e2⟩ := P.of_some
    obtain ⟨w', k1, k2, k3, k4⟩ := poke_spec W e2 f ho
    simp only [e1, k1, Next.of]
    have := S.world k3 k4 (k o.val)
    rw [e1] at this
    exact ⟨_, .self hp h1 ho k2, this⟩
  | use j f k =>
    rw [hp] at hok
    obtain ⟨id, h1, a, o, ho⟩ := hok
    have P := S.ptrs j
    rw [h1] at P
    obtain ⟨t, e1, e2⟩ := P.of_some
    obtain ⟨w', k1, k2, k3, k4⟩ := poke_spec W e2 f ho
    simp only [e1, k1, Next.of]
    exact ⟨_, .use hp h1 ho k2, S.world k3 k4 (k o.val)⟩

theorem sim_start {w : World} (W : WF cfg w) (p : Prog) : Sim cfg (.start p w) (.start p w) :=
  ⟨W, rfl, rfl, ⟨trivial, fun _ h => nomatch h⟩, fun _ => ⟨trivial, fun _ h => nomatch h⟩,
    fun _ => ⟨trivial, fun _ _ h => (nomatch h), fun _ h => (nomatch h)⟩, trivial⟩

theorem ISteps.snoc {n : Nat} {s s' s'' : Ideal} (h : ISteps cfg body n s s') (h' : IStep cfg body s' s'') : ISteps cfg body (n + 1) s s'' := by
  induction h with
  | refl s => exact .head h' (.refl _)
  | head h1 _ ih => exact .head h1 (ih h')

/-- Outcome of `n` steps from simulated states. -/
def GoodN (cfg : Cfg) (body : Nat → Nat → Nat → Prog) (n : Nat) (i : Ideal) : Next Typed PRef → Prop
  | .next s' => ∃ i', ISteps cfg body n i i' ∧ Sim cfg s' i'
  | .fin b w => ∃ m i', m ≤ n ∧ ISteps cfg body m i i' ∧ WF cfg w ∧ w = i'.w ∧ i'.stack = [] ∧ i'.prog = if b then .raise else .ret
  | .ub => False
  | .term => ∃ m i' o k, m ≤ n ∧ ISteps cfg body m i i' ∧ i'.prog = .op o k ∧ mayTerminate cfg i'.w o

theorem runN_good (C : CfgOk cfg) : ∀ (n : Nat) {s : State Typed PRef} {i : Ideal}, Sim cfg s i → Careful cfg body i →
    GoodN cfg body n i (runN cfg body n s)
  | 0, s, i, S, _ => ⟨i, .refl i, S⟩
  | n + 1, s, i, S, hc => by
    have g := step_good (body := body) C S (hc 0 i (.refl i))
    unfold runN
    cases he : step cfg body s with
    | next s' =>
      rw [he] at g
      obtain ⟨i', h1, S'⟩ := g
      have ih := runN_good C n S' fun m j hj => hc (m + 1) j (.head h1 hj)
      simp only
      cases hr : runN cfg body n s' with
      | next s2 =>
        rw [hr] at ih
        obtain ⟨j, k1, k2⟩ := ih
        exact ⟨j, .head h1 k1, k2⟩
      | fin b w =>
        rw [hr] at ih
        obtain ⟨m, j, k1, k2, k3⟩ := ih
        exact ⟨m + 1, j, Nat.succ_le_succ k1, .head h1 k2, k3⟩
      | ub => rw [hr] at ih; exact ih
      | term =>
        rw [hr] at ih
        obtain ⟨m, j, o, k, k1, k2, k3⟩ := ih
        exact ⟨m + 1, j, o, k, Nat.succ_le_succ k1, .head h1 k2, k3⟩
    | fin b w =>
      rw [he] at g
      obtain ⟨g1, g2, g3⟩ := g
      exact ⟨0, i, Nat.zero_le _, .refl i, by rw [g1]; exact S.wf, g1, g2, g3⟩
    | ub => rw [he] at g; exact g
    | term =>
      rw [he] at g
      obtain ⟨o, k, g1, g2, _⟩ := g
      exact ⟨0, i, o, k, Nat.zero_le _, .refl i, g1, g2⟩

end AnyAny.Mem.MProg
