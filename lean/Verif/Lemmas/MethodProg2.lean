import Verif.Lemmas.MethodProg
/-
The ideal program is deterministic and keeps worlds well-formed; a checker for careful programs.
-/
namespace AnyAny.Mem.MProg
open AnyAny.Mem AnyAny.TypeList
variable {cfg : Cfg} {body : Nat → Nat → Nat → Prog}

theorem Holds.inj {w : World} (W : WF cfg w) {a b id : Nat} {o p : Obj} (h : Holds w a id o) (h' : Holds w b id p) : a = b ∧ o = p := by
  have := W.objInj a b o p h.1 h'.1 (by rw [h.2, h'.2])
  subst this
  have e := h.1
  rw [h'.1] at e
  cases e
  exact ⟨rfl, rfl⟩

theorem Write.inj {w w1 w2 : World} {a x : Nat} {o : Obj} (h : Write w a o x w1) (h' : Write w a o x w2) : w1 = w2 := by
  obtain ⟨p, h1, h2⟩ := h
  obtain ⟨q, h3, h4⟩ := h'
  rw [h1] at h3; cases h3
  rw [h2] at h4; cases h4
  rfl

theorem IStep.det {i j j' : Ideal} (W : WF cfg i.w) (h : IStep cfg body i j) (h' : IStep cfg body i j') : j = j' := by
  cases h with
  | ret hp hs => cases h' <;> simp_all
  | raise hp hs => cases h' <;> simp_all
  | opOk hp he => cases h' <;> simp_all
  | opExn hp he => cases h' <;> simp_all
  | call hp hc => cases h' <;> simp_all
  | take hp hc ht => cases h' <;> simp_all
  | takeNull hp hc => cases h' <;> simp_all
  | bind hp hc => cases h' <;> simp_all
  | callRef hp hr hh =>
    cases h' with
    | callRef hp' hr' hh' =>
      rw [hp] at hp'; cases hp'
      rw [hr] at hr'; cases hr'
      obtain ⟨rfl, rfl⟩ := hh.inj W hh'
      rfl
    | _ => simp_all
  | self hp hr hh hw =>
    cases h' with
    | self hp' hr' hh' hw' =>
      rw [hp] at hp'; cases hp'
      rw [hr] at hr'; cases hr'
      obtain ⟨rfl, rfl⟩ := hh.inj W hh'
      cases hw.inj hw'
      rfl
    | _ => simp_all
  | use hp hr hh hw =>
    cases h' with
    | use hp' hr' hh' hw' =>
      rw [hp] at hp'; cases hp'
      rw [hr] at hr'; cases hr'
      obtain ⟨rfl, rfl⟩ := hh.inj W hh'
      cases hw.inj hw'
      rfl
    | _ => simp_all

theorem Write.wf {w w' : World} (W : WF cfg w) {a id x : Nat} {o : Obj} (H : Holds w a id o) (h : Write w a o x w') : WF cfg w' ∧ Tame w w' := by
  obtain ⟨p, h1, h2⟩ := h
  obtain ⟨_, w2, k1, k2, k3, _⟩ := write_spec W x H.1 h1
  rw [h2] at k1; cases k1
  exact ⟨k2, k3⟩

theorem IStep.wf (C : CfgOk cfg) {i j : Ideal} (W : WF cfg i.w) (hok : Ok cfg i) (h : IStep cfg body i j) : WF cfg j.w := by
  cases h with
  | opOk hp he => simp only [Ok, hp] at hok; exact (tame_ok C W hok he).1
  | opExn hp he => simp only [Ok, hp] at hok; exact (tame_exn C W hok he).1
  | self hp hm hh hw => exact (hw.wf W hh).1
  | use hp hm hh hw => exact (hw.wf W hh).1
  | _ => exact W

theorem ISteps.wf (C : CfgOk cfg) {n : Nat} {i j : Ideal} (W : WF cfg i.w) (hc : Careful cfg body i) (h : ISteps cfg body n i j) : WF cfg j.w := by
  induction h with
  | refl => exact W
  | head h1 _ ih => exact ih (h1.wf C W (hc 0 _ (.refl _))) fun m j hj => hc (m + 1) j (.head h1 hj)

/-- The real program makes every step of the ideal one. -/
theorem step_follows (C : CfgOk cfg) {s : State Typed PRef} {i i' : Ideal} (S : Sim cfg s i) (hok : Ok cfg i) (h : IStep cfg body i i') :
    ∃ s', step cfg body s = .next s' ∧ Sim cfg s' i' := by
  have g := step_good (body := body) C S hok
  cases he : step cfg body s with
  | next s' =>
    rw [he] at g
    obtain ⟨j, h1, S'⟩ := g
    cases h1.det S.wf h
    exact ⟨s', rfl, S'⟩
  | fin b w =>
    rw [he] at g
    obtain ⟨_, g2, g3⟩ := g
    cases b <;> cases h <;> simp_all
  | ub => rw [he] at g; exact g.elim
  | term =>
    rw [he] at g
    obtain ⟨o, k, g1, _, g2⟩ := g
    cases h <;> simp_all

theorem runN_follows (C : CfgOk cfg) {n : Nat} {i i' : Ideal} (h : ISteps cfg body n i i') : ∀ {s : State Typed PRef}, Sim cfg s i →
    Careful cfg body i → ∃ s', runN cfg body n s = .next s' ∧ Sim cfg s' i' := by
  induction h with
  | refl => exact fun S _ => ⟨_, rfl, S⟩
  | head h1 _ ih =>
    intro s S hc
    obtain ⟨s', e, S'⟩ := step_follows C S (hc 0 _ (.refl _)) h1
    obtain ⟨s2, e2, S2⟩ := ih S' fun m j hj => hc (m + 1) j (.head h1 hj)
    exact ⟨s2, by simp only [runN, e]; exact e2, S2⟩

/-- A run that respects the rules to its end. -/
inductive Ends (cfg : Cfg) (body : Nat → Nat → Nat → Prog) : Ideal → Prop
  | stop {s} : Ok cfg s → (∀ s', ¬ IStep cfg body s s') → Ends cfg body s
  | go {s s'} : Ok cfg s → IStep cfg body s s' → Ends cfg body s' → Ends cfg body s

theorem Ends.careful (C : CfgOk cfg) {i : Ideal} (h : Ends cfg body i) (W : WF cfg i.w) : Careful cfg body i := by
  induction h with
  | stop h1 h2 =>
    intro n j hj
    cases hj with
    | refl => exact h1
    | head h _ => exact absurd h (h2 _)
  | go h1 h2 _ ih =>
    intro n j hj
    cases hj with
    | refl => exact h1
    | head h hr =>
      cases h2.det W h
      exact ih (h2.wf C W h1) _ _ hr

/-- Search the object `id` in the anys `as`. -/
def findObj (w : World) (as : List Nat) (id : Nat) : Option (Nat × Obj) :=
  as.findSome? fun a => match content w a with
    | some o => if o.id = id then some (a, o) else none
    | none => none

theorem findObj_holds {w : World} {as : List Nat} {id a : Nat} {o : Obj} (h : findObj w as id = some (a, o)) : Holds w a id o := by
  obtain ⟨b, _, hb⟩ := List.exists_of_findSome?_eq_some h
  cases hc : content w b with
  | none => simp [hc] at hb
  | some p =>
    simp only [hc] at hb
    by_cases hi : p.id = id
    · simp only [hi, if_true, Option.some.injEq, Prod.mk.injEq] at hb
      obtain ⟨rfl, rfl⟩ := hb
      exact ⟨hc, hi⟩
    · simp [hi] at hb

/-- Write, as a function. -/
def writeAt (w : World) (a : Nat) (o : Obj) (x : Nat) : Option World :=
  (addrOf w a).bind fun p => match writeObj p o.ty x w with
    | .ok _ w' => some w'
    | _ => none

theorem writeAt_write {w w' : World} {a x : Nat} {o : Obj} (h : writeAt w a o x = some w') : Write w a o x w' := by
  unfold writeAt at h
  obtain ⟨p, h1, h2⟩ := Option.bind_eq_some_iff.1 h
  refine ⟨p, h1, ?_⟩
  cases hr : writeObj p o.ty x w with
  | ok u v => rw [hr] at h2; simp only [Option.some.injEq] at h2; rw [h2]
  | _ => rw [hr] at h2; cases h2

instance (ms : List Method) : Decidable (HasDesc ms) := by unfold HasDesc; infer_instance

/-- Run the ideal program to its end and check the rules; objects are searched in the anys `as`. -/
def check (cfg : Cfg) (body : Nat → Nat → Nat → Prog) (as : List Nat) : Nat → Ideal → Bool
  | 0, _ => false
  | n + 1, s =>
    match s.prog with
    | .ret => match s.stack with
      | [] => true
      | (me, k) :: st => check cfg body as n { s with me, prog := k false, stack := st }
    | .raise => match s.stack with
      | [] => true
      | (me, k) :: st => check cfg body as n { s with me, prog := k true, stack := st }
    | .op o k => decide (Legal cfg s.w o) && match exec cfg o s.w with
      | .ok _ w => check cfg body as n { s with prog := k false, w }
      | .exn w => check cfg body as n { s with prog := k true, w }
      | _ => true
    | .call a m x k => match content s.w a, methodsOf s.w a with
      | some o, some ms => decide (.user m ∈ ms) &&
          check cfg body as n { s with me := some o.id, prog := body m o.ty x, stack := (s.me, k) :: s.stack }
      | _, _ => false
    | .take i a t k => match methodsOf s.w a with
      | some ms => decide (HasDesc ms) && match content s.w a with
        | some o => if o.ty = t then check cfg body as n { s with prog := k true, ptrs := upd s.ptrs i (some o.id) }
            else check cfg body as n { s with prog := k false, ptrs := upd s.ptrs i none }
        | none => check cfg body as n { s with prog := k false, ptrs := upd s.ptrs i none }
      | none => false
    | .bind i a ms k => match content s.w a, methodsOf s.w a with
      | some o, some ms' => decide (ms <:+: ms') && check cfg body as n { s with prog := k, refs := upd s.refs i (some (o.id, ms)) }
      | _, _ => false
    | .callRef i m x k => match s.refs i with
      | some (id, ms) => decide (.user m ∈ ms) && match findObj s.w as id with
        | some (_, o) => check cfg body as n { s with me := some id, prog := body m o.ty x, stack := (s.me, k) :: s.stack }
        | none => false
      | none => false
    | .self f k => match s.me with
      | some id => match findObj s.w as id with
        | some (a, o) => match writeAt s.w a o (f o.val) with
          | some w => check cfg body as n { s with prog := k o.val, w }
          | none => false
        | none => false
      | none => false
    | .use i f k => match s.ptrs i with
      | some id => match findObj s.w as id with
        | some (a, o) => match writeAt s.w a o (f o.val) with
          | some w => check cfg body as n { s with prog := k o.val, w }
          | none => false
        | none => false
      | none => false

theorem check_ends (as : List Nat) : ∀ (n : Nat) (s : Ideal), check cfg body as n s = true → Ends cfg body s
  | 0, _, h => nomatch h
  | n + 1, s, h => by
    unfold check at h
    cases hp : s.prog with
    | ret =>
      simp only [hp] at h
      have hok : Ok cfg s := by simp only [Ok, hp]
      cases hs : s.stack with
      | nil => exact .stop hok fun s' h' => by cases h' <;> simp_all
      | cons f st =>
        obtain ⟨me, k⟩ := f
        simp only [hs] at h
        exact .go hok (.ret hp hs) (check_ends as n _ h)
    | raise =>
      simp only [hp] at h
      have hok : Ok cfg s := by simp only [Ok, hp]
      cases hs : s.stack with
      | nil => exact .stop hok fun s' h' => by cases h' <;> simp_all
      | cons f st =>
        obtain ⟨me, k⟩ := f
        simp only [hs] at h
        exact .go hok (.raise hp hs) (check_ends as n _ h)
    | op o k =>
      simp only [hp, Bool.and_eq_true, decide_eq_true_eq] at h
      obtain ⟨hl, h⟩ := h
      have hok : Ok cfg s := by simp only [Ok, hp]; exact hl
      cases he : exec cfg o s.w with
      | ok u w => simp only [he] at h; exact .go hok (.opOk hp he) (check_ends as n _ h)
      | exn w => simp only [he] at h; exact .go hok (.opExn hp he) (check_ends as n _ h)
      | ub => exact .stop hok fun s' h' => by cases h' <;> simp_all
      | term => exact .stop hok fun s' h' => by cases h' <;> simp_all
    | call a m x k =>
      simp only [hp] at h
      cases hc : content s.w a with
      | none => simp [hc] at h
      | some o =>
        cases hm : methodsOf s.w a with
        | none => simp [hc, hm] at h
        | some ms =>
          simp only [hc, hm, Bool.and_eq_true, decide_eq_true_eq] at h
          exact .go (by simp only [Ok, hp]; exact ⟨by rw [hc]; rfl, ms, hm, h.1⟩) (.call hp hc) (check_ends as n _ h.2)
    | take i a t k =>
      simp only [hp] at h
      cases hm : methodsOf s.w a with
      | none => simp [hm] at h
      | some ms =>
        simp only [hm, Bool.and_eq_true, decide_eq_true_eq] at h
        obtain ⟨hd, h⟩ := h
        have hok : Ok cfg s := by simp only [Ok, hp]; exact ⟨ms, hm, hd⟩
        cases hc : content s.w a with
        | none =>
          simp only [hc] at h
          exact .go hok (.takeNull hp fun o ho => by rw [hc] at ho; cases ho) (check_ends as n _ h)
        | some o =>
          simp only [hc] at h
          by_cases ht : o.ty = t
          · rw [if_pos ht] at h
            exact .go hok (.take hp hc ht) (check_ends as n _ h)
          · rw [if_neg ht] at h
            exact .go hok (.takeNull hp fun o' ho => by rw [hc] at ho; cases ho; exact ht) (check_ends as n _ h)
    | bind i a ms k =>
      simp only [hp] at h
      cases hc : content s.w a with
      | none => simp [hc] at h
      | some o =>
        cases hm : methodsOf s.w a with
        | none => simp [hc, hm] at h
        | some ms' =>
          simp only [hc, hm, Bool.and_eq_true, decide_eq_true_eq] at h
          exact .go (by simp only [Ok, hp]; exact ⟨by rw [hc]; rfl, ms', hm, h.1⟩) (.bind hp hc) (check_ends as n _ h.2)
    | callRef i m x k =>
      simp only [hp] at h
      rcases Option.eq_none_or_eq_some (s.refs i) with e | ⟨⟨id, ms⟩, e⟩
      · simp [e] at h
      · simp only [e, Bool.and_eq_true, decide_eq_true_eq] at h
        rcases Option.eq_none_or_eq_some (findObj s.w as id) with e2 | ⟨⟨a, o⟩, e2⟩
        · simp [e2] at h
        · simp only [e2] at h
          have hh := findObj_holds e2
          exact .go (by simp only [Ok, hp]; exact ⟨id, ms, e, ⟨a, o, hh⟩, h.1⟩) (.callRef hp e hh) (check_ends as n _ h.2)
    | self f k =>
      simp only [hp] at h
      rcases Option.eq_none_or_eq_some s.me with e | ⟨id, e⟩
      · simp [e] at h
      · simp only [e] at h
        rcases Option.eq_none_or_eq_some (findObj s.w as id) with e2 | ⟨⟨a, o⟩, e2⟩
        · simp [e2] at h
        · simp only [e2] at h
          have hh := findObj_holds e2
          rcases Option.eq_none_or_eq_some (writeAt s.w a o (f o.val)) with e3 | ⟨w', e3⟩
          · simp [e3] at h
          · simp only [e3] at h
            refine .go (by simp only [Ok, hp]; exact ⟨id, e, a, o, hh⟩) (.self hp e hh (writeAt_write e3)) (check_ends as n _ ?_)
            simpa only [e] using h
    | use i f k =>
      simp only [hp] at h
      rcases Option.eq_none_or_eq_some (s.ptrs i) with e | ⟨id, e⟩
      · simp [e] at h
      · simp only [e] at h
        rcases Option.eq_none_or_eq_some (findObj s.w as id) with e2 | ⟨⟨a, o⟩, e2⟩
        · simp [e2] at h
        · simp only [e2] at h
          have hh := findObj_holds e2
          rcases Option.eq_none_or_eq_some (writeAt s.w a o (f o.val)) with e3 | ⟨w', e3⟩
          · simp [e3] at h
          · simp only [e3] at h
            exact .go (by simp only [Ok, hp]; exact ⟨id, e, a, o, hh⟩) (.use hp e hh (writeAt_write e3)) (check_ends as n _ h)

end AnyAny.Mem.MProg
