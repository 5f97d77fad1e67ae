import Verif.Spec.SwitchUse
/-
C113: a switch can be written call by call. Partial: only the first of the calls that end it gives the result; `type_switch<void>` has no
usable `default_`; pointers cannot be switched on.
-/
namespace AnyAny.SwitchUse
open Spec

variable {W : World} {r : Option Nat} {d : Nat}

/-- The member `result` after a sequence of calls. -/
def after (W : World) (r : Option Nat) (d : Nat) (s : Option Nat) : List Call → Option Nat
  | [] => s
  | c :: cs => after W r d (exec W r d s c).2 cs

theorem after_append (s : Option Nat) (a b : List Call) : after W r d s (a ++ b) = after W r d (after W r d s a) b := by
  induction a generalizing s with
  | nil => rfl
  | cons c a ih => simp only [List.cons_append, after, ih]

theorem runFrom_at (s : Option Nat) (pre : List Call) (c : Call) (post : List Call) :
    (runFrom W r d s (pre ++ c :: post))[pre.length]? = some (exec W r d (after W r d s pre) c).1 := by
  induction pre generalizing s with
  | nil => rfl
  | cons x pre ih => simp only [List.cons_append, runFrom, List.length_cons, List.getElem?_cons_succ, ih, after]

theorem runFrom_length (s : Option Nat) (cs : List Call) : (runFrom W r d s cs).length = cs.length := by
  induction cs generalizing s with
  | nil => rfl
  | cons c cs ih => simp only [runFrom, List.length_cons, ih]

theorem run_some {cs : List Call} {st : List Step} (h : run W r d cs = some st) :
    (∀ c ∈ cs, c.ok W r = true) ∧ st = runFrom W r d none cs := by
  unfold run at h
  split at h
  · next hc => exact ⟨List.all_eq_true.1 hc, (Option.some.inj h).symm⟩
  · cases h

theorem stored_iff {f : Fn} (ho : caseOk W r f.ty = true) (hn : f.out ≠ .throws) (v : Nat) : stored W r f = some v ↔ Gives W r f v := by
  obtain ⟨ty, out⟩ := f
  cases r with
  | none => simp [stored, Gives, hn, eq_comm]
  | some t =>
    cases ty with
    | void => simp [stored, Gives]
    | nullopt => simp [stored, Gives]
    | opt => cases out <;> simp [stored, Gives, eq_comm]
    | obj u =>
      cases u with
      | nonVoid => simp [caseOk, World.makesAndAssigns, World.converts] at ho
      | user u => cases out <;> simp [stored, Gives, World.value, eq_comm]

/-- A call on an object without result gives it one if it is a case that yields one. -/
theorem exec_none {c : Call} (ho : c.ok W r = true) (v : Nat) : (exec W r d none c).2 = some v ↔ Yields W r d c v := by
  cases c with
  | cases ts f =>
    simp only [Call.ok] at ho
    by_cases hd : d ∈ ts
    · by_cases ht : f.out = .throws
      · have hg : ¬ Gives W r f v := by
          obtain ⟨ty, out⟩ := f
          subst ht
          cases r with
          | none => simp [Gives]
          | some t => cases ty <;> simp [Gives]
        simp [exec, hd, ht, Yields, hg]
      · have : (exec W r d none (.cases ts f)).2 = stored W r f := by
          cases hf : f.out with
          | throws => exact absurd hf ht
          | ret x => simp [exec, hd, hf]
          | empty => simp [exec, hd, hf]
        rw [this, stored_iff ho ht]
        simp [Yields, hd]
    · simp [exec, hd, Yields]
  | dflt a =>
    have : (exec W r d none (.dflt a)).2 = none := by
      simp only [exec]
      split <;> rfl
    rw [this]; simp [Yields]
  | noDefault => simp [exec, Yields]

theorem after_none {cs : List Call} (ho : ∀ c ∈ cs, c.ok W r = true) (hu : Undecided W r d cs) : after W r d none cs = none := by
  induction cs with
  | nil => rfl
  | cons c cs ih =>
    have : (exec W r d none c).2 = none := by
      cases h : (exec W r d none c).2 with
      | none => rfl
      | some v => exact absurd ((exec_none (ho c (.head _)) v).1 h) (hu c (.head _) v)
    rw [after, this]
    exact ih (fun c hc => ho c (.tail _ hc)) (fun c hc => hu c (.tail _ hc))

theorem left_eq (v : Nat) : W.left (resultTy r) v = movedFrom W r 1 v := by
  cases r <;> rfl

theorem movedFrom_succ (n v : Nat) : movedFrom W r (n + 1) v = movedFrom W r n (movedFrom W r 1 v) := by
  cases r with
  | none => cases n <;> rfl
  | some t => rfl

theorem after_some (v : Nat) (cs : List Call) : after W r d (some v) cs = some (movedFrom W r (endings cs) v) := by
  induction cs generalizing v with
  | nil => simp [after, endings, movedFrom]
  | cons c cs ih =>
    cases c with
    | cases ts f =>
      have : endings (.cases ts f :: cs) = endings cs := by simp [endings, Finishing]
      simp only [after, exec, Option.isSome_some, if_true, this, ih]
    | dflt a =>
      have : endings (.dflt a :: cs) = endings cs + 1 := List.countP_cons_of_pos rfl
      simp only [after, exec, this, ih, left_eq, movedFrom_succ (endings cs)]
    | noDefault =>
      have : endings (.noDefault :: cs) = endings cs + 1 := List.countP_cons_of_pos rfl
      simp only [after, exec, this, ih, left_eq, movedFrom_succ (endings cs)]

theorem after_decided {cs post : List Call} {v : Nat} (ho : ∀ c ∈ cs, c.ok W r = true) (h : Decided W r d cs v post) :
    after W r d none cs = some (movedFrom W r (endings post) v) := by
  obtain ⟨b, c, rfl, hu, hy⟩ := h
  rw [after_append, after_none (fun c hc => ho c (List.mem_append_left _ hc)) hu, after,
    (exec_none (ho c (List.mem_append_right _ (.head _))) v).2 hy, after_some]

theorem decided_or (cs : List Call) : Undecided W r d cs ∨ ∃ v post, Decided W r d cs v post := by
  induction cs with
  | nil => exact .inl (fun _ h => by cases h)
  | cons c cs ih =>
    by_cases hc : ∃ v, Yields W r d c v
    · obtain ⟨v, hv⟩ := hc
      exact .inr ⟨v, cs, [], c, rfl, (fun _ h => by cases h), hv⟩
    · rcases ih with ih | ⟨v, post, b, x, rfl, hu, hy⟩
      · refine .inl fun x hx => ?_
        rcases List.mem_cons.1 hx with rfl | hx
        · exact fun v hv => hc ⟨v, hv⟩
        · exact ih x hx
      · refine .inr ⟨v, post, c :: b, x, rfl, fun y hy' => ?_, hy⟩
        rcases List.mem_cons.1 hy' with rfl | hy'
        · exact fun v hv => hc ⟨v, hv⟩
        · exact hu y hy'

/-- **C113 (calls).** In every program with one switch object, the function of a case is called exactly if the case is for the type of the value
and no case before it has given a result, and an exception from it reaches the caller. -/
theorem C113_calls {pre post : List Call} {ts : List Nat} {f : Fn} {st : List Step} (h : run W r d (pre ++ .cases ts f :: post) = some st) :
    ∃ s, st[pre.length]? = some s ∧ (s.called = true ↔ d ∈ ts ∧ Undecided W r d pre) ∧
      (s.ans = .exn ↔ s.called = true ∧ f.out = .throws) ∧ (s.ans = .exn ∨ s.ans = .self) := by
  obtain ⟨ho, rfl⟩ := run_some h
  refine ⟨_, runFrom_at none pre _ post, ?_⟩
  have ho' : ∀ c ∈ pre, c.ok W r = true := fun c hc => ho c (List.mem_append_left _ hc)
  rcases decided_or (W := W) (r := r) (d := d) pre with hu | ⟨v, q, hd⟩
  · rw [after_none ho' hu]
    by_cases hd : d ∈ ts
    · cases hf : f.out <;> simp [exec, hd, hf, hu]
    · simp [exec, hd]
  · rw [after_decided ho' hd]
    have : ¬ Undecided W r d pre := by
      obtain ⟨b, c, rfl, _, hy⟩ := hd
      exact fun hu => hu c (List.mem_append_right _ (.head _)) v hy
    simp [exec, this]

/-- **C113 (the result, exactly).** If a case has given the result `v`, a call that ends the switch gives its caller, without calling
anything, what is left of `v` after one move for each such call before. -/
theorem C113_exact {pre post later : List Call} {c : Call} {v : Nat} {st : List Step} (hc : Finishing c = true)
    (h : run W r d (pre ++ c :: post) = some st) (hd : Decided W r d pre v later) :
    ∃ s, st[pre.length]? = some s ∧ Delivers c (movedFrom W r (endings later) v) s := by
  obtain ⟨ho, rfl⟩ := run_some h
  refine ⟨_, runFrom_at none pre _ post, ?_⟩
  rw [after_decided (fun c hc => ho c (List.mem_append_left _ hc)) hd]
  cases c with
  | cases ts f => cases hc
  | dflt a => exact ⟨rfl, rfl⟩
  | noDefault => exact ⟨rfl, rfl⟩

/-- **C113, partial (the result).** The first call that ends the switch gives the result of the first case that has one. All do if being moved
from does not change this result. Missing: the later ones otherwise (see `C113_twice_fails`). -/
theorem C113_partial {pre post later : List Call} {c : Call} {v : Nat} {st : List Step} (hc : Finishing c = true)
    (h : run W r d (pre ++ c :: post) = some st) (hd : Decided W r d pre v later)
    (hf : (∀ x ∈ later, Finishing x = false) ∨ ∀ t, r = some t → W.moved t v = v) :
    ∃ s, st[pre.length]? = some s ∧ Delivers c v s := by
  have := C113_exact hc h hd
  have e : movedFrom W r (endings later) v = v := by
    rcases hf with hf | hf
    · have : endings later = 0 := by
        rw [endings, List.countP_eq_zero]
        intro x hx
        simp [hf x hx]
      rw [this]
      cases r <;> rfl
    · generalize endings later = n
      induction n with
      | zero => cases r <;> rfl
      | succ n ih =>
        cases r with
        | none => rfl
        | some t => rw [movedFrom, hf t rfl, ih]
  rwa [e] at this

/-- **C113 fails (ending a switch twice).** Whenever a result type and a result are such that a moved-from object differs, the
second `default_` or `no_default` on the same object gives something else than the result of the case. -/
theorem C113_twice_fails {t v : Nat} (hv : W.moved t v ≠ v) (hm : W.movable t = true) (ha : W.moveAssign t = true) :
    ∃ cs st s, run W (some t) d cs = some st ∧ cs.getLast? = some .noDefault ∧ Decided W (some t) d cs v [.noDefault, .noDefault] ∧
      st.getLast? = some s ∧ ¬ Delivers .noDefault v s := by
  refine ⟨[.cases [d] ⟨.obj (.user t), .ret v⟩, .noDefault, .noDefault],
    [⟨true, .self⟩, ⟨false, .opt (some v)⟩, ⟨false, .opt (some (W.moved t v))⟩], ⟨false, .opt (some (W.moved t v))⟩, ?_, rfl, ?_, rfl, ?_⟩
  · simp [run, Call.ok, caseOk, World.moves, resultTy, hm, ha, runFrom, exec, stored, World.value, World.left]
  · exact ⟨[], _, rfl, (fun _ h => by cases h), by simp [Yields, Gives]⟩
  · simp [Delivers, hv]

/-- **C113 (no result).** If no case has given a result, `no_default` returns `std::nullopt`; `default_(x)` returns `x` as a `Result` if `x` is a `Result` or
cannot be called; otherwise it calls `x`, once, and returns what this returns, as a `Result`, or throws what it throws. -/
theorem C113_default {pre post : List Call} {c : Call} {st : List Step} (h : run W r d (pre ++ c :: post) = some st) (hu : Undecided W r d pre)
    (hw : CallOk c) : ∃ s, st[pre.length]? = some s ∧
      (c = .noDefault → s = ⟨false, .opt none⟩) ∧
      (∀ a, c = .dflt a → (a.ty = resultTy r ∨ a.fn = none) →
        s = ⟨false, .value (asResult W r a.ty a.val)⟩) ∧
      (∀ a f, c = .dflt a → a.ty ≠ resultTy r → a.fn = some f → s.called = true ∧ (f.out = .throws ∧ s.ans = .exn ∨
        ∃ u x, f.ty = .obj u ∧ f.out = .ret x ∧
          s.ans = .value (asResult W r u x))) := by
  obtain ⟨ho, rfl⟩ := run_some h
  refine ⟨_, runFrom_at none pre _ post, ?_⟩
  rw [after_none (fun c hc => ho c (List.mem_append_left _ hc)) hu]
  have hc : c.ok W r = true := ho c (List.mem_append_right _ (.head _))
  have hval : ∀ u x, W.value (resultTy r) u x = asResult W r u x := by
    intro u x
    cases r <;> cases u <;> rfl
  refine ⟨?_, ?_, ?_⟩
  · rintro rfl; rfl
  · rintro a rfl ha
    have hov : overload W (resultTy r) a ≠ some true := by
      unfold overload
      rcases ha with ha | ha
      · cases a.fn <;> simp [ha]
      · rw [ha]; simp only; split <;> simp
    simp only [exec]
    split
    · next h1 _ => exact absurd h1 hov
    · next h1 _ => exact absurd h1 hov
    · rw [hval]
  · rintro a f rfl ha hf
    have hov : overload W (resultTy r) a = some true := by simp [overload, hf, ha]
    simp only [Call.ok, dfltOk, hov, hf, Bool.and_eq_true] at hc
    have hwf := hw f hf
    obtain ⟨ty, out⟩ := f
    cases ty with
    | void => simp at hc
    | nullopt => simp at hc
    | opt => simp at hc
    | obj u =>
      cases out with
      | throws => simp [exec, hov, hf]
      | empty => simp [FnOk] at hwf
      | ret x =>
        refine ⟨by simp [exec, hov, hf], .inr ⟨u, x, rfl, rfl, ?_⟩⟩
        rw [← hval]
        simp [exec, hov, hf]

theorem converts_iff (t : Nat) (u : Ty) : W.converts (.user t) u = true ↔ ∃ n, u = .user n ∧ W.implicit t n = true := by
  cases u <;> simp [World.converts]

/-- **C113 (what compiles).** A program with a switch for results of type `t` compiles exactly if each of its calls is acceptable. -/
theorem C113_compiles (t : Nat) (cs : List Call) : (run W (some t) d cs).isSome = true ↔ ∀ c ∈ cs, AcceptsT W t c := by
  have key : ∀ c, Call.ok W (some t) c = true ↔ AcceptsT W t c := by
    intro c
    cases c with
    | noDefault => simp [Call.ok, AcceptsT, World.moves, resultTy]
    | cases ts f =>
      obtain ⟨ty, out⟩ := f
      cases ty with
      | void => simp [Call.ok, caseOk, AcceptsT]
      | nullopt => simp [Call.ok, caseOk, AcceptsT]
      | opt => simp [Call.ok, caseOk, AcceptsT]
      | obj u =>
        cases u with
        | nonVoid => simp [Call.ok, caseOk, AcceptsT, World.makesAndAssigns, World.converts, Becomes]
        | user u =>
          by_cases e : u = t
          · subst e; simp [Call.ok, caseOk, AcceptsT, Becomes]
          · simp only [Call.ok, caseOk, AcceptsT, World.makesAndAssigns, World.converts, Becomes, Ty.user.injEq, e, if_false,
              Bool.or_eq_true, Bool.and_eq_true, reduceCtorEq, false_or, RTy.obj.injEq]
            constructor
            · rintro (⟨h1, h2⟩ | ⟨⟨h1, h2⟩, h3⟩)
              · exact .inr ⟨u, rfl, e, h1, h2⟩
              · exact .inl ⟨h2, h3, .user u, rfl, .inr ⟨u, rfl, h1⟩⟩
            · rintro (⟨h1, h2, x, rfl, h3⟩ | ⟨x, rfl, -, h1, h2⟩)
              · rcases h3 with h3 | ⟨n, h3, h4⟩
                · exact absurd (Ty.user.inj h3) e
                · cases h3; exact .inr ⟨⟨h4, h1⟩, h2⟩
              · exact .inl ⟨h1, h2⟩
    | dflt a =>
      obtain ⟨ty, cat, val, fn⟩ := a
      by_cases e : ty = .user t
      · subst e
        cases fn <;> cases cat <;> simp [Call.ok, dfltOk, overload, AcceptsT, World.moves, World.copies, resultTy]
      · cases fn with
        | none =>
          by_cases hc : W.converts (.user t) ty = true
          · have := (converts_iff t ty).1 hc
            simp [Call.ok, dfltOk, overload, AcceptsT, World.moves, resultTy, e, hc, Becomes, this]
          · have : ¬ ∃ n, ty = .user n ∧ W.implicit t n = true := fun h => hc ((converts_iff t ty).2 h)
            simp [Call.ok, dfltOk, overload, AcceptsT, World.moves, resultTy, e, hc, Becomes, this]
        | some f =>
          obtain ⟨fty, out⟩ := f
          have hb : (ty != Ty.user t) = true := by simpa using e
          cases fty with
          | obj u => simp [Call.ok, dfltOk, overload, AcceptsT, World.moves, resultTy, e, hb, Becomes, converts_iff]
          | _ => simp [Call.ok, dfltOk, overload, AcceptsT, World.moves, resultTy, e, hb]
  simp only [run]
  rw [← List.all_eq_true.trans (forall₂_congr fun c _ => key c)]
  split <;> simp_all

/-- **C113 fails (`type_switch<void>`).** `default_` of a `type_switch<void>` accepts nothing but the objects that other switches return as
their results and functions returning those: no function that returns `void`. Cases and `no_default` are accepted always. -/
theorem C113_void_fails (a : Arg) (ts : List Nat) (f : Fn) :
    ((run W none d [.dflt a]).isSome = true ↔ a.ty = .nonVoid ∨ ∃ g, a.fn = some g ∧ g.ty = .obj .nonVoid) ∧
    (run W none d [.cases ts f, .noDefault]).isSome = true := by
  constructor
  · obtain ⟨ty, cat, val, fn⟩ := a
    cases ty with
    | nonVoid => cases fn <;> cases cat <;> simp [run, Call.ok, dfltOk, overload, resultTy, World.moves, World.copies]
    | user n =>
      cases fn with
      | none => simp [run, Call.ok, dfltOk, overload, resultTy, World.moves, World.converts]
      | some g =>
        obtain ⟨gty, out⟩ := g
        have hb : (Ty.user n != Ty.nonVoid) = true := by simp [bne, BEq.beq]
        cases gty with
        | obj u => cases u <;> simp [run, Call.ok, dfltOk, overload, resultTy, hb, World.moves, World.converts]
        | _ => simp [run, Call.ok, dfltOk, overload, resultTy, World.moves, hb]
  · simp [run, Call.ok, caseOk, resultTy, World.moves]

/-- **C113 fails (pointers).** `type_switch` can be used exactly with anys and references with a pointer to the vtable: not with
`poly_ptr`/`const_poly_ptr`, for which the comment (utility.hpp:91) says it is made, nor with stateful references or, whatever the traits, variants. -/
theorem C113_pointers_fails (g : Given) : g.compiles = true ↔ g = .any ∨ g = .polyRef ∨ g = .constPolyRef := by
  cases g <;> simp [Given.compiles, Given.polymorphic, Given.ampersand]

/-- `std::string`-like results: 0 is the empty one, which a moved-from object has; 1 converts implicitly to 0; 2 explicitly. -/
def exW : World where
  implicit t u := t == 0 && u == 1
  explicit t u := t == 0 && u == 2
  assign t u := t == 0 && u == 1
  movable _ := true
  copyable t := t != 3
  moveAssign _ := true
  conv _ _ v := v + 100
  moved _ _ := 0

-- two cases for the type: the first gives the result; then a call of `default_`; a second one gives the moved-from object
example : run exW (some 0) 7 [.cases [5] ⟨.obj (.user 0), .ret 1⟩, .cases [6, 7] ⟨.obj (.user 1), .ret 2⟩, .cases [7] ⟨.obj (.user 0), .ret 3⟩,
    .dflt ⟨.user 0, .prvalue, 9, none⟩, .dflt ⟨.user 0, .prvalue, 9, none⟩] =
    some [⟨false, .self⟩, ⟨true, .self⟩, ⟨false, .self⟩, ⟨false, .value 102⟩, ⟨false, .value 0⟩] := by decide
-- a function that throws leaves the switch undecided
example : run exW (some 0) 7 [.cases [7] ⟨.obj (.user 0), .throws⟩, .cases [7] ⟨.obj (.user 0), .ret 3⟩, .noDefault] =
    some [⟨true, .exn⟩, ⟨true, .self⟩, ⟨false, .opt (some 3)⟩] := by decide
-- a default with a function
example : run exW (some 0) 7 [.dflt ⟨.user 4, .prvalue, 0, some ⟨.obj (.user 1), .ret 2⟩⟩] = some [⟨true, .value 102⟩] := by decide
-- explicit conversions need an assignment
example : run exW (some 0) 7 [.cases [7] ⟨.obj (.user 2), .ret 1⟩] = none := by decide
example : Decided exW (some 0) 7 [.cases [5] ⟨.obj (.user 0), .ret 1⟩, .cases [7] ⟨.obj (.user 0), .ret 3⟩, .noDefault] 3 [.noDefault] :=
  ⟨[.cases [5] ⟨.obj (.user 0), .ret 1⟩], _, rfl, by simp [Undecided, Yields], by simp [Yields, Gives]⟩
example : exW.moved 0 3 ≠ 3 ∧ exW.movable 0 = true ∧ exW.moveAssign 0 = true := by decide

end AnyAny.SwitchUse
