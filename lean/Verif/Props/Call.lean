import Verif.Model.Call
/-
C84: the results of `invoke<Method>` and of `operator()` of `call<...>`.
-/
namespace AnyAny.Call

/-! ### Specification -/

/-- The object an expression designates. -/
def Expr.place : Expr → Option Nat
  | .lval _ _ i | .xval _ _ i => some i
  | _ => none

/-- The static type of an expression. -/
def Expr.type : Expr → Option Nat
  | .void => none
  | .prval _ t _ | .lval _ t _ | .xval _ t _ => some t

/-- Call expressions of a function with result type `r` have this form. -/
def Expr.IsResultOf : Ret → Expr → Prop
  | .void, .void => True
  | .val t, .prval c u _ => c = false ∧ u = t
  | .lref c t, .lval c' u _ => c' = c ∧ u = t
  | .rref c t, .xval c' u _ => c' = c ∧ u = t
  | _, _ => False

/-- The result type is a reference to this type. -/
def Ret.RefTo (t : Nat) : Ret → Prop
  | .lref _ u | .rref _ u => u = t
  | _ => False

/-- The object that the expression designates exists. -/
def Alive (s : Store) (e : Expr) : Prop := ∀ i, e.place = some i → s.objs i ≠ none

/-- New objects get new names. -/
def Store.Ok (s : Store) : Prop := ∀ i, s.next ≤ i → s.objs i = none

variable {H : Types} {n : Bool} {r : Ret} {e e' : Expr} {s s' : Store}

/-! ### The chain of return statements -/

private theorem init_id (h : e.IsResultOf r) : init H false r e s = some (e, [], s) := by
  cases r <;> cases e <;> simp_all [Expr.IsResultOf, init, related]

/-- How an initialisation comes about: directly, from the object designated by the operand, or from a temporary. -/
private inductive Made (r : Ret) (e : Expr) (s : Store) : Expr → List Nat → Store → Prop
  | void (hr : r = .void) : Made r e s .void [] s
  | value {t v : Nat} (hr : r = .val t) {ts : List Nat} {s' : Store} : Made r e s (.prval false t v) ts s'
  | direct {e' : Expr} {i : Nat} (h : e'.IsResultOf r) (hp : e.place = some i) (hp' : e'.place = some i) : Made r e s e' [] s
  | temp {e' : Expr} (h : e'.IsResultOf r) (hp' : e'.place = some s.next) (o : Obj) :
      Made r e s e' [s.next] { s with objs := setObj s.objs s.next (some o), next := s.next + 1 }

private theorem construct_made {t u i : Nat} {m : Bool} {s₀ : Store} {ts : List Nat} (h : construct H t u i m s₀ = some (e', ts, s')) :
    ∃ v, e' = .prval false t v := by
  unfold construct at h
  cases ho : s₀.objs i with
  | none => rw [ho] at h; cases h
  | some o =>
    rw [ho] at h
    dsimp only [Option.bind_eq_bind, Option.bind_some] at h
    split at h
    · cases h; exact ⟨_, rfl⟩
    · split at h
      · cases h; exact ⟨_, rfl⟩
      · cases h

private theorem bindTemp_made {t v : Nat} {mk : Nat → Expr} {ts : List Nat} (hm : ∀ i, (mk i).IsResultOf r ∧ (mk i).place = some i)
    (h : bindTemp t v mk s = some (e', ts, s')) : Made r e s e' ts s' := by
  cases h
  exact .temp (hm _).1 (hm _).2 _

private theorem conv_made {t : Nat} {g : Option (Nat → Nat)} {ov : Option Nat} {mk : Nat → Expr} {ts : List Nat}
    (hm : ∀ i, (mk i).IsResultOf r ∧ (mk i).place = some i)
    (h : (do let f ← g; let v ← ov; bindTemp t (f v) mk s) = some (e', ts, s')) : Made r e s e' ts s' := by
  cases g with
  | none => cases h
  | some f =>
    cases ov with
    | none => cases h
    | some v => exact bindTemp_made hm h

private theorem conv_val {t : Nat} {g : Option (Nat → Nat)} {ov : Option Nat} {ts : List Nat}
    (h : (do let f ← g; let v ← ov; some (Expr.prval false t (f v), ([] : List Nat), s)) = some (e', ts, s')) : Made (.val t) e s e' ts s' := by
  cases g with
  | none => cases h
  | some f =>
    cases ov with
    | none => cases h
    | some v => cases h; exact .value rfl

private theorem init_made {cast : Bool} {ts : List Nat} (h : init H cast r e s = some (e', ts, s')) : Made r e s e' ts s' := by
  cases r with
  | void =>
    cases e with
    | void => cases h; exact .void rfl
    | _ => dsimp only [init] at h; split at h <;> cases h; exact .void rfl
  | val t =>
    cases e with
    | void => cases h
    | prval c u v =>
      dsimp only [init] at h
      split at h
      · cases h; exact .value rfl
      · split at h
        · unfold materialise at h
          dsimp only [Option.bind_eq_bind, Option.bind_some] at h
          cases hc : construct H t u s.next (!c) { s with objs := setObj s.objs s.next (some ⟨u, v⟩), next := s.next + 1 } with
          | none => rw [hc] at h; cases h
          | some x =>
            obtain ⟨e₁, ts₁, s₁⟩ := x
            obtain ⟨w, rfl⟩ := construct_made hc
            rw [hc] at h
            cases h
            exact .value rfl
        · exact conv_val (ov := some v) h
    | lval c u i =>
      dsimp only [init] at h
      split at h
      · obtain ⟨w, rfl⟩ := construct_made h
        exact .value rfl
      · exact conv_val h
    | xval c u i =>
      dsimp only [init] at h
      split at h
      · obtain ⟨w, rfl⟩ := construct_made h
        exact .value rfl
      · exact conv_val h
  | lref c t =>
    cases e with
    | void => cases h
    | prval c' u v =>
      dsimp only [init] at h
      split at h
      · cases h
      · rename_i hc
        have hc : true = c := by simpa using hc
        subst hc
        split at h
        · exact bindTemp_made (by intro _; exact ⟨⟨rfl, rfl⟩, rfl⟩) h
        · exact conv_made (ov := some v) (by intro _; exact ⟨⟨rfl, rfl⟩, rfl⟩) h
    | lval c' u i =>
      dsimp only [init] at h
      split at h
      · cases h; exact .direct ⟨rfl, rfl⟩ rfl rfl
      · split at h
        · rename_i hc
          have hc : true = c := by simpa using hc.symm
          subst hc
          exact conv_made (by intro _; exact ⟨⟨rfl, rfl⟩, rfl⟩) h
        · cases h
    | xval c' u i =>
      dsimp only [init] at h
      split at h
      · cases h
      · rename_i hc
        have hc : true = c := by simpa using hc
        subst hc
        split at h
        · cases h; exact .direct ⟨rfl, rfl⟩ rfl rfl
        · exact conv_made (by intro _; exact ⟨⟨rfl, rfl⟩, rfl⟩) h
  | rref c t =>
    cases e with
    | void => cases h
    | prval c' u v =>
      dsimp only [init] at h
      split at h
      · split at h
        · exact bindTemp_made (by intro _; exact ⟨⟨rfl, rfl⟩, rfl⟩) h
        · cases h
      · exact conv_made (ov := some v) (by intro _; exact ⟨⟨rfl, rfl⟩, rfl⟩) h
    | lval c' u i =>
      dsimp only [init] at h
      split at h
      · split at h
        · cases h; exact .direct ⟨rfl, rfl⟩ rfl rfl
        · cases h
      · exact conv_made (by intro _; exact ⟨⟨rfl, rfl⟩, rfl⟩) h
    | xval c' u i =>
      dsimp only [init] at h
      split at h
      · split at h
        · cases h; exact .direct ⟨rfl, rfl⟩ rfl rfl
        · cases h
      · split at h
        · cases h; exact .direct ⟨rfl, rfl⟩ rfl rfl
        · exact conv_made (by intro _; exact ⟨⟨rfl, rfl⟩, rfl⟩) h

private theorem init_type {cast : Bool} {ts : List Nat} (h : init H cast r e s = some (e', ts, s')) : e'.IsResultOf r := by
  cases init_made h with
  | void hr => subst hr; trivial
  | value hr => subst hr; exact ⟨rfl, rfl⟩
  | direct h1 => exact h1
  | temp h1 => exact h1

private theorem returns_id (h : e.IsResultOf r) : returns H n r (.ret e s) = some (.ret e s) := by
  simp [returns, function, init_id h, kill]
  
private theorem returnsCast_eq (n : Bool) (r : Ret) (o : Out) : returnsCast H n r o = function n (init H true r) o := by
  unfold returnsCast function
  cases o with
  | ret e s =>
    simp only [Option.bind_eq_bind]
    cases h : init H true r e s with
    | none => rfl
    | some x =>
      obtain ⟨e', ts, s'⟩ := x
      simp [init_id (init_type h)]
  | exn s => rfl
  | term => rfl

private theorem initCast_id (h : e.IsResultOf r) : init H true r e s = some (e, [], s) := by
  cases r <;> cases e <;> simp_all [Expr.IsResultOf, init, related]

private theorem invokeResult_eq (r : Ret) (o : Out) : invokeResult H r o = returns H false r o := by
  unfold invokeResult
  cases o with
  | ret e s =>
    simp only [Option.bind_eq_bind]
    unfold returns function
    simp only [Option.bind_eq_bind]
    cases h : init H false r e s with
    | none => rfl
    | some x =>
      obtain ⟨e', ts, s'⟩ := x
      simp [init_id (init_type h), kill]
  | exn s => rfl
  | term => rfl

private theorem callInvoke_eq (r : Ret) (o : Out) : callInvoke H n r o = function n (init H true r) o := by
  unfold callInvoke callDoInvoke
  simp only [invokeResult_eq, returnsCast_eq]
  cases o with
  | ret e s =>
    unfold returns function
    simp only [Option.bind_eq_bind]
    cases h : init H true r e s with
    | none => rfl
    | some x =>
      obtain ⟨e', ts, s'⟩ := x
      simp [init_id (init_type h), kill]
  | exn s => cases n <;> rfl
  | term => rfl

/-! ### C84 -/

/-- `operator()` of `call<...>` gives what `invoke<call<...>>` gives, and compiles for the same contained types. -/
theorem C84_operator_is_invoke (n : Bool) (r : Ret) (o : Out) : callOperator H n r o = callInvoke H n r o := by
  unfold callOperator
  rw [callInvoke_eq]
  simp only [returnsCast_eq]
  cases o with
  | ret e s =>
    unfold function
    simp only [Option.bind_eq_bind]
    cases h : init H true r e s with
    | none => rfl
    | some x =>
      obtain ⟨e', ts, s'⟩ := x
      simp [initCast_id (init_type h), kill]
  | exn s => cases n <;> rfl
  | term => rfl

private theorem callOperator_eq (r : Ret) (o : Out) : callOperator H n r o = function n (init H true r) o := by
  rw [C84_operator_is_invoke, callInvoke_eq]

/-- **C84 (void).** With result type `void` whatever the contained object returns is dropped; nothing else happens. -/
theorem C84_void (n : Bool) (e : Expr) (s : Store) : callOperator H n .void (.ret e s) = some (.ret .void s) := by
  rw [callOperator_eq]
  cases e <;> simp [function, init, kill]

/-- **C84 (values).** With an object type `T` as result, a contained object that returns `T` gives the caller this
value without any copy or move; one that returns `T&` or `const T&` has the object copied once; one that returns
`T&&` has it moved from once. Nothing else changes. -/
theorem C84_values (n c : Bool) (t v d i : Nat) (s : Store) (ho : s.objs i = some ⟨d, v⟩) :
    callOperator H n (.val t) (.ret (.prval c t v) s) = some (.ret (.prval false t v) s) ∧
    (H.copyable t = true →
      callOperator H n (.val t) (.ret (.lval c t i) s) = some (.ret (.prval false t v) { s with copies := s.copies + 1 })) ∧
    (H.movable t = true → callOperator H n (.val t) (.ret (.xval false t i) s) = some (.ret (.prval false t v)
      { s with objs := setObj s.objs i (some ⟨d, H.movedFrom d v⟩), moves := s.moves + 1 })) := by
  simp only [callOperator_eq]
  refine ⟨?_, fun hc => ?_, fun hm => ?_⟩ <;> simp [function, init, kill, related, construct, ho, seenAs, *]

/-- **C84 (conversions).** With an object type `T` as result, a contained object that returns an unrelated type `U` gives the caller the
converted value; the implicit conversion is used if there is one, and otherwise the explicit one, because of `static_cast`. Without
any conversion the call does not compile. A method whose `do_invoke` returns `U` compiles only if the conversion is implicit. -/
theorem C84_conversions (n c : Bool) (t u v d i : Nat) (s : Store) (hu : u ≠ t) (hb : H.base t u = false) (ho : s.objs i = some ⟨d, v⟩) :
    (∀ f, H.conv u t = some f ∨ H.conv u t = none ∧ H.econv u t = some f →
      callOperator H n (.val t) (.ret (.prval c u v) s) = some (.ret (.prval false t (f v)) s) ∧
      callOperator H n (.val t) (.ret (.lval c u i) s) = some (.ret (.prval false t (f v)) s) ∧
      callOperator H n (.val t) (.ret (.xval c u i) s) = some (.ret (.prval false t (f v)) s)) ∧
    (H.conv u t = none → H.econv u t = none → callOperator H n (.val t) (.ret (.prval c u v) s) = none) ∧
    (∀ f, H.conv u t = some f → invokeResult H (.val t) (.ret (.prval c u v) s) = some (.ret (.prval false t (f v)) s)) ∧
    (H.conv u t = none → invokeResult H (.val t) (.ret (.prval c u v) s) = none) := by
  have hne : (u == t) = false := by simpa using hu
  simp only [callOperator_eq, invokeResult_eq]
  refine ⟨fun f hf => ?_, fun h1 h2 => ?_, fun f hf => ?_, fun h1 => ?_⟩
  · have hc : conversion H true u t = some f := by
      rcases hf with h | ⟨h, h'⟩ <;> simp [conversion, *]
    refine ⟨?_, ?_, ?_⟩ <;> simp [function, init, hu, hb, related, hc, kill, valueOf, ho]
  · simp [function, init, hu, hb, conversion, *]
  · simp [returns, function, init, hu, hb, conversion, hf, kill]
  · simp [returns, function, init, hu, hb, conversion, h1]

/-- **C84 (derived classes).** With an object type `T` as result, a contained object that returns a class derived from `T`, or a reference to
one, gives the caller the value of its `T` subobject: one move of a returned object or of a non-const `&&`, one copy of an lvalue. A returned
object does not outlive the call. -/
theorem C84_slices (n c : Bool) (t u v d i : Nat) (s : Store) (hs : s.Ok) (hu : u ≠ t) (hb : H.base t u = true) (ho : s.objs i = some ⟨d, v⟩) :
    (H.movable t = true → ∃ s', callOperator H n (.val t) (.ret (.prval false u v) s) = some (.ret (.prval false t (H.slice t u v)) s') ∧
      (∀ k, s'.objs k = s.objs k) ∧ s'.copies = s.copies ∧ s'.moves = s.moves + 1) ∧
    (H.movable t = true → callOperator H n (.val t) (.ret (.xval false u i) s) = some (.ret (.prval false t (H.slice t u v))
      { s with objs := setObj s.objs i (some ⟨d, H.movedFrom d v⟩), moves := s.moves + 1 })) ∧
    (H.copyable t = true → callOperator H n (.val t) (.ret (.lval c u i) s) = some (.ret (.prval false t (H.slice t u v))
      { s with copies := s.copies + 1 })) ∧
    (H.copyable t = false → callOperator H n (.val t) (.ret (.lval c u i) s) = none) := by
  simp only [callOperator_eq]
  refine ⟨fun hm => ⟨⟨kill (setObj (setObj s.objs s.next (some ⟨u, v⟩)) s.next (some ⟨u, H.movedFrom u v⟩)) [s.next], s.next + 1, s.copies,
    s.moves + 1⟩, ?_, ?_, rfl, rfl⟩, fun hm => ?_, fun hc => ?_, fun hc => ?_⟩
  · have hset : setObj s.objs s.next (some ⟨u, v⟩) s.next = some ⟨u, v⟩ := if_pos rfl
    simp [function, init, hu, hb, materialise, construct, hm, hset, seenAs]
  · intro k
    show kill _ [s.next] k = _
    by_cases hk : k = s.next
    · subst hk; simp [kill, hs _ (Nat.le_refl _)]
    · simp [kill, hk, setObj]
  all_goals simp [function, init, related, hb, construct, ho, seenAs, hu, kill, *]

/-- **C84 (references).** With a reference as result type, a contained object that returns a reference to the same
type, or to a type derived from it, of the same value category and not more const, gives the caller a reference to
the very object its own reference designates; nothing is created, copied, moved or destroyed. -/
theorem C84_references_partial (n c c' : Bool) (t u i : Nat) (s : Store) (hu : u = t ∨ H.base t u = true) (hc : c' = true → c = true) :
    callOperator H n (.lref c t) (.ret (.lval c' u i) s) = some (.ret (.lval c t i) s) ∧
    callOperator H n (.rref c t) (.ret (.xval c' u i) s) = some (.ret (.xval c t i) s) ∧
    callOperator H n (.lref true t) (.ret (.xval c' u i) s) = some (.ret (.lval true t i) s) := by
  have hr : related H t u = true := by simpa [related] using hu
  have hb : (!c' || c) = true := by cases c' <;> simp_all
  simp only [callOperator_eq]
  refine ⟨?_, ?_, ?_⟩ <;> simp [function, init, kill, hr, hb]

private theorem refs_only (hr : ∃ t, r.RefTo t) (hs : s.Ok) (ha : Alive s e) {cast n : Bool}
    (h : function n (init H cast r) (.ret e s) = some (.ret e' s')) :
    ∃ j, e'.place = some j ∧ (∀ k, s'.objs k = s.objs k) ∧ s'.copies = s.copies ∧ s'.moves = s.moves ∧
      (e.place = some j ∧ s.objs j ≠ none ∨ e.place ≠ some j ∧ s.objs j = none) := by
  unfold function at h
  simp only [Option.bind_eq_bind] at h
  cases hi : init H cast r e s with
  | none => rw [hi] at h; cases h
  | some x =>
    obtain ⟨e₁, ts, s₁⟩ := x
    rw [hi] at h
    cases h
    cases init_made hi with
    | void hv => subst hv; obtain ⟨t, ht⟩ := hr; exact ht.elim
    | value hv => subst hv; obtain ⟨t, ht⟩ := hr; exact ht.elim
    | direct _ hp hp' => exact ⟨_, hp', fun _ => rfl, rfl, rfl, .inl ⟨hp, ha _ hp⟩⟩
    | temp _ hp' o =>
      refine ⟨_, hp', fun k => ?_, rfl, rfl, .inr ⟨fun hp => ha _ hp (hs _ (Nat.le_refl _)), hs _ (Nat.le_refl _)⟩⟩
      show kill (setObj s.objs s.next (some o)) [s.next] k = s.objs k
      by_cases hk : k = s.next
      · subst hk; simp [kill, hs _ (Nat.le_refl _)]
      · simp [kill, setObj, hk]

/-- **C84 (references, exactly).** Whatever the contained object returns, the reference the caller gets designates the
object that the contained object's reference designates, or else an object that does not exist (any more): a
temporary of the call. No existing object is changed. -/
theorem C84_references_exact (hr : ∃ t, r.RefTo t) (hs : s.Ok) (ha : Alive s e) (h : callOperator H n r (.ret e s) = some (.ret e' s')) :
    ∃ j, e'.place = some j ∧ (∀ k, s'.objs k = s.objs k) ∧ s'.copies = s.copies ∧ s'.moves = s.moves ∧
      (e.place = some j ∧ s.objs j ≠ none ∨ e.place ≠ some j ∧ s.objs j = none) :=
  refs_only hr hs ha (callOperator_eq (H := H) r _ ▸ h)

/-- **C84 fails (dangling).** The full statement is false: `call<const T&(...)>` and `call<T&&(...)>` accept a
contained object whose `operator()` returns a `T`, or a type convertible to `T`, and give the caller a reference to
a temporary that is already destroyed. -/
theorem C84_dangling_fails (n c : Bool) (t u v : Nat) (s : Store) (hs : s.Ok)
    (hu : u = t ∨ H.base t u = true ∨ (H.conv u t).isSome = true) :
    ∃ i s', callOperator H n (.lref true t) (.ret (.prval false u v) s) = some (.ret (.lval true t i) s') ∧
      callOperator H n (.rref c t) (.ret (.prval false u v) s) = some (.ret (.xval c t i) s') ∧ s'.objs i = none := by
  simp only [callOperator_eq]
  by_cases hr : related H t u = true
  · exact ⟨s.next, _, by simp only [function, init, hr]; rfl, by simp only [function, init, hr]; rfl, by simp [kill]⟩
  · have hc : (H.conv u t).isSome = true := by
      rcases hu with h | h | h
      · simp [related, h] at hr
      · simp [related, h] at hr
      · exact h
    obtain ⟨f, hf⟩ := Option.isSome_iff_exists.mp hc
    have hr : related H t u = false := by simpa using hr
    exact ⟨s.next, _, by simp only [function, init, hr, conversion, hf]; rfl, by simp only [function, init, hr, conversion, hf]; rfl, by simp [kill]⟩

/-- **C84 fails (casts).** `call<Derived&(...)>` accepts a contained object that returns `Base&`, also if the object
it returns is not a `Derived`; and `call<T&&(...)>` accepts one that returns `T&` and turns the lvalue into an
rvalue. A function returning such types would not compile. -/
theorem C84_casts_fail (n : Bool) (b d v i : Nat) (s : Store) (hb : H.base b d = true) (hd : H.base d b = false) (hne : b ≠ d)
    (hc : H.conv b d = none) (ho : s.objs i = some ⟨b, v⟩) :
    callOperator H n (.lref false d) (.ret (.lval false b i) s) = some (.ret (.lval false d i) s) ∧
    returns H n (.lref false d) (.ret (.lval false b i) s) = none ∧
    callOperator H n (.rref false b) (.ret (.lval false b i) s) = some (.ret (.xval false b i) s) ∧
    returns H n (.rref false b) (.ret (.lval false b i) s) = none := by
  have h1 : related H d b = false := by simp [related, hd, hne]
  have h2 : related H b b = true := by simp [related]
  simp only [callOperator_eq]
  refine ⟨?_, ?_, ?_, ?_⟩ <;> simp [returns, function, init, kill, h1, h2, hb]

/-- **C84 fails (casts of rvalues).** The same for rvalues: `call<Derived&&(...)>` accepts a contained object that returns `Base&&`. A const
reference is not cast to one to non-const. -/
theorem C84_rvalue_casts_fail (n : Bool) (b d i : Nat) (s : Store) (hb : H.base b d = true) (hd : H.base d b = false) (hne : b ≠ d)
    (hc : H.conv b d = none) :
    callOperator H n (.rref false d) (.ret (.xval false b i) s) = some (.ret (.xval false d i) s) ∧
    returns H n (.rref false d) (.ret (.xval false b i) s) = none ∧
    (H.econv b d = none → callOperator H n (.rref false d) (.ret (.xval true b i) s) = none ∧
      callOperator H n (.rref false d) (.ret (.lval false b i) s) = none) ∧
    callOperator H n (.rref false b) (.ret (.lval false d i) s) = some (.ret (.xval false b i) s) ∧
    callOperator H n (.rref false b) (.ret (.lval true d i) s) = none := by
  have h1 : related H d b = false := by simp [related, hd, hne]
  have h2 : related H b d = true := by simp [related, hb]
  simp only [callOperator_eq]
  refine ⟨?_, ?_, fun he => ⟨?_, ?_⟩, ?_, ?_⟩ <;> simp [returns, function, init, kill, conversion, *]

/-- **C84 fails (dangling, converted).** If the contained object returns a reference to an object of an unrelated type that converts to `T`, also
only explicitly, the caller of `call<const T&(...)>` or `call<T&&(...)>` gets a reference to a temporary that is already destroyed. Without a conversion
the call does not compile. -/
theorem C84_converted_references_fail (n c c' : Bool) (t u d v i : Nat) (s : Store) (hu : u ≠ t) (hb : H.base t u = false) (hd : H.base u t = false)
    (ho : s.objs i = some ⟨d, v⟩) {e : Expr} (he : e = .lval c' u i ∨ e = .xval c' u i) :
    ((H.conv u t).isSome = true ∨ (H.econv u t).isSome = true →
      ∃ j s', callOperator H n (.lref true t) (.ret e s) = some (.ret (.lval true t j) s') ∧
        callOperator H n (.rref c t) (.ret e s) = some (.ret (.xval c t j) s') ∧ s'.objs j = none) ∧
    (H.conv u t = none → H.econv u t = none →
      callOperator H n (.lref true t) (.ret e s) = none ∧ callOperator H n (.rref c t) (.ret e s) = none) ∧
    callOperator H n (.lref false t) (.ret e s) = none := by
  have h1 : related H t u = false := by simp [related, hb, hu]
  simp only [callOperator_eq]
  refine ⟨fun hc => ?_, fun h2 h3 => ?_, ?_⟩
  · obtain ⟨f, hf⟩ : ∃ f, conversion H true u t = some f := by
      unfold conversion
      rcases hc with h | h
      · obtain ⟨f, hf⟩ := Option.isSome_iff_exists.1 h
        exact ⟨f, by simp [hf]⟩
      · obtain ⟨f, hf⟩ := Option.isSome_iff_exists.1 h
        cases hv : H.conv u t with
        | some g => exact ⟨g, rfl⟩
        | none => exact ⟨f, by simp [hf]⟩
    refine ⟨s.next, { s with objs := kill (setObj s.objs s.next (some ⟨t, f v⟩)) [s.next], next := s.next + 1 }, ?_, ?_, if_pos rfl⟩ <;>
      rcases he with rfl | rfl <;> simp [function, init, h1, hd, hf, valueOf, ho, bindTemp, materialise]
  · have hf : conversion H true u t = none := by simp [conversion, h2, h3]
    constructor <;> rcases he with rfl | rfl <;> simp [function, init, h1, hd, hf]
  · rcases he with rfl | rfl <;> simp [function, init, h1, hd]

/-- **C84 (exceptions).** An exception of the contained object reaches the caller unchanged, except that a `noexcept`
signature turns it into `std::terminate`, also if `invoke<call<...>>` is used. -/
theorem C84_exceptions (n : Bool) (r : Ret) (s : Store) :
    callOperator H n r (.exn s) = some (if n then .term else .exn s) ∧ callInvoke H n r (.exn s) = some (if n then .term else .exn s) := by
  rw [callOperator_eq, callInvoke_eq]
  exact ⟨rfl, rfl⟩

/-- **C84 (methods).** `invoke<Method>` gives the caller exactly the result of `do_invoke` if that has the result type
of the method: the same object, or the same value without copy or move; an exception passes on. -/
theorem C84_invoke (r : Ret) (e : Expr) (s : Store) (he : e.IsResultOf r) :
    invokeResult H r (.ret e s) = some (.ret e s) ∧ invokeResult H r (.exn s) = some (.exn s) := by
  rw [invokeResult_eq, invokeResult_eq]
  exact ⟨returns_id he, rfl⟩

/-- **C84 (methods with another result type).** If `do_invoke` has another result type, the reference the caller of
`invoke<Method>` gets designates the object `do_invoke` returned, or a temporary that does not exist any more. -/
theorem C84_invoke_exact (hr : ∃ t, r.RefTo t) (hs : s.Ok) (ha : Alive s e) (h : invokeResult H r (.ret e s) = some (.ret e' s')) :
    ∃ j, e'.place = some j ∧ (∀ k, s'.objs k = s.objs k) ∧ s'.copies = s.copies ∧ s'.moves = s.moves ∧
      (e.place = some j ∧ s.objs j ≠ none ∨ e.place ≠ some j ∧ s.objs j = none) :=
  refs_only hr hs ha (invokeResult_eq (H := H) r _ ▸ h)

/-- **C84 (macros).** Methods declared with `anyany_method` and `anyany_extern_method` pass the result of the expression
in `requires(...)` to the caller as `call` passes the result of the contained object, both through `invoke` and through
the member function; all theorems above apply. -/
theorem C84_macro_methods (r : Ret) (o : Out) :
    macroInvoke H r o = callOperator H false r o ∧ macroMember H r o = callOperator H false r o := by
  have h1 : macroInvoke H r o = callInvoke H false r o := rfl
  have h2 : macroInvoke H r o = callOperator H false r o := by rw [h1, C84_operator_is_invoke]
  refine ⟨h2, ?_⟩
  rw [← h2]
  unfold macroMember
  rw [h1, callInvoke_eq]
  cases o with
  | ret e s =>
    unfold returns function
    simp only [Option.bind_eq_bind]
    cases h : init H true r e s with
    | none => rfl
    | some x =>
      obtain ⟨e', ts, s'⟩ := x
      simp [init_id (init_type h), kill]
  | exn s => rfl
  | term => rfl

/-! ### Examples -/

/-- Types: 1 = `int`, 2 = `long` (implicit conversion), 3 a base class of 4. -/
private def exH : Types where
  base b d := b == 3 && d == 4
  slice _ _ v := v
  copyable _ := true
  movable t := t != 1
  movedFrom _ _ := 0
  conv u t := if u = 1 ∧ t = 2 then some id else none
  econv u t := if u = 2 ∧ t = 1 then some id else none

private def exS : Store where
  objs i := if i = 0 then some ⟨4, 7⟩ else none
  next := 1
  copies := 0
  moves := 0

example : exS.Ok := fun i hi => by simp [exS]; exact Nat.ne_of_gt hi
example : Alive exS (.lval false 4 0) := fun i hi => by cases hi; simp [exS]
/-- A function returning `Derived&` called through `call<const Base&()>`. -/
example : callOperator exH false (.lref true 3) (.ret (.lval false 4 0) exS) = some (.ret (.lval true 3 0) exS) :=
  (C84_references_partial false true false 3 4 0 exS (.inr rfl) (by simp)).1
/-- A function returning `int` called through `call<const long&()>`: dangling. -/
example : ∃ i s', callOperator exH false (.lref true 2) (.ret (.prval false 1 5) exS) = some (.ret (.lval true 2 i) s') ∧ s'.objs i = none :=
  have ⟨i, s', h, _, hd⟩ := C84_dangling_fails (H := exH) false false 2 1 5 exS (fun i hi => by simp [exS]; exact Nat.ne_of_gt hi) (.inr (.inr rfl))
  ⟨i, s', h, hd⟩
/-- A function returning `long` called through `call<int()>`, where the conversion is explicit. -/
example : callOperator exH false (.val 1) (.ret (.prval false 2 7) exS) = some (.ret (.prval false 1 7) exS) ∧
    invokeResult exH (.val 1) (.ret (.prval false 2 7) exS) = none :=
  have h := C84_conversions (H := exH) false false 1 2 7 4 0 exS (by decide) rfl rfl
  ⟨(h.1 id (.inr ⟨rfl, rfl⟩)).1, h.2.2.2 rfl⟩
/-- A function returning `Derived&` called through `call<Base()>`. -/
example : callOperator exH false (.val 3) (.ret (.lval false 4 0) exS) = some (.ret (.prval false 3 7) { exS with copies := 1 }) :=
  (C84_slices (H := exH) false false 3 4 7 4 0 exS (fun i hi => by simp [exS]; exact Nat.ne_of_gt hi) (by decide) rfl rfl).2.2.1 rfl
/-- A function returning `Base&&` called through `call<Derived&&()>`, and one returning `long&` through `call<const int&()>`. -/
example : callOperator exH false (.rref false 4) (.ret (.xval false 3 0) exS) = some (.ret (.xval false 4 0) exS) :=
  (C84_rvalue_casts_fail (H := exH) false 3 4 0 exS rfl rfl (by decide) rfl).1
example : ∃ j s', callOperator exH false (.lref true 1) (.ret (.lval false 2 0) exS) = some (.ret (.lval true 1 j) s') ∧ s'.objs j = none :=
  have ⟨j, s', h, _, hd⟩ := (C84_converted_references_fail (H := exH) false false false 1 2 4 7 0 exS (by decide) rfl rfl rfl (.inl rfl)).1 (.inr rfl)
  ⟨j, s', h, hd⟩

end AnyAny.Call
