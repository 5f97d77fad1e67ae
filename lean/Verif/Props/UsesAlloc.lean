import Verif.Spec.UsesAlloc
import Verif.Props.Ctor
/-
C123: construction of anys by code that passes an allocator on.
-/
namespace AnyAny.UsesAlloc
open AnyAny.Ctor (Meth AnyTy Ty Act)

variable {passes : Bool} {con : ATy → List Arg → Bool} {ex : ATy → Meth → Bool} {a b : AnyTy} {x : Arg}

private theorem existFor_iff {t : ATy} : existFor ex t a = true ↔ ∀ m ∈ a.methods, ex t m = true := by simp [existFor]

private theorem one_plain {k : Nat} (h : x.ty = .of (.plain k)) :
    one ex a x = if existFor ex x.ty a then some ⟨.dflt, .value x.ty [x] false⟩ else none := by
  have := Ctor.C73_values (ex := fun t => ex (.of t)) (a := a) (x := ⟨.plain k, x.const, x.rvalue⟩) rfl
  by_cases he : existFor ex (.of (.plain k)) a = true
  · have := (this.1 (existFor_iff.mp he)).1
    simp [one, h, this, madeBy, he]
  · have := (this.2 (fun hh => he (existFor_iff.mpr hh))).1
    simp only [one, h, this, Option.map_none, he]; rfl

/-- Default construction, and construction from a value of a type that is no any and no reference to one, with an allocator passed on: the same as without, and the any has that allocator; and it
compiles exactly if it does without. -/
theorem C123_partial (n : Nat) {args : List Arg} (h : args = [] ∨ ∃ k x, args = [x] ∧ x.ty = .of (.plain k)) :
    Faithful (make passes con ex (n + 1) a args) (makeUsing passes con ex (n + 1) a args) := by
  rcases h with rfl | ⟨k, x, rfl, h⟩
  · simp [Faithful, make, makeUsing, argsFor, ctor, withAlloc, tag, given, New.withGiven]
  · cases he : existFor ex (.of (.plain k)) a <;> cases hc : con (.of (.plain k)) [x] <;>
      simp [make, makeUsing, argsFor, ctor, withAlloc, one_plain h, h, he, hc, tag, given, Faithful, New.withGiven]

private theorem argsFor_lead {args : List Arg} (h : (ctor ex a (tag :: given :: args)).isSome = true) : argsFor ex a args = some (tag :: given :: args) := if_pos h

private theorem lead_one : ctor ex a [tag, given, x] = if existFor ex x.ty a then some ⟨.given, .value x.ty [x] false⟩ else none := by
  simp [ctor, tag, withAlloc, given]

/-- An any is copied or moved by code that passes an allocator on (one that does not pass itself on to values): the new any contains a copy of the any, or the any moved, if the methods exist for
anys of this type; otherwise the program is ill-formed. -/
theorem C123_any_fails (n : Nat) (hx : x.ty = .of (.any b)) :
    makeUsing false con ex (n + 2) a [x] =
      if ∀ m ∈ a.methods, ex x.ty m = true then
        (match Ctor.construct (fun t => ex (.of t)) b ⟨.any b, x.const, x.rvalue⟩ with
        | some act => .made (.nested .given b (.ofAny .other act) false)
        | none => .illFormed)
      else .illFormed := by
  have he := existFor_iff (ex := ex) (a := a) (t := x.ty)
  by_cases h : existFor ex x.ty a = true
  · rw [if_pos (he.mp h)]
    have e : argsFor ex a [x] = some [tag, given, x] := argsFor_lead (by rw [lead_one, if_pos h]; rfl)
    simp only [makeUsing, e, make]
    rw [lead_one, if_pos h, hx]
    have h1 := (Ctor.C73_same_any (ex := fun t => ex (.of t)) (a := b) (x := ⟨.any b, x.const, x.rvalue⟩) (r := 0) rfl).2.2
    have h2 : one ex b x = (Ctor.construct (fun t => ex (.of t)) b ⟨.any b, x.const, x.rvalue⟩).map (madeBy x) := by simp [one, hx]
    simp only [Bool.false_and, Bool.false_eq_true, if_false, make, ctor, h2]
    rcases h1 with h1 | h1 | h1 <;> rw [h1] <;> rfl
  · rw [if_neg (fun hh => h (he.mpr hh))]
    have e : argsFor ex a [x] = none := by
      unfold argsFor
      rw [lead_one, if_neg h]
      simp [ctor, hx]
    simp only [makeUsing, e]

/-- An any is copied or moved by code that passes an allocator on, one that passes itself on to values as `std::pmr::polymorphic_allocator` does: if the methods exist for anys of this type, the
construction does not end. -/
theorem C123_endless_fails (n : Nat) (hx : x.ty = .of (.any b)) (hab : b.alloc = a.alloc) (ha : ∀ m ∈ a.methods, ex x.ty m = true) (hb : ∀ m ∈ b.methods, ex x.ty m = true) :
    makeUsing true con ex n a [x] = .unfinished := by
  have key : ∀ n (a : AnyTy), b.alloc = a.alloc → existFor ex x.ty a = true → make true con ex n a [tag, given, x] = .unfinished := by
    intro n
    induction n with
    | zero => intros; rfl
    | succ n ih =>
      intro a hab h
      have e : argsFor ex b [x] = some [tag, given, x] := argsFor_lead (by rw [lead_one, if_pos (existFor_iff.mpr hb)]; rfl)
      simp only [make, lead_one, if_pos h]
      rw [hx]
      simp only [hab, beq_self_eq_true, Bool.and_self, if_true, e, ih b rfl (existFor_iff.mpr hb)]
  have h := existFor_iff.mpr ha
  have e : argsFor ex a [x] = some [tag, given, x] := argsFor_lead (by rw [lead_one, if_pos h]; rfl)
  simp only [makeUsing, e]
  exact key n a hab h

/-- The same for `emplace<any>(x)` and `a(std::in_place_type<any>, x)`, when `x` is an any of the same type. -/
theorem C123_emplace_fails (n : Nat) {t : Arg} (ht : t.ty = .inPlace (.any b)) (hx : x.ty = .of (.any b)) (hab : b.alloc = a.alloc)
    (ha : ∀ m ∈ a.methods, ex x.ty m = true) (hb : ∀ m ∈ b.methods, ex x.ty m = true) :
    make true con ex n a [t, x] = .unfinished := by
  cases n with
  | zero => rfl
  | succ n =>
    have := C123_endless_fails (con := con) n hx rfl hb hb
    have e : argsFor ex b [x] = some [tag, given, x] := argsFor_lead (by rw [lead_one, if_pos (existFor_iff.mpr hb)]; rfl)
    simp only [makeUsing, e] at this
    have h := existFor_iff.mpr ha
    rw [hx] at h
    simp only [make, ctor, ht, h, if_true, hab, beq_self_eq_true, Bool.and_self, e, this]

/-- `emplace<any>(x)` when `x` is a value of a type that is no any: the inner any has that value, and the allocator of the outer one if that passes itself on. -/
theorem C123_nested_value (n : Nat) {t : Arg} {k : Nat} (ht : t.ty = .inPlace (.any b)) (hx : x.ty = .of (.plain k)) (hab : b.alloc = a.alloc)
    (ha : ∀ m ∈ a.methods, ex (.of (.any b)) m = true) (hb : ∀ m ∈ b.methods, ex x.ty m = true) (hc : con x.ty [x] = true) :
    make passes con ex (n + 2) a [t, x] = .made (.nested .dflt b (.object (if passes then .given else .dflt) x.ty [x] false) false) := by
  have h := existFor_iff.mpr ha
  have hb := existFor_iff.mpr hb
  have e : argsFor ex b [x] = some [tag, given, x] := argsFor_lead (by rw [lead_one, if_pos hb]; rfl)
  have h1 : ∀ al as, ctor ex b as = some ⟨al, .value x.ty [x] false⟩ → make passes con ex (n + 1) b as = .made (.object al x.ty [x] false) := by
    intro al as h
    simp only [make, h]
    rw [hx] at hc ⊢
    simp only [hc, if_true]
  have h2 := h1 _ [x] ((one_plain hx).trans (if_pos hb))
  have h3 := h1 _ [tag, given, x] (lead_one.trans (if_pos hb))
  rw [make]
  simp only [ctor, ht, h, if_true, hab, beq_self_eq_true, Bool.and_true]
  cases passes
  · simp only [Bool.false_eq_true, if_false]; rw [h2]
  · simp only [if_true]; rw [e]; dsimp only; rw [h3]

/-- `std::in_place_type<T>` with arguments, an allocator passed on: the any has a default-constructed allocator, and the allocator that is passed on is a further argument for the constructor
of the value. Without arguments, if the methods exist for the tag itself, the any contains the tag. -/
theorem C123_in_place_fails (n : Nat) {t : Ty} {args : List Arg} (ht : x.ty = .inPlace t) (hany : ∀ b, t ≠ .any b) (he : ∀ m ∈ a.methods, ex (.of t) m = true) :
    makeUsing passes con ex (n + 1) a (x :: args) =
      if args = [] ∧ ∀ m ∈ a.methods, ex (.inPlace t) m = true then (if con (.inPlace t) [x] then .made (.object .given (.inPlace t) [x] false) else .illFormed)
      else if con (.of t) (args ++ [given]) then .made (.object .dflt (.of t) (args ++ [given]) false) else .illFormed := by
  have h := existFor_iff.mpr he
  have hi := existFor_iff (ex := ex) (a := a) (t := .inPlace t)
  have ht' : ctor ex a (x :: (args ++ [given])) = some ⟨.dflt, .value (.of t) (args ++ [given]) false⟩ := by
    cases args <;> simp [ctor, ht, h]
  have hm : ∀ as s, (match (some ⟨.dflt, .value (.of t) as s⟩ : Option Made) with
      | none => Out.illFormed
      | some ⟨al, .empty⟩ => .made (.empty al)
      | some ⟨al, .ofAny act⟩ => .made (.ofAny al act)
      | some ⟨al, .value (.of (.any b)) as s⟩ =>
        match if passes && b.alloc == a.alloc then argsFor ex b as else some as with
        | none => .illFormed
        | some as =>
          match make passes con ex n b as with
          | .made x => .made (.nested al b x s)
          | o => o
      | some ⟨al, .value t as s⟩ => if con t as then .made (.object al t as s) else .illFormed) = if con (.of t) as then .made (.object .dflt (.of t) as s) else .illFormed := by
    intro as s
    cases t with
    | any b => exact absurd rfl (hany b)
    | derived _ _ => rfl
    | poly _ => rfl
    | plain _ => rfl
  by_cases hc : args = [] ∧ existFor ex (.inPlace t) a = true
  · obtain ⟨rfl, hc⟩ := hc
    rw [if_pos ⟨rfl, hi.mp hc⟩]
    have e : argsFor ex a [x] = some [tag, given, x] := argsFor_lead (by rw [lead_one, ht, if_pos hc]; rfl)
    simp only [makeUsing, e, make]
    rw [lead_one, ht, if_pos hc]
  · rw [if_neg (fun hh => hc ⟨hh.1, hi.mpr hh.2⟩)]
    have hl : (ctor ex a (tag :: given :: x :: args)).isSome = false := by
      cases args with
      | nil => rw [lead_one, ht, if_neg (fun hh => hc ⟨rfl, hh⟩)]; rfl
      | cons _ _ => simp [ctor, tag, withAlloc, given]
    have e : argsFor ex a (x :: args) = some (x :: (args ++ [given])) := by
      unfold argsFor
      rw [if_neg (by simp [hl])]
      exact if_pos (by rw [List.cons_append, ht']; rfl)
    simp only [makeUsing, e, make]
    rw [ht']
    exact hm _ _

/-- `aa::force_stable_pointers` and a value, an allocator passed on: ill-formed. -/
theorem C123_stable_fails (n : Nat) {s : Arg} {k : Nat} (hs : s.ty = .stable) (hx : x.ty = .of (.plain k)) : makeUsing passes con ex n a [s, x] = .illFormed := by
  simp [makeUsing, argsFor, ctor, hs, stable, hx, withAlloc, tag, given]

/-- References to anys: ill-formed without an allocator, contained with one, if the methods exist for them. -/
theorem C123_reference_fails (n : Nat) {k : Nat} (hx : x.ty = .of (.poly k)) (h : ∀ m ∈ a.methods, ex x.ty m = true) (hc : con x.ty [x] = true) :
    make passes con ex (n + 1) a [x] = .illFormed ∧ makeUsing passes con ex (n + 1) a [x] = .made (.object .given x.ty [x] false) := by
  have h1 := (Ctor.C73_references (ex := fun t => ex (.of t)) (a := a) (x := ⟨.poly k, x.const, x.rvalue⟩) rfl).1
  have h := existFor_iff.mpr h
  have e : argsFor ex a [x] = some [tag, given, x] := argsFor_lead (by rw [lead_one, if_pos h]; rfl)
  constructor
  · simp [make, ctor, one, hx, h1]
  · simp only [makeUsing, e, make]
    rw [lead_one, if_pos h]
    rw [hx] at hc ⊢
    simp only [hc, if_true]

private def Contents.kind : Contents → Option (Option ATy)
  | .empty => none
  | .ofAny _ => some none
  | .value t _ _ => some (some t)

private def New.kind : New → Option (Option ATy)
  | .empty _ => none
  | .ofAny _ _ => some none
  | .object _ t _ _ => some (some t)
  | .nested _ b _ _ => some (some (.of (.any b)))

private def New.al : New → Alloc
  | .empty al | .ofAny al _ | .object al _ _ _ | .nested al _ _ _ => al

private theorem made_ctor {n : Nat} {args : List Arg} {y : New} (h : make passes con ex (n + 1) a args = .made y) :
    ∃ m, ctor ex a args = some m ∧ y.kind = m.contents.kind ∧ y.al = m.alloc := by
  unfold make at h
  rcases hc : ctor ex a args with _ | ⟨al, c⟩
  · rw [hc] at h; cases h
  · rw [hc] at h
    refine ⟨_, rfl, ?_⟩
    cases c with
    | empty => cases h; exact ⟨rfl, rfl⟩
    | ofAny act => cases h; exact ⟨rfl, rfl⟩
    | value t as s =>
      have obj : ∀ {t : ATy}, (if con t as then Out.made (.object al t as s) else .illFormed) = .made y →
          y.kind = (Contents.value t as s).kind ∧ y.al = al := by
        intro t h
        split at h
        · cases h; exact ⟨rfl, rfl⟩
        · cases h
      match t, h with
      | .of (.any b), h =>
        dsimp only at h
        rcases h1 : (if (passes && b.alloc == a.alloc) = true then argsFor ex b as else some as) with _ | as'
        · rw [h1] at h; cases h
        · rw [h1] at h
          dsimp only at h
          rcases h2 : make passes con ex n b as' with x | _ | _
          · rw [h2] at h; cases h; exact ⟨rfl, rfl⟩
          · rw [h2] at h; cases h
          · rw [h2] at h; cases h
      | .of (.derived b k), h => exact obj h
      | .of (.poly k), h => exact obj h
      | .of (.plain k), h => exact obj h
      | .inPlace t, h => exact obj h
      | .stable, h => exact obj h
      | .allocArg, h => exact obj h
      | .alloc, h => exact obj h

private theorem withGiven_kind (y : New) : y.withGiven.kind = y.kind ∧ y.withGiven.al = .given := by cases y <;> exact ⟨rfl, rfl⟩

private theorem one_not_given {m : Made} (h : one ex a x = some m) : m.alloc ≠ .given := by
  unfold one at h
  split at h
  · obtain ⟨act, _, rfl⟩ := Option.map_eq_some_iff.mp h
    cases act <;> simp [madeBy]
  · split at h
    · cases h; simp
    · split at h <;> cases h; simp
  · split at h <;> cases h; simp

private theorem ctor_given {args : List Arg} {m : Made} (h : ctor ex a args = some m) (hg : m.alloc = .given) :
    ∃ u v r, args = u :: v :: r ∧ u.ty = .allocArg ∧ v.ty = .alloc ∧ ((r = [] ∧ m.contents = .empty) ∨ ∃ z, r = [z] ∧ m.contents = .value z.ty [z] false ∧ existFor ex z.ty a = true) := by
  match args, h with
  | [], h => cases h; cases hg
  | [x], h => exact absurd hg (one_not_given h)
  | u :: v :: r, h =>
    simp only [ctor] at h
    split at h
    · split at h <;> cases h; cases hg
    · unfold stable at h
      split at h
      · split at h
        · cases h; cases hg
        · split at h <;> cases h; cases hg
      · split at h <;> cases h; cases hg
    · rename_i hu
      unfold withAlloc at h
      split at h
      · rename_i hv; cases h; exact ⟨u, v, [], rfl, hu, hv, Or.inl ⟨rfl, rfl⟩⟩
      · rename_i z hv
        split at h
        · rename_i he; cases h; exact ⟨u, v, _, rfl, hu, hv, Or.inr ⟨z, rfl, rfl, he⟩⟩
        · cases h
      · cases h
    · cases h

private theorem one_poly {t : Ty} {m : Made} (ht : x.ty = .of t) (hp : ∀ k, t ≠ .plain k) (h : one ex a x = some m) : m.contents.kind = some none := by
  simp only [one, ht] at h
  obtain ⟨act, ha, rfl⟩ := Option.map_eq_some_iff.mp h
  have hn := fun u => (Ctor.C73_never_nests_partial (ex := fun t => ex (.of t)) (a := a) (x := ⟨t, x.const, x.rvalue⟩)
    (by cases t <;> first | rfl | exact absurd rfl (hp _)) u).1
  cases act with
  | contain u => exact absurd ha (hn u)
  | _ => rfl

/-- Constructions that compile without an allocator: the ones for which passing an allocator on has the right effect are default construction and construction from one argument that is no any, no
reference to one, and no tag `std::in_place_type<T>` for a type with the methods. -/
theorem C123_exact (n : Nat) {args : List Arg} {y : New} (hy : make passes con ex (n + 1) a args = .made y) :
    makeUsing passes con ex (n + 1) a args = .made y.withGiven ↔
      args = [] ∨ ∃ x, args = [x] ∧ (∀ t, x.ty = .of t → ∃ k, t = .plain k) ∧ ∀ t, x.ty = .inPlace t → ¬∀ m ∈ a.methods, ex (.of t) m = true := by
  constructor
  · intro h
    obtain ⟨m, hm, mk, ma⟩ := made_ctor hy
    unfold makeUsing at h
    rcases ha : argsFor ex a args with _ | args'
    · rw [ha] at h; cases h
    · rw [ha] at h
      obtain ⟨m', hm', mk', ma'⟩ := made_ctor h
      rw [(withGiven_kind y).1] at mk'
      rw [(withGiven_kind y).2] at ma'
      have hk : m.contents.kind = m'.contents.kind := mk.symm.trans mk'
      obtain ⟨u, v, r, e, hu, hv, hr⟩ := ctor_given hm' ma'.symm
      unfold argsFor at ha
      split at ha
      · cases ha
        cases e
        rcases hr with ⟨rfl, _⟩ | ⟨z, rfl, hz, he⟩
        · exact Or.inl rfl
        · refine Or.inr ⟨z, rfl, fun t ht => ?_, fun t ht hh => ?_⟩
          · by_cases hp : ∃ k, t = .plain k
            · exact hp
            · rw [one_poly ht (fun k hk => hp ⟨k, hk⟩) hm, hz] at hk; cases hk
          · simp only [ctor, one, ht, existFor_iff.mpr hh, if_true] at hm
            cases hm
            rw [hz, ht] at hk
            cases hk
      · split at ha
        · cases ha
          match args, e with
          | [], e => cases e
          | [p], e =>
            cases e
            exact Or.inr ⟨_, rfl, fun t ht => (by rw [hu] at ht; cases ht), fun t ht => (by rw [hu] at ht; cases ht)⟩
          | [p, q], e =>
            cases e
            rcases hr with ⟨hr, _⟩ | ⟨z, hr, hz, he⟩
            · cases hr
            · cases hr
              simp only [ctor, hu, withAlloc, hv] at hm
              cases hm
              rw [hz] at hk
              cases hk
          | p :: q :: w :: l, e =>
            simp only [List.cons_append, List.cons.injEq] at e
            rcases hr with ⟨rfl, _⟩ | ⟨z, rfl, _⟩
            · exact absurd e.2.2 (by simp)
            · have := congrArg List.length e.2.2
              simp at this
        · cases ha
  · rintro (rfl | ⟨x, rfl, h1, h2⟩)
    · have := C123_partial (passes := passes) (con := con) (ex := ex) (a := a) n (args := []) (Or.inl rfl)
      rw [hy] at this
      exact this
    · by_cases hp : ∃ t, x.ty = .of t
      · obtain ⟨t, ht⟩ := hp
        obtain ⟨k, rfl⟩ := h1 t ht
        have := C123_partial (passes := passes) (con := con) (ex := ex) (a := a) n (args := [x]) (Or.inr ⟨k, x, rfl, ht⟩)
        rw [hy] at this
        exact this
      · have h1 : one ex a x = if existFor ex x.ty a then some ⟨.dflt, .value x.ty [x] false⟩ else none := by
          rcases ht : x.ty with t | t | _ | _ | _ <;> simp only [one, ht]
          · exact absurd ⟨t, ht⟩ hp
          · rw [if_neg (fun hh => h2 t ht (existFor_iff.mp hh))]
        by_cases he : existFor ex x.ty a = true
        · have e : argsFor ex a [x] = some [tag, given, x] := argsFor_lead (by rw [lead_one, if_pos he]; rfl)
          simp only [makeUsing, e]
          simp only [make] at hy ⊢
          rw [lead_one, if_pos he]
          simp only [ctor] at hy
          rw [h1, if_pos he] at hy
          rcases ht : x.ty with t | t | _ | _ | _
          · exact absurd ⟨t, ht⟩ hp
          all_goals
            rw [ht] at hy
            dsimp only at hy ⊢
            split at hy
            · cases hy; rename_i hc; rw [if_pos hc]; rfl
            · cases hy
        · simp only [make, ctor] at hy
          rw [h1, if_neg he] at hy
          cases hy

/-! Examples: `any_with<copy, draw>` with the allocator type 0; `copy` and `draw` exist for the values 1 (and for anys, their plugin has `draw`), `copy` also for the tags. -/

private def exAny : AnyTy := ⟨0, 40, [.destroy, .copy 0 40, .other 0]⟩
private def exCopyable : AnyTy := ⟨0, 40, [.destroy, .copy 0 40]⟩
private def exEx : ATy → Meth → Bool
  | .of (.plain 1), _ | .of (.any _), _ => true
  | _, .other _ => false
  | _, _ => true
private def exCon : ATy → List Arg → Bool
  | .of (.plain 1), l => l.all fun x => x.ty != .alloc
  | _, _ => true
private def v1 : Arg := ⟨.of (.plain 1), false, true⟩
private def x1 : Arg := ⟨.of (.any exAny), true, false⟩

example : make false exCon exEx 3 exAny [v1] = .made (.object .dflt (.of (.plain 1)) [v1] false) ∧
    makeUsing false exCon exEx 3 exAny [v1] = .made (.object .given (.of (.plain 1)) [v1] false) ∧ makeUsing true exCon exEx 3 exAny [] = .made (.empty .given) ∧
    make false exCon exEx 3 exAny [x1] = .made (.ofAny .other .copy) ∧
    makeUsing false exCon exEx 3 exAny [x1] = .made (.nested .given exAny (.ofAny .other .copy) false) ∧
    make true exCon exEx 5 exAny [⟨.inPlace (.any exAny), true, false⟩, v1] = .made (.nested .dflt exAny (.object .given (.of (.plain 1)) [v1] false) false) := by decide +kernel

example (n : Nat) : makeUsing true exCon exEx n exAny [x1] = .unfinished ∧ make true exCon exEx n exAny [⟨.inPlace (.any exAny), true, false⟩, x1] = .unfinished :=
  ⟨C123_endless_fails n rfl rfl (by decide) (by decide), C123_emplace_fails n rfl rfl rfl (by decide) (by decide)⟩

/-- A tag in the any; a value that cannot be constructed with the allocator; stable pointers. -/
example : makeUsing false exCon exEx 3 exCopyable [⟨.inPlace (.plain 1), true, false⟩] = .made (.object .given (.inPlace (.plain 1)) [⟨.inPlace (.plain 1), true, false⟩] false) ∧
    make false exCon exEx 3 exCopyable [⟨.inPlace (.plain 1), true, false⟩] = .made (.object .dflt (.of (.plain 1)) [] false) ∧
    makeUsing false exCon exEx 3 exAny [⟨.inPlace (.plain 1), true, false⟩, v1] = .illFormed ∧
    make false exCon exEx 3 exAny [⟨.inPlace (.plain 1), true, false⟩, v1] = .made (.object .dflt (.of (.plain 1)) [v1] false) ∧
    makeUsing false (fun _ _ => true) exEx 3 exAny [⟨.inPlace (.plain 1), true, false⟩, v1] = .made (.object .dflt (.of (.plain 1)) [v1, given] false) ∧
    make false exCon exEx 3 exAny [⟨.stable, true, false⟩, v1] = .made (.object .dflt (.of (.plain 1)) [v1] true) ∧
    makeUsing false exCon exEx 3 exAny [⟨.stable, true, false⟩, v1] = .illFormed := by decide +kernel

example : ∃ (x : Arg) (k : Nat), x.ty = .of (.poly k) ∧ (∀ m ∈ exCopyable.methods, exEx x.ty m = true) ∧ exCon x.ty [x] = true :=
  ⟨⟨.of (.poly 0), true, false⟩, 0, rfl, by decide, rfl⟩

end AnyAny.UsesAlloc
