import Verif.Model.MemberNames
import Verif.Props.TypeList
/-
C112: "ref/any_with, with Method created by this macro will have member function named NAME" (anyany_macro.hpp:56): `x.NAME(...)` calls the
method. Partial: not if the library uses the name itself, or another method of the class has it too, as those made from one template.
-/
namespace AnyAny.MemberNames
open AnyAny.TypeList

/-- The names the library uses in this class. -/
def Reserved (k : Kind) (ms : List Meth) (n : String) : Prop := n ∈ k.own ∨ n ∈ k.view ms

/-- Access that the method needs: those taking `& self` need an object that is not const, and no reference to const. -/
def Access (k : Kind) (constObj : Bool) : Meth → Prop
  | .named _ _ _ .mutRef => constObj = false ∧ k ≠ .constPolyRef ∧ k ≠ .cref
  | .call _ false => constObj = false ∧ k ≠ .constPolyRef ∧ k ≠ .cref
  | _ => True

/-- The name by which a method can be called: of methods taking `self` by value, `const&` and `&`. -/
def CalledAs : Meth → String → Prop
  | .named n _ _ s, x => s ≠ .rvalueRef ∧ n = x
  | .call _ _, x => x = "operator()"
  | .noPlugin _, _ => False

theorem member_iff (m : Meth) (n : String) : m.member = some n ↔ CalledAs m n := by
  cases m with
  | named x s a k => cases k <;> simp [Meth.member, CalledAs]
  | call s c => simp [Meth.member, CalledAs, eq_comm]
  | noPlugin => simp [Meth.member, CalledAs]

theorem plugins_spec (ms : List Meth) : (plugins ms).Nodup ∧ ∀ m, m ∈ plugins ms ↔ m ∈ ms ∧ m.isVoid = false := by
  have H : Spec.IsHierarchy (fun a b : Meth => a == b) := ⟨by simp, by simp +contextual, by simp +contextual⟩
  refine ⟨(C29_no_duplicates Meth.isVoid _ H ms).1, fun m => ?_⟩
  rw [plugins, C29_inherited_iff Meth.isVoid _ H (by simp +contextual) ms m]
  simp only [beq_iff_eq]
  exact ⟨fun h => ⟨h.1, h.2.1⟩, fun h => ⟨h.1, h.2, fun y _ _ e => e.symm⟩⟩

theorem filter_single {α : Type} (p : α → Bool) (l : List α) (hn : l.Nodup) (x : α) :
    l.filter p = [x] ↔ x ∈ l ∧ p x = true ∧ ∀ y ∈ l, p y = true → y = x := by
  constructor
  · intro h
    have hx : x ∈ l.filter p := by rw [h]; exact List.mem_singleton.2 rfl
    obtain ⟨h1, h2⟩ := List.mem_filter.1 hx
    refine ⟨h1, h2, fun y hy hp => ?_⟩
    have : y ∈ l.filter p := List.mem_filter.2 ⟨hy, hp⟩
    rw [h] at this
    exact List.mem_singleton.1 this
  · rintro ⟨h1, h2, h3⟩
    have hm : ∀ y, y ∈ l.filter p ↔ y = x := fun y => by
      rw [List.mem_filter]
      exact ⟨fun h => h3 y h.1 h.2, fun e => by subst e; exact ⟨h1, h2⟩⟩
    have hn' : (l.filter p).Nodup := hn.filter _
    match hl : l.filter p with
    | [] => have := (hm x).2 rfl; rw [hl] at this; cases this
    | [a] => have := (hm a).1 (by rw [hl]; exact List.mem_singleton.2 rfl); rw [this]
    | a :: b :: r =>
      have ha := (hm a).1 (by rw [hl]; simp)
      have hb := (hm b).1 (by rw [hl]; simp)
      rw [hl] at hn'
      exact absurd (ha.trans hb.symm) (by have := (List.nodup_cons.1 hn').1; intro e; exact this (by rw [e]; simp))

theorem lookup_plugin (k : Kind) (ms : List Meth) (n : String) (m : Meth) :
    lookup k ms n = .plugin m ↔ m ∈ ms ∧ CalledAs m n ∧ ¬ Reserved k ms n ∧ ∀ m' ∈ ms, CalledAs m' n → m' = m := by
  obtain ⟨hn, hp⟩ := plugins_spec ms
  have hv : ∀ m, CalledAs m n → m.isVoid = false := fun m h => by cases m <;> first | rfl | exact h.elim
  have hs := filter_single (fun m => m.member == some n) (plugins ms) hn m
  simp only [beq_iff_eq, member_iff] at hs
  have key : (plugins ms).filter (fun m => m.member == some n) = [m] ↔ m ∈ ms ∧ CalledAs m n ∧ ∀ m' ∈ ms, CalledAs m' n → m' = m := by
    rw [hs, hp]
    constructor
    · rintro ⟨⟨h1, _⟩, h2, h3⟩
      exact ⟨h1, h2, fun y hy hc => h3 y ((hp y).2 ⟨hy, hv y hc⟩) hc⟩
    · rintro ⟨h1, h2, h3⟩
      exact ⟨⟨h1, hv m h2⟩, h2, fun y hy hc => h3 y ((hp y).1 hy).1 hc⟩
  unfold lookup Reserved
  by_cases ho : n ∈ k.own
  · simp [ho]
  · simp only [ho, if_false, false_or]
    clear hs
    generalize (plugins ms).filter (fun m => m.member == some n) = f at key ⊢
    cases hc : (k.view ms).contains n with
    | true =>
      have : n ∈ k.view ms := by simpa using hc
      simp only [this, not_true, and_false, false_and, iff_false]
      rcases f with _ | ⟨a, _ | ⟨b, r⟩⟩ <;> simp
    | false =>
      have : n ∉ k.view ms := by simpa using hc
      simp only [this, not_false_iff, true_and]
      rw [← key]
      rcases f with _ | ⟨a, _ | ⟨b, r⟩⟩ <;> simp

/-! ### C112 -/

theorem access_iff (k : Kind) (c : Bool) (m : Meth) : (m.constMember || (!c && !k.isConst)) = true ↔ Access k c m := by
  cases m with
  | named x s a f => cases f <;> cases k <;> cases c <;> simp [Meth.constMember, Kind.isConst, Access]
  | call s f => cases f <;> cases k <;> cases c <;> simp [Meth.constMember, Kind.isConst, Access]
  | noPlugin => simp [Meth.constMember, Access]

/-- C112, exactly: `x.n(...)` calls the method `m` just if it is a method of the class with this name and no other method of the class has
the name, the library does not use it in this class, and `x` gives the access that `m` needs. -/
theorem C112_exact (k : Kind) (ms : List Meth) (c : Bool) (n : String) (m : Meth) :
    calls k ms c n = some m ↔
      m ∈ ms ∧ CalledAs m n ∧ Access k c m ∧ ¬ Reserved k ms n ∧ ∀ m' ∈ ms, CalledAs m' n → m' = m := by
  unfold calls
  constructor
  · intro h
    split at h
    · rename_i x hx
      split at h
      · rename_i ha
        cases h
        obtain ⟨h1, h2, h3, h4⟩ := (lookup_plugin k ms n m).1 hx
        exact ⟨h1, h2, (access_iff k c m).1 ha, h3, h4⟩
      · cases h
    · cases h
  · rintro ⟨h1, h2, h3, h4, h5⟩
    rw [(lookup_plugin k ms n m).2 ⟨h1, h2, h4, h5⟩]
    simp only
    rw [if_pos ((access_iff k c m).2 h3)]

/-- C112, partial: the methods of a class can be called by their names, if these are different, and different from those the library uses.
What is missing: names used twice (`C112_same_name_fails`) or by the library (`C112_library_fails`). -/
theorem C112_partial (k : Kind) (ms : List Meth) (c : Bool) (hd : ∀ m ∈ ms, ∀ m' ∈ ms, ∀ n, CalledAs m n → CalledAs m' n → m' = m)
    (hr : ∀ m ∈ ms, ∀ n, CalledAs m n → ¬ Reserved k ms n) (m : Meth) (hm : m ∈ ms) (n : String) (hn : CalledAs m n) (ha : Access k c m) :
    calls k ms c n = some m :=
  (C112_exact k ms c n m).2 ⟨hm, hn, ha, hr m hm n hn, fun m' h' hn' => hd m hm m' h' n hn hn'⟩

/-- C112 fails: two different methods with one name, for example from one template, as in the comment of the macro
(`any_with<visit<int>, visit<double>>`), or two signatures of `call`: neither can be called by it, in any of the classes. -/
theorem C112_same_name_fails (k : Kind) (ms : List Meth) (c : Bool) (m m' : Meth) (n : String) (h : m ∈ ms) (h' : m' ∈ ms)
    (hn : CalledAs m n) (hn' : CalledAs m' n) (hne : m ≠ m') : calls k ms c n = none := by
  cases hc : calls k ms c n with
  | none => rfl
  | some x =>
    obtain ⟨_, _, _, _, hu⟩ := (C112_exact k ms c n x).1 hc
    exact absurd ((hu m h hn).trans (hu m' h' hn').symm) hne

/-- C112: which of two names a reference to a value reserves depends on the number of its methods: a method named `vtable_value` can be called by
its name just if the `poly_ref` has other methods too, and one named `vtable_ptr` just if it has none. -/
theorem C112_vtable_names (k : Kind) (hk : k = .polyRef ∨ k = .constPolyRef) (ms : List Meth) :
    (Reserved k ms "vtable_value" ↔ ms.length = 1) ∧ (Reserved k ms "vtable_ptr" ↔ ms.length ≠ 1) := by
  rcases hk with rfl | rfl <;> by_cases h : ms.length = 1 <;> simp [Reserved, Kind.own, Kind.view, h]

/-- C112 fails: a method with the name of a member of the class cannot be called by it: `a.reset()` empties the any. -/
theorem C112_library_fails (k : Kind) (ms : List Meth) (c : Bool) (n : String) (hn : n ∈ k.own) :
    lookup k ms n = .library ∧ calls k ms c n = none := by
  have : lookup k ms n = .library := by simp [lookup, hn]
  exact ⟨this, by simp [calls, this]⟩

/-- C112: a name is found only if the library uses it in the class or a method of the class has it. A name of `vtable_view` that is not one
of the class itself is that of the library just if no method has it. -/
theorem C112_found (k : Kind) (ms : List Meth) (n : String) :
    (lookup k ms n = .nothing ↔ ¬ Reserved k ms n ∧ ∀ m ∈ ms, ¬ CalledAs m n) ∧
    (lookup k ms n = .library ↔ n ∈ k.own ∨ (n ∈ k.view ms ∧ ∀ m ∈ ms, ¬ CalledAs m n)) := by
  obtain ⟨_, hp⟩ := plugins_spec ms
  have hv : ∀ m, CalledAs m n → m.isVoid = false := fun m h => by cases m <;> first | rfl | exact h.elim
  have key : (plugins ms).filter (fun m => m.member == some n) = [] ↔ ∀ m ∈ ms, ¬ CalledAs m n := by
    rw [List.filter_eq_nil_iff]
    simp only [beq_iff_eq, member_iff]
    exact ⟨fun h m hm hc => h m ((hp m).2 ⟨hm, hv m hc⟩) hc, fun h m hm hc => h m ((hp m).1 hm).1 hc⟩
  unfold lookup Reserved
  by_cases ho : n ∈ k.own
  · simp [ho]
  · simp only [ho, if_false, false_or]
    rw [← key]
    generalize (plugins ms).filter (fun m => m.member == some n) = f
    have hc : (k.view ms).contains n = true ↔ n ∈ k.view ms := by simp
    rw [← hc]
    cases (k.view ms).contains n <;> rcases f with _ | ⟨a, _ | ⟨b, r⟩⟩ <;> simp

/-- The name of the class. -/
def className : Kind → String
  | .any => "basic_any"
  | .polyRef => "poly_ref"
  | .constPolyRef => "const_poly_ref"
  | .ref => "ref"
  | .cref => "cref"

/-- C112 fails for the names of the classes: each class hides methods with its own name, of these five names, and anys hide `ref` and `cref`
also; the other ones are not used in the class, so that a method has that name there (`C112_exact`). -/
theorem C112_class_names (k k' : Kind) (ms : List Meth) :
    Reserved k ms (className k') ↔ k = k' ∨ (k = .any ∧ (k' = .ref ∨ k' = .cref)) := by
  unfold Reserved
  cases k <;> cases k' <;> by_cases h : ms.length = 1 <;> simp [Kind.own, Kind.view, className, h]

/-- C112: methods without a member function of this name do not change what a name means (outside of the names of the library). -/
theorem C112_others (k : Kind) (ms : List Meth) (x : Meth) (c : Bool) (n : String) (m : Meth) (hx : ¬ CalledAs x n)
    (hr : Reserved k (x :: ms) n ↔ Reserved k ms n) : calls k (x :: ms) c n = some m ↔ calls k ms c n = some m := by
  rw [C112_exact, C112_exact, hr]
  constructor
  · rintro ⟨h1, h2, h3, h4, h5⟩
    rcases List.mem_cons.1 h1 with rfl | h1
    · exact absurd h2 hx
    · exact ⟨h1, h2, h3, h4, fun m' h => h5 m' (List.mem_cons_of_mem _ h)⟩
  · rintro ⟨h1, h2, h3, h4, h5⟩
    refine ⟨List.mem_cons_of_mem _ h1, h2, h3, h4, fun m' h hc => ?_⟩
    rcases List.mem_cons.1 h with rfl | h
    · exact absurd hc hx
    · exact h5 m' h hc

/-- `anyany_method(draw, (const& self) …)`, `anyany_method(next, (& self) …)`, `aa::destroy`, `aa::call<…>` -/
def exMs : List Meth := [.noPlugin 0, .named "draw" 0 [] .constRef, .named "next" 0 [] .mutRef, .call 0 true]

example : calls .any exMs true "draw" = some (.named "draw" 0 [] .constRef) ∧ calls .any exMs true "next" = none ∧
    calls .polyRef exMs false "next" = some (.named "next" 0 [] .mutRef) ∧ calls .cref exMs false "operator()" = some (.call 0 true) := by
  decide
/-- `any_with<visit<int>, visit<double>>` -/
example : lookup .any [.named "visit" 0 [1] .mutRef, .named "visit" 0 [2] .mutRef] "visit" = .ambiguous := by decide
/-- `anyany_method(reset, (& self) …)` -/
example : lookup .any [.named "reset" 0 [] .mutRef] "reset" = .library ∧
    calls .polyRef [.named "reset" 0 [] .mutRef] false "reset" = some (.named "reset" 0 [] .mutRef) := by decide

end AnyAny.MemberNames
