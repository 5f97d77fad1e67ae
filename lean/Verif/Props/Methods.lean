import Verif.Spec.Methods
import Verif.Props.TypeList
/-
C77: a method gets the access to the object that it declares. C78: exist_for is honest. C79: references to arrays and functions.
C29: the interface is composed of the plugins that the methods select.
-/
namespace AnyAny.Methods

variable {copyable : Ty → Bool} {m : Method} {ms : List Method} {t : Ty} {a : Access} {s s' : Sig}

/-! ### C77 -/

theorem bindSelf_const {c : Bool} {f : Self} (h : bindSelf true c f = some a) : a ≠ .mutable := by
  cases f <;> cases c <;> simp [bindSelf] at h <;> rw [← h] <;> decide

/-- C77: a const method never gets a reference through which the object can be changed, whatever its `do_invoke` looks like for the type. -/
theorem C77_const_methods_cannot_change (hc : m.isConst = true) (h : invoker copyable m t = some a) : a ≠ .mutable := by
  unfold invoker at h
  unfold Method.isConst at hc
  split at h
  · cases h
  · split at h
    · injection h with h; rw [← h]; decide
    · cases h
  · rename_i s hs
    rw [hs] at hc
    split at h
    · cases h
    · rename_i s' _
      split at h
      · split at h
        · change s.self.isConst = true at hc
          rw [hc] at h
          exact bindSelf_const h
        · split at h
          · exact bindSelf_const h
          · cases h
      · cases h

/-- C77: the signature of a method is the declared one. -/
theorem C77_signature (m : Method) (g : Signature) : m.signature = some g ↔ Declares m g := by
  unfold Method.signature
  constructor
  · intro h
    split at h
    · exact .signatureType (by rename_i e; rw [e]; exact h)
    · split at h
      · cases h; exact .doInvoke ‹_› ‹_›
      · obtain ⟨v, hv, rfl⟩ := Option.map_eq_some_iff.1 h
        exact .valueType ‹_› ‹_› hv
  · rintro (h | ⟨h, hd⟩ | ⟨h, hd, hv⟩)
    · rw [h]
    · rw [h, hd]
    · rw [h, hd, hv]; rfl

/-- C77: what `do_invoke` gets for a type is what its parameter for that type declares: a mutable reference to the object, a const reference to it,
or a copy of it. The object is never passed as an rvalue: no method can move from it. -/
theorem C77_parameter (hs : m.signature = some (.func s)) (hd : m.doInvoke t = some s') (h : invoker copyable m t = some a) :
    declared s'.self = some a ∧ (a = .copy → copyable t = true) := by
  unfold invoker at h
  rw [hs] at h
  simp only [hd] at h
  split at h
  · split at h
    · cases hf : s'.self <;> rw [hf] at h <;> simp [bindSelf, declared] at h ⊢
      · exact ⟨h.2, fun _ => h.1⟩
      · exact ⟨h.2, fun e => by rw [e] at h; simp at h⟩
      · exact ⟨h, fun e => by rw [e] at h; simp at h⟩
    · split at h
      · rename_i hcp
        cases hf : s'.self <;> rw [hf] at h <;> simp [bindSelf, declared] at h ⊢
        · exact ⟨h.2, fun _ => h.1⟩
        · exact ⟨h, fun e => by rw [e] at h; simp at h⟩
      · cases h
  · cases h

/-- C77: all types of objects behave in the same way: a documented method gets the declared access whatever the type of the object is, exactly if the
type has the method and the declaration is an lvalue reference, or by value for a copyable type. -/
theorem C77_regular_methods (R : Regular m s) :
    invoker copyable m t = some a ↔ Has m t ∧ declared s.self = some a ∧ (s.self = .val → copyable t = true) := by
  unfold Has
  simp only [R.noValue, Bool.false_eq_true, or_false]
  unfold invoker
  rw [R.sig]
  simp only []
  cases hd : m.doInvoke t with
  | none => simp
  | some s' =>
    have := R.uniform t s' hd
    subst this
    rcases s' with ⟨r, f, as⟩
    cases f <;> cases hc : copyable t <;> simp [bindSelf, declared, Self.isLvalueRef, Self.isConst]

/-- C77: for a method whose declaration does not take the object by lvalue reference, every call of any contained type, whatever its `do_invoke`
takes, makes a copy for the method or binds the object to const; only copyable types can be contained. -/
theorem C77_by_value_needs_copyable (hs : m.signature = some (.func s)) (hl : s.self ≠ .lref) (hc : s.self ≠ .clref) (h : invoker copyable m t = some a) :
    copyable t = true ∧ (a = .copy ∨ a = .const) := by
  have hv : s.self.isLvalueRef = false := by cases hf : s.self <;> simp_all [Self.isLvalueRef]
  unfold invoker at h
  rw [hs] at h
  simp only [hv, Bool.false_eq_true, if_false] at h
  split at h
  · cases h
  · rename_i s' _
    by_cases hcp : copyable t = true
    · refine ⟨hcp, ?_⟩
      split at h
      · cases hf : s'.self <;> simp [hf, bindSelf, hcp] at h <;> simp [← h]
      · cases h
    · simp [hcp] at h

/-- A method declared by value whose `do_invoke` takes `const T&`. -/
example : (⟨some (.func ⟨1, .val, []⟩), fun _ => some ⟨1, .clref, []⟩, none, fun _ => false⟩ : Method).signature = some (.func ⟨1, .val, []⟩) ∧
    invoker (fun _ => true) ⟨some (.func ⟨1, .val, []⟩), fun _ => some ⟨1, .clref, []⟩, none, fun _ => false⟩ (.obj 1) = some .const ∧
    invoker (fun _ => false) ⟨some (.func ⟨1, .val, []⟩), fun _ => some ⟨1, .clref, []⟩, none, fun _ => false⟩ (.obj 1) = none := by decide

/-- C77: pseudomethods give a value for every type that has one. -/
theorem C77_pseudomethods (P : Pseudo m) : invoker copyable m t = some a ↔ Has m t ∧ a = .value := by
  obtain ⟨v, hv⟩ := P.sig
  simp only [invoker, hv, Has, P.noInvoke]
  cases m.doValue t <;> simp [eq_comm]

/-- C77: `is_const_method_v` tells exactly which methods can be called on const objects: those that do not declare a non-const reference. -/
theorem C77_is_const_method (m : Method) :
    m.isConst = true ↔ ∀ s, m.signature = some (.func s) → s.self ≠ .lref ∧ s.self ≠ .rref := by
  unfold Method.isConst
  cases m.signature with
  | none => simp
  | some g =>
    cases g with
    | value v => simp
    | func s =>
      rcases s with ⟨r, f, as⟩
      cases f <;> simp [Self.isConst]

/-- C77: a documented method that can be called at all is const exactly if it does not get a mutable reference. -/
theorem C77_const_iff_not_mutable (R : Regular m s) (h : invoker copyable m t = some a) : m.isConst = true ↔ a ≠ .mutable := by
  rw [C77_is_const_method, R.sig]
  have := ((C77_regular_methods R).1 h).2.1
  cases hf : s.self <;> rw [hf] at this <;> cases this <;> simp [hf]

example : invoker (fun _ => true) ⟨none, fun _ => some ⟨1, .lref, [2]⟩, none, fun _ => false⟩ (.obj 1) = some .mutable := by decide

/-- A const method `int(const Self&, int)`, a mutable one, one by value and one by rvalue reference, for all types but number 3. -/
def exMethod (f : Self) : Method := ⟨none, fun t => if t = .obj 3 then none else some ⟨1, f, [2]⟩, none, fun _ => false⟩

theorem exMethod_regular (f : Self) : Regular (exMethod f) ⟨1, f, [2]⟩ := by
  refine ⟨rfl, fun t s' h => ?_, fun _ => rfl⟩
  simp only [exMethod] at h
  split at h
  · cases h
  · exact (Option.some.inj h).symm

/-- `type_info`, a pseudomethod of all types. -/
def exPseudo : Method := ⟨none, fun _ => none, some 7, fun _ => true⟩

example : Pseudo exPseudo := ⟨⟨7, rfl⟩, fun _ => rfl⟩
example : (exMethod .clref).isConst = true ∧ invoker (fun _ => true) (exMethod .clref) (.obj 1) = some .const ∧
    (exMethod .val).isConst = true ∧ invoker (fun _ => true) (exMethod .val) (.obj 1) = some .copy ∧
    (exMethod .lref).isConst = false ∧ invoker (fun _ => true) (exMethod .lref) (.obj 1) = some .mutable := by decide
/-- A method whose signature for a type differs from the declared one: declared mutable, it takes the object by const reference; declared const, a
`do_invoke` that wants a mutable reference does not compile. -/
example : invoker (fun _ => true) ⟨some (.func ⟨1, .lref, []⟩), fun _ => some ⟨1, .clref, []⟩, none, fun _ => false⟩ (.obj 1) = some .const ∧
    invoker (fun _ => true) ⟨some (.func ⟨1, .clref, []⟩), fun _ => some ⟨1, .lref, []⟩, none, fun _ => false⟩ (.obj 1) = none := by decide

/-! ### C78 -/

/-- C78: for methods that take the object by lvalue reference, pseudomethods, and methods by value if the type is copyable: the check that guards all
constructors of anys, references and pointers is true exactly if the type has all methods, and then everything it guards compiles. -/
theorem C78_exist_for_partial (x : Ty)
    (h : ∀ m ∈ ms, Pseudo m ∨ ∃ s, Regular m s ∧ (s.self = .lref ∨ s.self = .clref ∨ (s.self = .val ∧ copyable x.decay = true))) :
    (existFor ms x = true ↔ ∀ m ∈ ms, Has m x.decay) ∧ (existFor ms x = true ↔ vtableCompiles copyable ms x.decay = true) := by
  have h1 : existFor ms x = true ↔ ∀ m ∈ ms, Has m x.decay := by
    simp only [existFor, List.all_eq_true, existFor1, Bool.or_eq_true, Option.isSome_iff_exists, Has]
  refine ⟨h1, h1.trans ?_⟩
  simp only [vtableCompiles, List.all_eq_true, Option.isSome_iff_exists]
  refine forall_congr' fun m => forall_congr' fun hm => ?_
  rcases h m hm with P | ⟨s, R, hf⟩
  · simp only [C77_pseudomethods P]
    exact ⟨fun h => ⟨_, h, rfl⟩, fun ⟨_, h, _⟩ => h⟩
  · simp only [C77_regular_methods R]
    rcases hf with hf | hf | ⟨hf, hc⟩ <;> rw [hf] <;> simp [declared, *]

/-- C78: the check never rejects a type for which everything would compile. -/
theorem C78_never_rejects (x : Ty) (h : vtableCompiles copyable ms x.decay = true) : existFor ms x = true := by
  simp only [vtableCompiles, existFor, List.all_eq_true] at h ⊢
  intro m hm
  have := h m hm
  unfold invoker at this
  unfold existFor1
  split at this
  · cases this
  · split at this
    · rename_i hv; simp [hv]
    · cases this
  · split at this
    · cases this
    · rename_i hd; simp [hd]

/-- C78 fails: for every method that takes the object by value and every type that has it but is not copyable, and for every method that takes
it by rvalue reference and every type that has it: the check says yes (so traits such as `is_constructible` do), and using the constructor
does not compile. -/
theorem C78_exist_for_fails (R : Regular m s) (x : Ty) (hh : Has m x.decay)
    (hf : (s.self = .val ∧ copyable x.decay = false) ∨ s.self = .rref ∨ s.self = .crref) :
    existFor [m] x = true ∧ ∀ ms, m ∈ ms → vtableCompiles copyable ms x.decay = false := by
  refine ⟨?_, fun ms hm => ?_⟩
  · simp only [existFor, existFor1, List.all_cons, List.all_nil, Bool.and_true, Bool.or_eq_true, Option.isSome_iff_exists]
    exact hh
  · cases hv : vtableCompiles copyable ms x.decay with
    | false => rfl
    | true =>
      simp only [vtableCompiles, List.all_eq_true, Option.isSome_iff_exists] at hv
      obtain ⟨a, ha⟩ := hv m hm
      obtain ⟨_, h2, h3⟩ := (C77_regular_methods R).1 ha
      rcases hf with ⟨hf, hc⟩ | hf | hf
      · rw [h3 hf] at hc; cases hc
      · rw [hf] at h2; cases h2
      · rw [hf] at h2; cases h2

example : Has (exMethod .val) (.obj 1) ∧ ((⟨1, .val, [2]⟩ : Sig).self = .val ∧ (fun _ => false : Ty → Bool) (Ty.obj 1).decay = false) :=
  ⟨.inl ⟨_, rfl⟩, rfl, rfl⟩
example : ∀ m ∈ [exMethod .lref, exMethod .val, exPseudo], Pseudo m ∨
    ∃ s, Regular m s ∧ (s.self = .lref ∨ s.self = .clref ∨ (s.self = .val ∧ (fun _ => true : Ty → Bool) (Ty.obj 1).decay = true)) := by
  intro m hm
  simp only [List.mem_cons, List.not_mem_nil, or_false] at hm
  rcases hm with rfl | rfl | rfl
  · exact .inr ⟨_, exMethod_regular _, .inl rfl⟩
  · exact .inr ⟨_, exMethod_regular _, .inr (.inr ⟨rfl, rfl⟩)⟩
  · exact .inl ⟨⟨7, rfl⟩, fun _ => rfl⟩
example : vtableCompiles (fun _ => true) [exMethod .lref, exMethod .val, exPseudo] (.obj 1) = true ∧
    existFor [exMethod .lref, exMethod .val, exPseudo] (.obj 3) = false := by decide

/-! ### C79 -/

theorem make_some {src : Source} {o : Made} (h : make copyable ms src t = some o) :
    existFor ms t = true ∧ vtableCompiles copyable ms t.decay = true ∧ o.entries = t.decay ∧
    (src = .any → o.object = t.decay) ∧ (src ≠ .any → o.object = t ∧ t.isFunction = false) := by
  unfold make at h
  split at h
  · rename_i hc
    simp only [Bool.and_eq_true] at hc
    refine ⟨hc.1, hc.2, ?_⟩
    split at h
    · injection h with h; subst h; exact ⟨rfl, fun _ => rfl, fun h => absurd rfl h⟩
    · rename_i hne
      split at h
      · cases h
      · rename_i hf
        injection h with h; subst h
        exact ⟨rfl, fun e => absurd e hne, fun _ => ⟨rfl, by simpa using hf⟩⟩
  · cases h

/-- C79: a reference or pointer can be made from an lvalue of every type that is not a function, and an any from an lvalue of every type, just if the
type passes the check of the constructor and has entries for all methods of the interface. -/
theorem C79_made (src : Source) (hf : src = .any ∨ ∀ f, t ≠ .fn f) :
    (∃ o, make copyable ms src t = some o) ↔ existFor ms t = true ∧ vtableCompiles copyable ms t.decay = true := by
  constructor
  · rintro ⟨o, h⟩; exact ⟨(make_some h).1, (make_some h).2.1⟩
  · rintro ⟨h1, h2⟩
    have hn : src ≠ .any → t.isFunction = false := fun hs => by
      rcases hf with h | h
      · exact absurd h hs
      · cases t <;> simp_all [Ty.isFunction]
    unfold make
    rw [h1, h2]
    cases src <;> simp [hn]

example : ∃ o, make (fun _ => true) [exMethod .lref] .polyRef (.obj 1) = some o :=
  (C79_made .polyRef (.inr fun f h => by cases h)).2 ⟨by decide, by decide⟩

/-- C79: whatever is made from an lvalue of a type that is neither an array nor a function contains or refers to an object of just that type, and its
methods run on that object with the access of the method for that type. -/
theorem C79_objects_partial {src : Source} {o : Made} (h : make copyable ms src t = some o) (ha : t.isArray = false) (hf : t.isFunction = false)
    (hm : m ∈ ms) : o.object = t ∧ call copyable m o = invoker copyable m t ∧ (call copyable m o).isSome := by
  obtain ⟨-, h2, h3, h4, h5⟩ := make_some h
  have hd : t.decay = t := by cases t <;> simp_all [Ty.decay, Ty.isArray, Ty.isFunction]
  have ho : o.object = t := by
    by_cases hs : src = .any
    · rw [h4 hs, hd]
    · exact (h5 hs).1
  have hc : call copyable m o = invoker copyable m t := by
    unfold call
    rw [h3, hd, ho]
    cases invoker copyable m t with
    | none => rfl
    | some a => cases a <;> simp
  refine ⟨ho, hc, ?_⟩
  rw [hc]
  simp only [vtableCompiles, List.all_eq_true, hd] at h2
  exact h2 m hm

/-- C79: an any made from an array or a function contains a pointer, and its methods run on that pointer. -/
theorem C79_any_decays {o : Made} (h : make copyable ms .any t = some o) (hm : m ∈ ms) :
    o.object = t.decay ∧ call copyable m o = invoker copyable m t.decay ∧ (call copyable m o).isSome := by
  obtain ⟨-, h2, h3, h4, -⟩ := make_some h
  have hc : call copyable m o = invoker copyable m t.decay := by
    unfold call
    rw [h3, h4 rfl]
    cases invoker copyable m t.decay with
    | none => rfl
    | some a => cases a <;> simp
  refine ⟨h4 rfl, hc, ?_⟩
  rw [hc]
  simp only [vtableCompiles, List.all_eq_true] at h2
  exact h2 m hm

/-- C79: an any made from an array contains a pointer to its elements' type, one made from a function a function pointer, and one made from an
object of any other type contains that type. -/
theorem C79_any_contains {o : Made} (h : make copyable ms .any t = some o) :
    (∀ e n, t = .arr e n → o.object = .ptr e) ∧ (∀ f, t = .fn f → o.object = .ptr (.fn f)) ∧
    (t.isArray = false → t.isFunction = false → o.object = t) := by
  have ho := (make_some h).2.2.2.1 rfl
  refine ⟨fun e n ht => by rw [ho, ht]; rfl, fun f ht => by rw [ho, ht]; rfl, fun h1 h2 => ?_⟩
  rw [ho]
  cases t <;> simp_all [Ty.decay, Ty.isArray, Ty.isFunction]

example : make (fun _ => true) [] .any (.fn 3) = some ⟨.ptr (.fn 3), .ptr (.fn 3)⟩ := by decide

/-- C79 fails: every reference or pointer made from an array refers to the array, but has the methods of a pointer to its elements: calling any
regular method accesses the array's storage as a pointer. -/
theorem C79_arrays_fail {src : Source} {o : Made} (hs : src ≠ .any) (ha : t.isArray = true) (h : make copyable ms src t = some o)
    (R : Regular m s) : o.object = t ∧ o.entries ≠ t ∧ call copyable m o = none := by
  obtain ⟨-, -, h3, -, h5⟩ := make_some h
  have ho := (h5 hs).1
  have hne : o.entries ≠ t := by
    rw [h3]
    have sz : ∀ u n, Ty.ptr u ≠ .arr u n := fun _ _ e => by cases e
    cases t <;> simp_all [Ty.decay, Ty.isArray]
  refine ⟨ho, hne, ?_⟩
  unfold call
  cases hi : invoker copyable m o.entries with
  | none => rfl
  | some a =>
    have hne' : ¬ o.object = o.entries := fun e => hne (e.symm.trans ho)
    have := ((C77_regular_methods R).1 hi).2.1
    cases a
    · simp [hne']
    · simp [hne']
    · simp [hne']
    · cases hf : s.self <;> rw [hf] at this <;> cases this

/-- C79: pseudomethods of a reference or pointer made from an array are defined; they give the value of the pointer type. -/
theorem C79_arrays_pseudomethods {src : Source} {o : Made} (h : make copyable ms src t = some o) (P : Pseudo m) (hm : m ∈ ms) :
    call copyable m o = some .value ∧ Has m t.decay := by
  obtain ⟨-, h2, h3, -, -⟩ := make_some h
  simp only [vtableCompiles, List.all_eq_true] at h2
  obtain ⟨a, ha⟩ := Option.isSome_iff_exists.1 (h2 m hm)
  obtain ⟨hh, rfl⟩ := (C77_pseudomethods P).1 ha
  exact ⟨by unfold call; rw [h3, ha], hh⟩

/-- C79 fails: no reference or pointer can be made from a function. -/
theorem C79_functions_fail {src : Source} (hs : src ≠ .any) (f : Nat) : make copyable ms src (.fn f) = none := by
  cases h : make copyable ms src (.fn f) with
  | none => rfl
  | some o => have := ((make_some h).2.2.2.2 hs).2; cases this

/-- References to an array of three elements and to an object, and anys made from both. -/
example : make (fun _ => true) [exMethod .clref] .statefulCref (.arr (.obj 1) 3) = some ⟨.arr (.obj 1) 3, .ptr (.obj 1)⟩ ∧
    call (fun _ => true) (exMethod .clref) ⟨.arr (.obj 1) 3, .ptr (.obj 1)⟩ = none ∧
    make (fun _ => true) [exMethod .clref] .statefulCref (.obj 1) = some ⟨.obj 1, .obj 1⟩ ∧
    call (fun _ => true) (exMethod .clref) ⟨.obj 1, .obj 1⟩ = some .const ∧
    make (fun _ => true) [exMethod .clref] .any (.arr (.obj 1) 3) = some ⟨.ptr (.obj 1), .ptr (.obj 1)⟩ ∧
    make (fun _ => true) [exMethod .clref] .any (.fn 1) = some ⟨.ptr (.fn 1), .ptr (.fn 1)⟩ := by decide

/-! ### C29 -/

theorem pluginT_some {d : PluginDecl} {p : Nat} : pluginT d = some p ↔ Selects d p := by
  constructor
  · intro h
    rcases d with ⟨_ | ⟨self, _ | ty⟩, _ | mt, _ | my⟩ <;> simp only [pluginT, getPlugin] at h <;> (try cases h) <;> constructor
  · intro h
    cases h <;> rfl

/-- C29: the interface of a class inherits from a plugin `p` exactly if one of its methods selects `p` and no plugin selected by another method
derives from it, and from every plugin at most once. -/
theorem C29_construct_interface (base : Option Nat → Option Nat → Bool) (H : TypeList.Spec.IsHierarchy base)
    (hvoid : ∀ a b, b.isNone = true → base a b = true → a.isNone = true) (ds : List PluginDecl) :
    (constructInterface base ds).Nodup ∧ none ∉ constructInterface base ds ∧
    ∀ p, some p ∈ constructInterface base ds ↔
      (∃ d ∈ ds, Selects d p) ∧ ∀ d ∈ ds, ∀ q, Selects d q → base (some p) (some q) = true → q = p := by
  have key := TypeList.C29_inherited_iff Option.isNone base H hvoid (ds.map pluginT)
  refine ⟨(TypeList.C29_no_duplicates Option.isNone base H (ds.map pluginT)).1, ?_, fun p => ?_⟩
  · intro hn
    have := ((key none).1 hn).2.1
    cases this
  · unfold constructInterface
    rw [key (some p)]
    simp only [List.mem_map, Option.isNone_some, true_and, forall_exists_index, and_imp, forall_apply_eq_imp_iff₂]
    refine and_congr ⟨fun ⟨d, h1, h2⟩ => ⟨d, h1, pluginT_some.1 h2⟩, fun ⟨d, h1, h2⟩ => ⟨d, h1, pluginT_some.2 h2⟩⟩ ?_
    refine forall_congr' fun d => forall_congr' fun hd => ?_
    constructor
    · intro h q hq hb
      rw [← pluginT_some] at hq
      have := h (by rw [hq]; rfl) (by rw [hq]; exact hb)
      rw [hq] at this
      exact Option.some.inj this
    · intro h hs hb
      cases hp : pluginT d with
      | none => rw [hp] at hs; cases hs
      | some q => rw [hp] at hb; rw [h q (pluginT_some.1 hp) hb]

/-- Methods with a specialization, a member template, a member type and without plugin; plugin 2 derives from plugin 1. -/
example : constructInterface (fun a b => decide (a = b ∨ (a = some 1 ∧ b = some 2)))
    [⟨some (some 1, none), some (some 5), none⟩, ⟨none, some (some 2), some (some 6)⟩, ⟨none, none, none⟩, ⟨none, none, some (some 3)⟩,
      ⟨some (some 9, some (some 3)), none, none⟩] = [some 2, some 3] := by decide

end AnyAny.Methods
