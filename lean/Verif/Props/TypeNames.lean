import Verif.Lemmas.TypeNames
import Verif.Props.Descriptor
import Verif.Model.Cpp17
/-
Property C131: different types have different descriptors.
-/
namespace AnyAny.Names
open Spec AnyAny.Descriptor

/-- C131, exactly: comparing the descriptors of two types reads only their names, and they are equal iff all that the names tell of the types is the same. -/
theorem C131_exact (c : Compiler) {m : Mem} {addr : Ent → Nat} {t u : Ent} (ht : Ty t) (hu : Ty u) (st : Str m (addr t) (name c t)) (su : Str m (addr u) (name c u)) :
    ∃ b, descEq m (addr t) (addr u) = some b ∧ (b = true ↔ told c t = told c u) := by
  refine ⟨_, (C42_equal_names st su).1, ?_⟩
  rw [decide_eq_true_iff]
  exact name_eq_iff c ht hu

/-- C131, what holds: types without unnamed namespaces and lambdas, and with Clang also not inside of functions, have equal descriptors iff they are the same. -/
theorem C131_partial (c : Compiler) {m : Mem} {addr : Ent → Nat} {t u : Ent} (ht : Ty t) (hu : Ty u) (pt : Plain c t) (pu : Plain c u)
    (st : Str m (addr t) (name c t)) (su : Str m (addr u) (name c u)) :
    ∃ b, descEq m (addr t) (addr u) = some b ∧ (b = true ↔ t = u) := by
  obtain ⟨b, h1, h2⟩ := C131_exact c ht hu st su
  rw [told_plain c t pt, told_plain c u pu] at h2
  exact ⟨b, h1, h2⟩

/-- C131: with GCC one of the two may be any type: those with unnamed namespaces or lambdas are only taken for each other. -/
theorem C131_gcc_partial {m : Mem} {addr : Ent → Nat} {t u : Ent} (ht : Ty t) (hu : Ty u) (pt : Plain .gcc t)
    (st : Str m (addr t) (name .gcc t)) (su : Str m (addr u) (name .gcc u)) :
    ∃ b, descEq m (addr t) (addr u) = some b ∧ (b = true ↔ t = u) := by
  obtain ⟨b, h1, h2⟩ := C131_exact .gcc ht hu st su
  refine ⟨b, h1, h2.trans ⟨fun h => ?_, fun h => by rw [h]⟩⟩
  rw [told_plain .gcc t pt] at h
  have pu : Plain .gcc u := plain_told u (by rw [← h]; exact pt)
  rw [h, told_plain .gcc u pu]

/-- Induction on the parts of an entity. -/
theorem Ent.path {motive : Ent → Prop} (nil : motive .nil) (cons : ∀ k as rest, motive rest → motive (.cons k as rest)) : ∀ e, motive e
  | .nil => nil
  | .cons k as rest => cons k as rest (Ent.path nil cons rest)

/-- `scope::k<args>` in front of `inner`. -/
def inside : Ent → Ent → Ent
  | .nil, x => x
  | .cons k as rest, x => .cons k as (inside rest x)

theorem ok_inside {s x : Ent} (hs : OkEnt s) (hx : OkEnt x) (hb : Begins x) : OkEnt (inside s x) ∧ Begins (inside s x) ∨ ¬ Begins s ∧ s ≠ .nil := by
  induction s using Ent.path with
  | nil => exact .inl ⟨hx, hb⟩
  | cons k as rest ih =>
    obtain ⟨h1, h2, h3, h4⟩ := hs
    by_cases hk : k = .ptr
    · exact .inr ⟨fun h => h hk, nofun⟩
    · left
      have ho : OkEnt (inside rest x) := by
        clear ih h4
        induction rest using Ent.path with
        | nil => exact hx
        | cons k' as' rest' ih' =>
          obtain ⟨a1, a2, a3, a4⟩ := h3
          refine ⟨a1, a2, ih' a3, fun hf => ?_⟩
          have := a4 hf
          cases rest' with
          | nil => exact hb
          | cons => exact this
      refine ⟨⟨h1, h2, ho, fun hf => ?_⟩, hk⟩
      have := h4 hf
      cases rest with
      | nil => exact hb
      | cons => exact this

theorem told_inside (c : Compiler) (s x y : Ent) (hf : x.hasFn = y.hasFn) (h : told c x = told c y) : told c (inside s x) = told c (inside s y) := by
  induction s using Ent.path with
  | nil => exact h
  | cons k as rest ih =>
    have e : (inside rest x).hasFn = (inside rest y).hasFn := by
      clear ih
      induction rest using Ent.path with
      | nil => exact hf
      | cons k' as' r' ih' => simp only [inside, Ent.hasFn, ih']
    simp only [inside, told, e, ih]

theorem inside_inj (s : Ent) {x y : Ent} (h : inside s x = inside s y) : x = y := by
  induction s using Ent.path with
  | nil => exact h
  | cons k as rest ih => exact ih (Ent.cons.inj h).2.2

/-- C131 fails for types in unnamed namespaces: those of two translation units with the same names have equal descriptors, with both compilers, in every namespace. -/
theorem C131_anonymous_fails (c : Compiler) {m : Mem} {addr : Ent → Nat} (s x : Ent) (hs : OkEnt s) (hb : Begins s ∨ s = .nil) (hx : Ty x) {tu tu' : Nat} (hne : tu ≠ tu')
    (st : Str m (addr (inside s (.cons (.anon tu) .nil x))) (name c (inside s (.cons (.anon tu) .nil x))))
    (su : Str m (addr (inside s (.cons (.anon tu') .nil x))) (name c (inside s (.cons (.anon tu') .nil x)))) :
    Ty (inside s (.cons (.anon tu) .nil x)) ∧ Ty (inside s (.cons (.anon tu') .nil x)) ∧
    inside s (.cons (.anon tu) .nil x) ≠ inside s (.cons (.anon tu') .nil x) ∧
    descEq m (addr (inside s (.cons (.anon tu) .nil x))) (addr (inside s (.cons (.anon tu') .nil x))) = some true := by
  have ok : ∀ i, Ty (inside s (.cons (.anon i) .nil x)) := by
    intro i
    rcases ok_inside (x := .cons (.anon i) .nil x) hs ⟨rfl, trivial, hx.2, nofun⟩ nofun with h | h
    · exact ⟨h.2, h.1⟩
    · rcases hb with hb | hb
      · exact absurd hb h.1
      · exact absurd hb h.2
  refine ⟨ok tu, ok tu', fun h => ?_, ?_⟩
  · have := (Ent.cons.inj (inside_inj s h)).1
    exact hne (Kind.anon.inj this)
  · obtain ⟨b, h1, h2⟩ := C131_exact c (ok tu) (ok tu') st su
    rw [h1, h2.2 (told_inside c s (.cons (.anon tu) .nil x) (.cons (.anon tu') .nil x) rfl (by simp [told, toldKind, toldArgs, Kind.isFn]))]

/-- C131 fails for lambdas with GCC: two lambdas of the same function, or both outside of functions, with the same parameter types have equal descriptors. -/
theorem C131_lambda_fails {m : Mem} {addr : Ent → Nat} (s : Ent) (params : Ents) (hs : OkEnt s) (hb : Begins s ∨ s = .nil) (hp : OkEnts params)
    {no no' : Nat} (hne : no ≠ no') {p p' : List Int} (hq : (41 : Int) ∉ p) (hq' : (41 : Int) ∉ p')
    (st : Str m (addr (inside s (.cons (.lambda no p) params .nil))) (name .gcc (inside s (.cons (.lambda no p) params .nil))))
    (su : Str m (addr (inside s (.cons (.lambda no' p') params .nil))) (name .gcc (inside s (.cons (.lambda no' p') params .nil)))) :
    Ty (inside s (.cons (.lambda no p) params .nil)) ∧ Ty (inside s (.cons (.lambda no' p') params .nil)) ∧
    inside s (.cons (.lambda no p) params .nil) ≠ inside s (.cons (.lambda no' p') params .nil) ∧
    descEq m (addr (inside s (.cons (.lambda no p) params .nil))) (addr (inside s (.cons (.lambda no' p') params .nil))) = some true := by
  have ok : ∀ i q, (41 : Int) ∉ q → Ty (inside s (.cons (.lambda i q) params .nil)) := by
    intro i q hq
    rcases ok_inside (x := .cons (.lambda i q) params .nil) hs ⟨hq, hp, trivial, nofun⟩ nofun with h | h
    · exact ⟨h.2, h.1⟩
    · rcases hb with hb | hb
      · exact absurd hb h.1
      · exact absurd hb h.2
  refine ⟨ok no p hq, ok no' p' hq', fun h => ?_, ?_⟩
  · have := (Ent.cons.inj (inside_inj s h)).1
    exact hne (Kind.lambda.inj this).1
  · obtain ⟨b, h1, h2⟩ := C131_exact .gcc (ok no p hq) (ok no' p' hq') st su
    rw [h1, h2.2 (told_inside .gcc s _ _ rfl (by simp [told, toldKind, toldArgs]))]

theorem told_fn (x : Ent) (hx : x.hasFn = false) : ∀ s : Ent, told .clang (inside s (.cons (.fn n) as x)) = told .clang x := by
  intro s
  have hf : ∀ s : Ent, (inside s (.cons (.fn n) as x)).hasFn = true := by
    intro s
    induction s using Ent.path with
    | nil => rfl
    | cons k a r ih => simp only [inside, Ent.hasFn, ih, Bool.or_true]
  induction s using Ent.path with
  | nil => simp [inside, told, Kind.isFn]
  | cons k a r ih =>
    simp only [inside, told, hf r, Bool.or_true, and_self, if_true]
    exact ih

/-- C131 fails for local types with Clang: `x` in the function `f` and `x` in the function `g` (which may be two specialisations of a function template) have equal descriptors, whatever the functions and the
scopes around them. `x` may also be a lambda, of which the place is the same then. -/
theorem C131_local_fails {m : Mem} {addr : Ent → Nat} {s s' x : Ent} {f g : List Int} {fs gs : Ents} (hx : x.hasFn = false)
    (h1 : Ty (inside s (.cons (.fn f) fs x))) (h2 : Ty (inside s' (.cons (.fn g) gs x)))
    (st : Str m (addr (inside s (.cons (.fn f) fs x))) (name .clang (inside s (.cons (.fn f) fs x))))
    (su : Str m (addr (inside s' (.cons (.fn g) gs x))) (name .clang (inside s' (.cons (.fn g) gs x)))) :
    descEq m (addr (inside s (.cons (.fn f) fs x))) (addr (inside s' (.cons (.fn g) gs x))) = some true := by
  obtain ⟨b, h3, h4⟩ := C131_exact .clang h1 h2 st su
  rw [h3, h4.2 (by rw [told_fn x hx, told_fn x hx])]

/-- C131 fails with Clang: `x` in a function and `x` outside of all functions have equal descriptors, too. -/
theorem C131_global_fails {m : Mem} {addr : Ent → Nat} {s x : Ent} {f : List Int} {fs : Ents} (hx : x.hasFn = false)
    (h1 : Ty (inside s (.cons (.fn f) fs x))) (h2 : Ty x)
    (st : Str m (addr (inside s (.cons (.fn f) fs x))) (name .clang (inside s (.cons (.fn f) fs x)))) (su : Str m (addr x) (name .clang x)) :
    inside s (.cons (.fn f) fs x) ≠ x ∧ descEq m (addr (inside s (.cons (.fn f) fs x))) (addr x) = some true := by
  constructor
  · intro h
    have hf : ∀ s : Ent, (inside s (.cons (.fn f) fs x)).hasFn = true := by
      intro s
      induction s using Ent.path with
      | nil => rfl
      | cons k a r ih => simp only [inside, Ent.hasFn, ih, Bool.or_true]
    rw [← h, hf s] at hx; cases hx
  · obtain ⟨b, h3, h4⟩ := C131_exact .clang h1 h2 st su
    rw [h3, h4.2 (told_fn x hx s)]

/-! ### Descriptors that are addresses -/

/-- C131 holds without type names (`ANYANY_ASSUME_NO_DLLS`) for all types, also lambdas and local ones, if there are no shared libraries: the variables of different types are different objects, and each
type has one. Equality, order and hash then agree: the order is a strict total order of types, as `visit_invoke` needs it. -/
theorem C131_addresses {L T : Type} (var : Vars L T) (hone : ∀ l l' t, var l t = var l' t) (hdiff : ∀ l t u, var l t = var l u → t = u) (l l' l'' : L) (t u v : T) (h : Nat → Nat) :
    (descEqPtr (var l t) (var l' u) = true ↔ t = u) ∧
    (descCmpPtr (var l t) (var l' u) = .eq ↔ t = u) ∧
    (descCmpPtr (var l t) (var l' u) = .gt ↔ descCmpPtr (var l' u) (var l t) = .lt) ∧
    (descCmpPtr (var l t) (var l' u) = .lt → descCmpPtr (var l' u) (var l'' v) = .lt → descCmpPtr (var l t) (var l'' v) = .lt) ∧
    (t = u → descHashPtr h (var l t) = descHashPtr h (var l' u)) := by
  have e : var l t = var l' u ↔ t = u := ⟨fun he => hdiff l t u (by rw [he, hone l' l u]), fun he => by rw [he, hone l l' u]⟩
  refine ⟨by simp [descEqPtr, e], ?_, ?_, ?_, fun he => by unfold descHashPtr; rw [e.2 he]⟩
  · unfold descCmpPtr; rw [Nat.compare_eq_eq, e]
  · unfold descCmpPtr; rw [Nat.compare_eq_gt, Nat.compare_eq_lt]
  · unfold descCmpPtr; simp only [Nat.compare_eq_lt]; exact Nat.lt_trans

/-- C131: with shared libraries that have variables of their own a type is not equal to itself; names do not have this problem (`C42_equal_names`). -/
theorem C131_libraries_fails {L T : Type} (var : Vars L T) {l l' : L} {t : T} (hown : var l t ≠ var l' t) (hash : Nat → Nat) (hh : ∀ p q, hash p = hash q → p = q) :
    descEqPtr (var l t) (var l' t) = false ∧ descCmpPtr (var l t) (var l' t) ≠ .eq ∧ descHashPtr hash (var l t) ≠ descHashPtr hash (var l' t) := by
  refine ⟨by simp [descEqPtr, hown], ?_, fun h => hown (hh _ _ h)⟩
  unfold descCmpPtr; rw [Ne, Nat.compare_eq_eq]; exact hown

example : descEqPtr ((fun _ t => 8 * t : Vars Bool Nat) true 5) ((fun _ t => 8 * t : Vars Bool Nat) false 5) = true ∧
    descEqPtr ((fun l t => if l then 8 * t else 1000 + 8 * t : Vars Bool Nat) true 5) ((fun l t => if l then 8 * t else 1000 + 8 * t : Vars Bool Nat) false 5) = false :=
  ⟨((C131_addresses (fun _ t => 8 * t : Vars Bool Nat) (fun _ _ _ => rfl) (fun _ t u h => by have h : 8 * t = 8 * u := h; omega) true false true 5 5 5 id).1).2 rfl,
   (C131_libraries_fails (fun l t => if l then 8 * t else 1000 + 8 * t : Vars Bool Nat) (l := true) (l' := false) (t := 5) (by decide) id (fun _ _ h => h)).1⟩

/-! ### MSVC: one type in two translation units -/

theorem kw_cases (a b : Kw) (r r' : List Int) (h : kwText a ++ 32 :: r = kwText b ++ 32 :: r') : a = b ∧ r = r' := by
  cases a <;> cases b <;> simp [kwText] at h <;> exact ⟨rfl, h⟩

mutual
theorem pMt_inj (kw kw' : Nat → Kw) (t : Mt) (r r' : List Int) (h : pMt kw t ++ r = pMt kw' t ++ r') : (∀ i ∈ classes t, kw i = kw' i) ∧ r = r' := by
  match t with
  | .fund n => exact ⟨by simp [classes], List.append_cancel_left h⟩
  | .named id n as =>
    simp only [pMt, List.append_assoc, List.cons_append] at h
    obtain ⟨hk, h⟩ := kw_cases _ _ _ _ h
    obtain ⟨ha, hr⟩ := pMts_inj kw kw' 60 as r r' (List.append_cancel_left h)
    refine ⟨?_, hr⟩
    intro i hi
    rcases List.mem_cons.1 hi with rfl | hi
    · exact hk
    · exact ha i hi
theorem pMts_inj (kw kw' : Nat → Kw) (sep : Int) (ts : Mts) (r r' : List Int) (h : pMts kw sep ts ++ r = pMts kw' sep ts ++ r') : (∀ i ∈ classesAll ts, kw i = kw' i) ∧ r = r' := by
  match ts with
  | .none => exact ⟨by simp [classesAll], h⟩
  | .nil => exact ⟨by simp [classesAll], (List.cons.inj h).2⟩
  | .cons t ts =>
    simp only [pMts, List.append_assoc, List.cons_append] at h
    obtain ⟨h1, h2⟩ := pMt_inj kw kw' t _ _ (List.cons.inj h).2
    obtain ⟨h3, h4⟩ := pMts_inj kw kw' 44 ts r r' h2
    refine ⟨fun i hi => ?_, h4⟩
    rcases List.mem_append.1 hi with hi | hi
    · exact h1 i hi
    · exact h3 i hi
end

mutual
theorem pMt_congr (kw kw' : Nat → Kw) (t : Mt) (h : ∀ i ∈ classes t, kw i = kw' i) : pMt kw t = pMt kw' t := by
  match t with
  | .fund n => rfl
  | .named id n as =>
    simp only [pMt]
    rw [h id (by simp [classes]), pMts_congr kw kw' 60 as (fun i hi => h i (by simp [classes, hi]))]
theorem pMts_congr (kw kw' : Nat → Kw) (sep : Int) (ts : Mts) (h : ∀ i ∈ classesAll ts, kw i = kw' i) : pMts kw sep ts = pMts kw' sep ts := by
  match ts with
  | .none => rfl
  | .nil => rfl
  | .cons t ts =>
    simp only [pMts]
    rw [pMt_congr kw kw' t (fun i hi => h i (by simp [classesAll, hi])), pMts_congr kw kw' 44 ts (fun i hi => h i (by simp [classesAll, hi]))]
end

theorem strip_class (kw : Nat → Kw) (id : Nat) (n : List Int) (as : Mts) :
    nameMsvc kw (.named id n as) = some (n ++ (pMts kw 60 as ++ ([62, 40, 118, 111, 105, 100, 41] ++ [0]))) := by
  unfold nameMsvc
  simp only [pMt]
  cases kw id <;> simp [kwText, Descriptor.stripMsvc, Descriptor.startsWith]

/-- C131 with MSVC: a class, or specialisation of a class template, has one descriptor in two translation units iff the classes of its template arguments are declared with the same keywords in both; how it is declared itself does not matter. -/
theorem C131_msvc_exact (kw kw' : Nat → Kw) (id : Nat) (n : List Int) (as : Mts) :
    (nameMsvc kw (.named id n as)).isSome = true ∧
    (nameMsvc kw (.named id n as) = nameMsvc kw' (.named id n as) ↔ ∀ i ∈ inner (.named id n as), kw i = kw' i) := by
  rw [strip_class, strip_class]
  refine ⟨rfl, ⟨fun h => ?_, fun h => ?_⟩⟩
  · exact (pMts_inj kw kw' 60 as _ _ (List.append_cancel_left (Option.some.inj h))).1
  · rw [pMts_congr kw kw' 60 as h]

/-- C131 with MSVC, what holds: classes that are no templates and templates of fundamental types. -/
theorem C131_msvc_partial (kw kw' : Nat → Kw) (id : Nat) (n : List Int) (as : Mts) (h : inner (.named id n as) = []) :
    nameMsvc kw (.named id n as) = nameMsvc kw' (.named id n as) :=
  (C131_msvc_exact kw kw' id n as).2.2 (by rw [h]; nofun)

/-- C131 fails with MSVC: `vector<X>` has two descriptors, if `X` is declared as a class in one translation unit and as a struct in the other, which is allowed. -/
theorem C131_msvc_fails (kw kw' : Nat → Kw) (v x : Nat) (n m : List Int) (hx : kw x = .cls) (hx' : kw' x = .strct) :
    nameMsvc kw (.named x m .none) = nameMsvc kw' (.named x m .none) ∧
    nameMsvc kw (.named v n (.cons (.named x m .none) .nil)) ≠ nameMsvc kw' (.named v n (.cons (.named x m .none) .nil)) := by
  refine ⟨C131_msvc_partial kw kw' x m .none rfl, fun h => ?_⟩
  have := (C131_msvc_exact kw kw' v n _).2.1 h x (by simp [inner, classesAll, classes])
  rw [hx, hx'] at this; cases this

/-! ### Cases -/

/-- Characters of a text. -/
def txt (s : String) : List Int := s.toList.map fun c => (c.toNat : Int)

def exInt : Ent := .cons (.id (txt "int")) .nil .nil
/-- `std::vector<int>` -/
def exVec : Ent := .cons (.id (txt "std")) .nil (.cons (.templ (txt "vector")) (.cons exInt .nil) .nil)
/-- `std::vector<int*, a>` -/
def exVecP : Ent := .cons (.id (txt "std")) .nil (.cons (.templ (txt "vector")) (.cons (.cons (.id (txt "int")) .nil (.cons .ptr .nil .nil)) (.cons (.cons (.id (txt "a")) .nil .nil) .nil)) .nil)
/-- The scope `main(int)`. -/
def exMain : Ent := .cons (.fn (txt "main")) (.cons exInt .nil) (.cons (.id (txt "X")) .nil .nil)
/-- `X` in `f()`. -/
def exF : Ent := .cons (.fn (txt "f")) .nil (.cons (.id (txt "X")) .nil .nil)

example : name .gcc exVecP = txt "std::vector<int*, a>]" ∧ name .clang exVecP = txt "std::vector<int*, a>]" ∧
    name .gcc exMain = txt "main(int)::X]" ∧ name .clang exMain = txt "X]" ∧
    name .gcc (.cons (.anon 3) .nil exInt) = txt "{anonymous}::int]" ∧ name .clang (.cons (.anon 3) .nil exInt) = txt "(anonymous namespace)::int]" ∧
    name .gcc (.cons (.lambda 7 (txt "a.cpp:1:2")) (.cons exInt .nil) .nil) = txt "<lambda(int)>]" ∧
    name .clang (.cons (.lambda 7 (txt "a.cpp:1:2")) (.cons exInt .nil) .nil) = txt "(lambda at a.cpp:1:2)]" := by decide +kernel

/-- A memory with two names. -/
def exMem (c : Compiler) (t u : Ent) : Mem := fun p => if p = 0 then name c t ++ [0] else name c u ++ [0]
def exAddr (c : Compiler) (t : Ent) (e : Ent) : Nat := if name c e = name c t then 0 else 1

theorem exStr (c : Compiler) (t u : Ent) (ht : (0 : Int) ∉ name c t) (hu : (0 : Int) ∉ name c u) :
    Str (exMem c t u) (exAddr c t t) (name c t) ∧ Str (exMem c t u) (exAddr c t u) (name c u) := by
  refine ⟨⟨ht, [], by simp [exMem, exAddr]⟩, ⟨hu, [], ?_⟩⟩
  unfold exMem exAddr
  by_cases h : name c u = name c t
  · rw [if_pos h, if_pos rfl, h]
  · rw [if_neg h, if_neg (by omega)]

theorem ident_txt (s : String) (h : txt s ≠ [] ∧ (txt s).all (fun c => decide (97 ≤ c ∧ c ≤ 122) || decide (65 ≤ c ∧ c ≤ 90)) = true) : Ident (txt s) := by
  refine ⟨h.1, fun c hc => ?_⟩
  have := List.all_eq_true.1 h.2 c hc
  simp only [Bool.or_eq_true, decide_eq_true_eq] at this
  unfold IdChar; omega

theorem exInt_ok : Begins exInt ∧ OkEnt exInt :=
  ⟨nofun, ⟨ident_txt _ (by decide +kernel), rfl⟩, trivial, trivial, nofun⟩

theorem exVec_ty : Ty exVec :=
  ⟨nofun, ⟨ident_txt _ (by decide +kernel), rfl⟩, trivial, ⟨ident_txt _ (by decide +kernel), ⟨exInt_ok.1, exInt_ok.2, trivial⟩, trivial, nofun⟩, nofun⟩

theorem exVecP_ty : Ty exVecP :=
  ⟨nofun, ⟨ident_txt _ (by decide +kernel), rfl⟩, trivial,
    ⟨ident_txt _ (by decide +kernel), ⟨nofun, ⟨⟨ident_txt _ (by decide +kernel), rfl⟩, trivial, ⟨rfl, trivial, trivial, nofun⟩, nofun⟩,
      nofun, ⟨⟨ident_txt _ (by decide +kernel), rfl⟩, trivial, trivial, nofun⟩, trivial⟩, trivial, nofun⟩, nofun⟩

theorem exMain_ty : Ty exMain :=
  ⟨nofun, ident_txt _ (by decide +kernel), ⟨exInt_ok.1, exInt_ok.2, trivial⟩, ⟨⟨ident_txt _ (by decide +kernel), rfl⟩, trivial, trivial, nofun⟩, nofun⟩

theorem exF_ty : Ty exF :=
  ⟨nofun, ident_txt _ (by decide +kernel), trivial, ⟨⟨ident_txt _ (by decide +kernel), rfl⟩, trivial, trivial, nofun⟩, nofun⟩

/-- `std::vector<int>` and `std::vector<int*, a>` have different descriptors. -/
example : descEq (exMem .clang exVec exVecP) (exAddr .clang exVec exVec) (exAddr .clang exVec exVecP) = some false := by
  have S := exStr .clang exVec exVecP (by decide +kernel) (by decide +kernel)
  obtain ⟨b, h1, h2⟩ := C131_partial .clang exVec_ty exVecP_ty
    ⟨nofun, nofun, fun _ => rfl, trivial, nofun, nofun, fun _ => rfl, ⟨⟨nofun, nofun, fun _ => rfl, trivial, trivial⟩, trivial⟩, trivial⟩
    ⟨nofun, nofun, fun _ => rfl, trivial, nofun, nofun, fun _ => rfl,
      ⟨⟨nofun, nofun, fun _ => rfl, trivial, nofun, nofun, fun _ => rfl, trivial, trivial⟩, ⟨nofun, nofun, fun _ => rfl, trivial, trivial⟩, trivial⟩, trivial⟩ S.1 S.2
  rw [h1]
  cases b with
  | false => rfl
  | true => have := h2.1 rfl; simp [exVec, exVecP, exInt] at this

/-- `X` in `main` and `X` in `f`: Clang's names are equal, GCC's are not. -/
example : descEq (exMem .clang exMain exF) (exAddr .clang exMain exMain) (exAddr .clang exMain exF) = some true ∧
    descEq (exMem .gcc exMain exF) (exAddr .gcc exMain exMain) (exAddr .gcc exMain exF) = some false := by
  have S := exStr .clang exMain exF (by decide +kernel) (by decide +kernel)
  exact ⟨C131_local_fails (s := .nil) (s' := .nil) rfl exMain_ty exF_ty S.1 S.2, by decide +kernel⟩

/-- Two lambdas in the global namespace of one file, and `x` in the unnamed namespaces of two files. -/
example : descEq (exMem .gcc (.cons (.lambda 0 (txt "a.cpp:1:2")) .nil .nil) (.cons (.lambda 1 (txt "a.cpp:5:2")) .nil .nil))
      (exAddr .gcc (.cons (.lambda 0 (txt "a.cpp:1:2")) .nil .nil) (.cons (.lambda 0 (txt "a.cpp:1:2")) .nil .nil))
      (exAddr .gcc (.cons (.lambda 0 (txt "a.cpp:1:2")) .nil .nil) (.cons (.lambda 1 (txt "a.cpp:5:2")) .nil .nil)) = some true := by
  have S := exStr .gcc (.cons (.lambda 0 (txt "a.cpp:1:2")) .nil .nil) (.cons (.lambda 1 (txt "a.cpp:5:2")) .nil .nil) (by decide +kernel) (by decide +kernel)
  exact (C131_lambda_fails .nil .nil trivial (.inr rfl) trivial (by decide) (by decide +kernel) (by decide +kernel) S.1 S.2).2.2.2

example : descEq (exMem .gcc (.cons (.anon 0) .nil exInt) (.cons (.anon 1) .nil exInt)) (exAddr .gcc (.cons (.anon 0) .nil exInt) (.cons (.anon 0) .nil exInt))
      (exAddr .gcc (.cons (.anon 0) .nil exInt) (.cons (.anon 1) .nil exInt)) = some true := by
  have S := exStr .gcc (.cons (.anon 0) .nil exInt) (.cons (.anon 1) .nil exInt) (by decide +kernel) (by decide +kernel)
  exact (C131_anonymous_fails .gcc .nil exInt trivial (.inr rfl) exInt_ok (by decide) S.1 S.2).2.2.2

/-- `X` in `main` and `X` outside, with Clang; with GCC a lambda is not taken for `int`. -/
example : descEq (exMem .clang exMain (.cons (.id (txt "X")) .nil .nil)) (exAddr .clang exMain exMain) (exAddr .clang exMain (.cons (.id (txt "X")) .nil .nil)) = some true := by
  have S := exStr .clang exMain (.cons (.id (txt "X")) .nil .nil) (by decide +kernel) (by decide +kernel)
  exact (C131_global_fails (s := .nil) rfl exMain_ty ⟨nofun, ⟨ident_txt _ (by decide +kernel), rfl⟩, trivial, trivial, nofun⟩ S.1 S.2).2

example : descEq (exMem .gcc exInt (.cons (.lambda 0 []) .nil .nil)) (exAddr .gcc exInt exInt) (exAddr .gcc exInt (.cons (.lambda 0 []) .nil .nil)) = some false := by
  have S := exStr .gcc exInt (.cons (.lambda 0 []) .nil .nil) (by decide +kernel) (by decide +kernel)
  obtain ⟨b, h1, h2⟩ := C131_gcc_partial exInt_ok (u := .cons (.lambda 0 []) .nil .nil) ⟨nofun, by simp [OkKind], trivial, trivial, nofun⟩ ⟨nofun, nofun, nofun, trivial, trivial⟩ S.1 S.2
  rw [h1]
  cases b with
  | false => rfl
  | true => have := h2.1 rfl; simp [exInt] at this

/-- MSVC: `std::vector<X>` and `X`, declared with either keyword. -/
example : nameMsvc (fun _ => .cls) (.named 0 (txt "std::vector") (.cons (.named 1 (txt "X") .none) (.cons (.fund (txt "int")) .nil))) = some (txt "std::vector<class X,int>>(void)" ++ [0]) ∧
    nameMsvc (fun _ => .strct) (.named 1 (txt "X") .none) = some (txt "X>(void)" ++ [0]) ∧ nameMsvc (fun _ => .strct) (.fund (txt "int")) = some (txt "int>(void)" ++ [0]) := by
  decide +kernel

example : nameMsvc (fun _ => .cls) (.named 0 (txt "std::vector") (.cons (.named 1 (txt "X") .none) .nil)) ≠
    nameMsvc (fun i => if i = 1 then .strct else .cls) (.named 0 (txt "std::vector") (.cons (.named 1 (txt "X") .none) .nil)) :=
  (C131_msvc_fails (fun _ => .cls) (fun i => if i = 1 then .strct else .cls) 0 1 _ _ rfl rfl).2

end AnyAny.Names
