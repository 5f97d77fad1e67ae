import Verif.Lemmas.Macro
/-
What the helper macros of the header do.
-/
namespace AnyAny.Macro
open Tok

/-- The helper macros. -/
def helpers : List String :=
  ["AA_IMPL_REMOVE_PARENS", "AA_IMPL_TOK_first", "AA_IMPL_TOK_all_except_first", "AA_IMPL_DO_GET_FIRST_TOKEN",
   "AA_IMPL_GET_FIRST_TOKEN", "AA_IMPL_SEPARATE_FIRST_TOK", "AA_GET_TOKEN", "AA_IMPL_REMOVE_REQUIRESrequires",
   "AA_IMPL_CONCAT_EXPAND", "AA_IMPL_CONCAT", "AA_EXPAND", "AA_INJECT_SELF_IN_PARENS", "AA_INJECT_INTERFACE_T_IN_PARENS"]

/-- None of the helpers is hidden. -/
def Free (hs : List String) : Prop := ∀ x ∈ helpers, x ∉ hs

theorem macroOf_some {x : String} {m : Macro} {hs : List String} (h : x ∉ hs) (hx : (table.find? fun d => d.1 == x).map (·.2) = some m) :
    macroOf table x hs = some m := by
  unfold macroOf
  rw [if_neg (by simpa using h)]
  exact hx

theorem Free.not {hs gh : List String} (h : Free hs) {x : String} (hx : x ∈ helpers) (ys : List String) (hy : x ∉ ys) :
    x ∉ hs.filter gh.contains ++ ys := by
  simp only [List.mem_append, List.mem_filter, not_or, not_and]
  exact ⟨fun k => absurd k (h x hx), hy⟩

theorem not_filter {hs gh ys : List String} {x : String} (h : x ∉ hs) (hy : x ∉ ys) : x ∉ hs.filter gh.contains ++ ys := by
  simp only [List.mem_append, List.mem_filter, not_or, not_and]
  exact ⟨fun k => absurd k h, hy⟩

/-- A call, with the hide set of the result abstracted. -/
theorem Gives.call' {x : String} {hs gh : List String} {args : List Tok} {m : Macro} {raw exp : List (String × List Tok)}
    {Q : List Tok → Prop} (hx : x ∉ hs) (hm : (table.find? fun d => d.1 == x).map (·.2) = some m)
    (hb : bindArgs m (splitCommas args) = some raw) (he : ExpArgs raw exp)
    (h : ∀ H, (∀ y, y ∉ hs → y ≠ x → y ∉ H) → ∃ out, Gives (addHide H (subst raw exp m.body)) out ∧ Q out) :
    ∃ out, Gives [.id x hs, .grp args gh] out ∧ Q out := by
  obtain ⟨out, h1, h2⟩ := h (hs.filter gh.contains ++ [x]) fun _ k1 k2 => not_filter k1 (by simpa using k2)
  exact ⟨out, Gives.call (macroOf_some hx hm) hb he h1, h2⟩

theorem run_id {x : String} {h : List String} (hx : table.lookup x = none) : Run [.id x h] (.ok [.id x h]) := (Gives.id hx).run

attribute [local simp] subst substTok lookup operand glue addHide hideTok strip stripTok Inert inertTok
  strip_addHide   inert_addHide strip_append addHide_append inert_append   m_AA_IMPL_REMOVE_PARENS
  m_AA_IMPL_TOK_first m_AA_IMPL_TOK_all_except_first m_AA_IMPL_DO_GET_FIRST_TOKEN m_AA_IMPL_GET_FIRST_TOKEN
  m_AA_IMPL_SEPARATE_FIRST_TOK m_AA_GET_TOKEN m_AA_IMPL_REMOVE_REQUIRESrequires m_AA_IMPL_CONCAT_EXPAND
  m_AA_IMPL_CONCAT m_AA_EXPAND m_AA_GET_REQUIREMENT m_AA_GET_ALL_AFTER_REQUIREMENT m_AA_INJECT_SELF_IN_PARENS
  m_AA_INJECT_INTERFACE_T_IN_PARENS

/-- `AA_IMPL_SEPARATE_FIRST_TOK (A)`: `(A),`. -/
theorem separate {hs gh : List String} (hx : "AA_IMPL_SEPARATE_FIRST_TOK" ∉ hs) {A : List Tok} (hA : Inert A) :
    ∃ out, Gives [.id "AA_IMPL_SEPARATE_FIRST_TOK" hs, .grp A gh] out ∧ ∃ A' a, strip A' = strip A ∧ out = [.grp A' a, .comma] := by
  refine Gives.call' hx rfl bind_v (exp := [("__VA_ARGS__", A)]) ⟨rfl, hA.gives.run, trivial⟩ fun H _ => ⟨_, ?_, addHide H A, H, strip_addHide H A, rfl⟩
  simp
  exact Inert.gives (by simp [Inert, inertTok, inert_addHide, hA])

/-- `AA_IMPL_TOK_first((A), B)`: `(A)`. -/
theorem tokFirst {hs gh a : List String} (hx : "AA_IMPL_TOK_first" ∉ hs) {A B : List Tok} (hA : Inert A) (hB : Inert B) :
    ∃ out, Gives [.id "AA_IMPL_TOK_first" hs, .grp (.grp A a :: .comma :: B) gh] out ∧ strip out = [.grp (strip A) []] := by
  refine Gives.call' hx rfl (bind_1v (a := [.grp A a]) (noComma_one (by simp))) (exp := [("a", [.grp A a]), ("__VA_ARGS__", B)])
    ⟨rfl, (Gives.grp hA.gives.run).run, rfl, hB.gives.run, trivial⟩ fun H _ => ⟨_, Inert.gives ?_, ?_⟩
  all_goals simp [hA, hB]

/-- `AA_IMPL_TOK_all_except_first((A), B)`: `B`. -/
theorem tokRest {hs gh a : List String} (hx : "AA_IMPL_TOK_all_except_first" ∉ hs) {A B : List Tok} (hA : Inert A) (hB : Inert B) :
    ∃ out, Gives [.id "AA_IMPL_TOK_all_except_first" hs, .grp (.grp A a :: .comma :: B) gh] out ∧ strip out = strip B := by
  refine Gives.call' hx rfl (bind_1v (a := [.grp A a]) (noComma_one (by simp))) (exp := [("a", [.grp A a]), ("__VA_ARGS__", B)])
    ⟨rfl, (Gives.grp hA.gives.run).run, rfl, hB.gives.run, trivial⟩ fun H _ => ⟨_, Inert.gives ?_, ?_⟩
  all_goals simp [hA, hB]

/-- `AA_IMPL_DO_GET_FIRST_TOKEN(o, (A), B)`: `AA_IMPL_TOK_##o((A), B)`. -/
theorem doGet {o : String} (ho : table.lookup o = none) (hne : "AA_IMPL_TOK_" ++ o ≠ "AA_IMPL_DO_GET_FIRST_TOKEN")
    {hs gh oh a : List String} (hx : "AA_IMPL_DO_GET_FIRST_TOKEN" ∉ hs) (hx' : "AA_IMPL_TOK_" ++ o ∉ hs) {A B : List Tok} (hA : Inert A) (hB : Inert B)
    {Q : List Tok → Prop}
    (h : ∀ h1 h2 a' A' B', "AA_IMPL_TOK_" ++ o ∉ h1 → strip A' = strip A → strip B' = strip B →
      ∃ out, Gives [.id ("AA_IMPL_TOK_" ++ o) h1, .grp (.grp A' a' :: .comma :: B') h2] out ∧ Q out) :
    ∃ out, Gives [.id "AA_IMPL_DO_GET_FIRST_TOKEN" hs, .grp (.id o oh :: .comma :: .grp A a :: .comma :: B) gh] out ∧ Q out := by
  refine Gives.call' hx rfl (bind_2v (a := [.id o oh]) (c := [.grp A a]) (noComma_one (by simp)) (noComma_one (by simp)))
    (exp := [("out", [.id o oh]), ("x", [.grp A a]), ("__VA_ARGS__", B)])
    ⟨rfl, run_id ho, rfl, (Gives.grp hA.gives.run).run, rfl, hB.gives.run, trivial⟩ fun H hH => ?_
  simp
  exact h _ _ _ _ _ (hH _ hx' hne) (strip_addHide _ _) (strip_addHide _ _)

/-- `AA_GET_TOKEN(o, V)` for `V` that expands to `(A) B`: `AA_IMPL_TOK_##o((A), B)`. -/
theorem getToken {o : String} (ho : table.lookup o = none)
    (hne : "AA_IMPL_TOK_" ++ o ≠ "AA_IMPL_DO_GET_FIRST_TOKEN" ∧ "AA_IMPL_TOK_" ++ o ≠ "AA_IMPL_GET_FIRST_TOKEN" ∧ "AA_IMPL_TOK_" ++ o ≠ "AA_GET_TOKEN")
    (hmem : "AA_IMPL_TOK_" ++ o ∈ helpers)
    {hs gh oh a : List String} (hf : Free hs) {V A B : List Tok} (hV : Run V (.ok (.grp A a :: B))) (hA : Inert A) (hB : Inert B)
    {Q : List Tok → Prop}
    (h : ∀ h1 h2 a' A' B', "AA_IMPL_TOK_" ++ o ∉ h1 → strip A' = strip A → strip B' = strip B →
      ∃ out, Gives [.id ("AA_IMPL_TOK_" ++ o) h1, .grp (.grp A' a' :: .comma :: B') h2] out ∧ Q out) :
    ∃ out, Gives [.id "AA_GET_TOKEN" hs, .grp (.id o oh :: .comma :: V) gh] out ∧ Q out := by
  refine Gives.call' (hf _ (by decide)) rfl (bind_1v (a := [.id o oh]) (noComma_one (by simp)))
    (exp := [("out", [.id o oh]), ("__VA_ARGS__", .grp A a :: B)]) ⟨rfl, run_id ho, rfl, hV, trivial⟩ fun H hH => ?_
  simp
  obtain ⟨_, hsep, A', a', hA', rfl⟩ := separate (hs := H) (gh := a ++ H) (hH _ (hf _ (by decide)) (by decide)) ((inert_addHide H A).2 hA)
  have hall : Gives (.id "AA_IMPL_SEPARATE_FIRST_TOK" H :: .grp (addHide H A) (a ++ H) :: addHide H B) (.grp A' a' :: .comma :: addHide H B) :=
    Gives.append hsep ((inert_addHide H B).2 hB).gives
  have hA'' : Inert A' := Inert.congr (hA'.trans (strip_addHide H A)) hA
  refine Gives.call' (hH _ (hf _ (by decide)) (by decide)) rfl (bind_1v (a := [.id o (oh ++ H)]) (noComma_one (by simp)))
    (exp := [("out", [.id o (oh ++ H)]), ("__VA_ARGS__", .grp A' a' :: .comma :: addHide H B)]) ⟨rfl, run_id ho, rfl, hall.run, trivial⟩ fun K hK => ?_
  simp
  refine doGet ho hne.1 (hK _ (hH _ (hf _ (by decide)) (by decide)) (by decide)) (hK _ (hH _ (hf _ hmem) hne.2.2) hne.2.1)
    ((inert_addHide K A').2 hA'') ((inert_addHide K _).2 ((inert_addHide H B).2 hB)) fun h1 h2 b A3 B3 k1 k2 k3 => h h1 h2 b A3 B3 k1 ?_ ?_
  · rw [k2, strip_addHide, hA', strip_addHide]
  · rw [k3, strip_addHide, strip_addHide]

theorem getFirst {hs gh oh a : List String} (hf : Free hs) {V A B : List Tok} (hV : Run V (.ok (.grp A a :: B))) (hA : Inert A) (hB : Inert B) :
    ∃ out, Gives [.id "AA_GET_TOKEN" hs, .grp (.id "first" oh :: .comma :: V) gh] out ∧ strip out = [.grp (strip A) []] :=
  getToken (by decide) (by decide) (by decide) hf hV hA hB fun h1 h2 a' A' B' k1 k2 k3 => by
    rw [← k2]; exact tokFirst k1 (hA.congr k2) (hB.congr k3)

theorem getRest {hs gh oh a : List String} (hf : Free hs) {V A B : List Tok} (hV : Run V (.ok (.grp A a :: B))) (hA : Inert A) (hB : Inert B) :
    ∃ out, Gives [.id "AA_GET_TOKEN" hs, .grp (.id "all_except_first" oh :: .comma :: V) gh] out ∧ strip out = strip B :=
  getToken (by decide) (by decide) (by decide) hf hV hA hB fun h1 h2 a' A' B' k1 k2 k3 => by
    rw [← k3]; exact tokRest k1 (hA.congr k2) (hB.congr k3)

theorem strip_id {W X : List Tok} {x : String} (h : strip W = .id x [] :: X) : ∃ r W', W = .id x r :: W' ∧ strip W' = X := by
  cases W with
  | nil => simp at h
  | cons t W =>
    simp only [strip, List.cons.injEq] at h
    cases t <;> simp at h
    obtain ⟨rfl, h⟩ := h
    exact ⟨_, _, rfl, h⟩

theorem strip_grp {W X A : List Tok} (h : strip W = .grp A [] :: X) : ∃ r A' W', W = .grp A' r :: W' ∧ strip A' = A ∧ strip W' = X := by
  cases W with
  | nil => simp at h
  | cons t W =>
    simp only [strip, List.cons.injEq] at h
    cases t <;> simp at h
    exact ⟨_, _, _, rfl, h.1, h.2⟩

/-- `AA_IMPL_REMOVE_REQUIRESrequires(E)`: `(E)`. -/
theorem removeRequires {hs gh : List String} (hx : "AA_IMPL_REMOVE_REQUIRESrequires" ∉ hs) {E : List Tok} (hE : Inert E) :
    ∃ out, Gives [.id "AA_IMPL_REMOVE_REQUIRESrequires" hs, .grp E gh] out ∧ strip out = [.grp (strip E) []] := by
  refine Gives.call' hx rfl bind_v (exp := [("__VA_ARGS__", E)]) ⟨rfl, hE.gives.run, trivial⟩ fun H _ => ⟨_, Inert.gives ?_, ?_⟩
  all_goals simp [hE]

/-- `AA_IMPL_CONCAT(AA_IMPL_REMOVE_REQUIRES, V)` for `V` that expands to `requires(E) R`: `(E) R`. -/
theorem concat {hs gh h' : List String} (hf : Free hs) {V W E R : List Tok} (hV : Run V (.ok W)) (hVc : NoComma V)
    (hW : strip W = .id "requires" [] :: .grp (strip E) [] :: strip R) (hE : Inert E) (hR : Inert R) (hRc : NoComma R)
    (hx : "AA_IMPL_REMOVE_REQUIRESrequires" ∉ h') :
    ∃ out, Gives [.id "AA_IMPL_CONCAT" hs, .grp (.id "AA_IMPL_REMOVE_REQUIRES" h' :: .comma :: V) gh] out ∧
      strip out = .grp (strip E) [] :: strip R := by
  obtain ⟨r, W1, rfl, hW1⟩ := strip_id hW
  obtain ⟨e, E1, R1, rfl, hE1, hR1⟩ := strip_grp hW1
  have iE := hE.congr hE1
  have iR := hR.congr hR1
  have cR := hRc.congr hR1
  refine Gives.call' (hf _ (by decide)) rfl (bind_2 (a := [.id "AA_IMPL_REMOVE_REQUIRES" h']) (noComma_one (by simp)) hVc)
    (exp := [("a", [.id "AA_IMPL_REMOVE_REQUIRES" h']), ("b", .id "requires" r :: .grp E1 e :: R1)])
    ⟨rfl, run_id (by decide), rfl, hV, trivial⟩ fun H hH => ?_
  simp
  have iV : Inert (.id "requires" (r ++ H) :: .grp (addHide H E1) (e ++ H) :: addHide H R1) := by
    have : table.lookup "requires" = none := by decide
    simp [iE, iR, this]
  have cV : NoComma (.id "requires" (r ++ H) :: .grp (addHide H E1) (e ++ H) :: addHide H R1) := by
    intro t ht
    simp only [List.mem_cons] at ht
    rcases ht with rfl | rfl | ht
    · simp
    · simp
    · exact noComma_addHide cR t ht
  refine Gives.call' (hH _ (hf _ (by decide)) (by decide)) rfl (bind_2 (a := [.id "AA_IMPL_REMOVE_REQUIRES" (h' ++ H)]) (noComma_one (by simp)) cV)
    (exp := [("a", [.id "AA_IMPL_REMOVE_REQUIRES" (h' ++ H)]), ("b", .id "requires" (r ++ H) :: .grp (addHide H E1) (e ++ H) :: addHide H R1)])
    ⟨rfl, run_id (by decide), rfl, iV.gives.run, trivial⟩ fun K hK => ?_
  simp
  have hname : "AA_IMPL_REMOVE_REQUIRESrequires" ∉ h' ++ H := by
    simp only [List.mem_append, not_or]
    exact ⟨hx, hH _ (hf _ (by decide)) (by decide)⟩
  have key : ∀ h1 h2, "AA_IMPL_REMOVE_REQUIRESrequires" ∉ h1 →
      ∃ out, Gives (.id "AA_IMPL_REMOVE_REQUIRESrequires" h1 :: .grp (addHide K (addHide H E1)) h2 :: addHide K (addHide H R1)) out ∧
        strip out = .grp (strip E) [] :: strip R := by
    intro h1 h2 hn
    obtain ⟨out, ho, hos⟩ := removeRequires (gh := h2) hn (E := addHide K (addHide H E1)) (by simpa using iE)
    refine ⟨_, Gives.append ho (Inert.gives (ts := addHide K (addHide H R1)) (by simpa using iR)), ?_⟩
    simp [hos, hE1, hR1]
  refine key _ _ ?_
  simp only [List.mem_append, not_or, List.mem_filter, not_and] at hname ⊢
  exact ⟨fun k => absurd k hname.1, fun k => absurd k hname.2, hK _ (hH _ (hf _ (by decide)) (by decide)) (by decide)⟩

/-- `AA_EXPAND(X V)` where `V` expands to `(A)`: `X(A)` is called. -/
theorem expandCall {x : String} (hx : x ≠ "AA_EXPAND") {hs gh h : List String} (hf : Free hs) {V A : List Tok} {y : String} {vh ah : List String}
    {W : List Tok} (hV : Gives [.id y vh, .grp W ah] V) (hVs : strip V = [.grp (strip A) []]) (hA : Inert A) (hxs : x ∉ hs) (hxh : x ∉ h)
    {Q : List Tok → Prop}
    (k : ∀ h1 h2 A', x ∉ h1 → strip A' = strip A → ∃ out, Gives [.id x h1, .grp A' h2] out ∧ Q out) :
    ∃ out, Gives [.id "AA_EXPAND" hs, .grp [.id x h, .id y vh, .grp W ah] gh] out ∧ Q out := by
  obtain ⟨a, A1, V1, rfl, hA1, hV1⟩ := strip_grp hVs
  cases V1 with
  | cons _ _ => simp at hV1
  | nil =>
    refine Gives.call' (hf _ (by decide)) rfl (bind_1 (a := [.id x h, .id y vh, .grp W ah]) ?_) (exp := [("a", [.id x h, .grp A1 a])])
      ⟨rfl, (Gives.name hV).run, trivial⟩ fun H hH => ?_
    · intro t ht
      simp at ht
      rcases ht with rfl | rfl | rfl <;> simp
    · simp
      refine k _ _ _ ?_ ?_
      · simp only [List.mem_append, not_or]
        exact ⟨hxh, hH _ hxs hx⟩
      · simp [hA1]

theorem injectSelf {hs gh : List String} (hx : "AA_INJECT_SELF_IN_PARENS" ∉ hs) {A : List Tok} (hA : Inert A) :
    ∃ out, Gives [.id "AA_INJECT_SELF_IN_PARENS" hs, .grp A gh] out ∧ strip out = [.grp (i "Self" :: strip A) []] := by
  have : table.lookup "Self" = none := by decide
  refine Gives.call' hx rfl bind_v (exp := [("__VA_ARGS__", A)]) ⟨rfl, hA.gives.run, trivial⟩ fun H _ => ⟨_, Inert.gives ?_, ?_⟩
  all_goals simp [hA, this]

theorem injectInt {hs gh : List String} (hx : "AA_INJECT_INTERFACE_T_IN_PARENS" ∉ hs) {A : List Tok} (hA : Inert A) :
    ∃ out, Gives [.id "AA_INJECT_INTERFACE_T_IN_PARENS" hs, .grp A gh] out ∧ strip out = [.grp (i "int" :: strip A) []] := by
  have : table.lookup "int" = none := by decide
  refine Gives.call' hx rfl bind_v (exp := [("__VA_ARGS__", A)]) ⟨rfl, hA.gives.run, trivial⟩ fun H _ => ⟨_, Inert.gives ?_, ?_⟩
  all_goals simp [hA, this]

theorem removeParens {hs gh : List String} (hx : "AA_IMPL_REMOVE_PARENS" ∉ hs) {A : List Tok} (hA : Inert A) :
    ∃ out, Gives [.id "AA_IMPL_REMOVE_PARENS" hs, .grp A gh] out ∧ strip out = strip A := by
  refine Gives.call' hx rfl bind_v (exp := [("__VA_ARGS__", A)]) ⟨rfl, hA.gives.run, trivial⟩ fun H _ => ⟨_, Inert.gives ?_, ?_⟩
  all_goals simp [hA]

/-- A declaration `(P) requires(E) R`, up to hide sets. -/
def IsDecl (D P E R : List Tok) : Prop := strip D = .grp (strip P) [] :: i "requires" :: .grp (strip E) [] :: strip R

theorem IsDecl.hide {D P E R : List Tok} (h : IsDecl D P E R) (H : List String) : IsDecl (addHide H D) P E R := by
  simp only [IsDecl, strip_addHide]; exact h

theorem IsDecl.cases {D P E R : List Tok} (h : IsDecl D P E R) (hP : Inert P) (hE : Inert E) (hR : Inert R) :
    ∃ P' p B, D = .grp P' p :: B ∧ strip P' = strip P ∧ Inert P' ∧ Inert B ∧ Inert D ∧ strip B = i "requires" :: .grp (strip E) [] :: strip R := by
  obtain ⟨p, P', B, rfl, h1, h2⟩ := strip_grp h
  have h0 : table.lookup "requires" = none := by decide
  have hB : Inert B := by
    rw [← inert_strip, h2]
    simp [inert_strip, hE, hR, h0]
  exact ⟨P', p, B, rfl, h1, hP.congr h1, hB, by simp [hP.congr h1, hB], h2⟩

variable {D P E R : List Tok} {hs gh : List String}

/-- `AA_EXPAND(AA_INJECT_SELF_IN_PARENS AA_GET_TOKEN(first, D))`: `(Self P)`. -/
theorem selfParams (hD : IsDecl D P E R) (hP : Inert P) (hE : Inert E) (hR : Inert R) (hf : Free hs) {h1 h2 h3 h4 : List String}
    (hf1 : Free h1) (hf2 : Free h2) :
    ∃ out, Gives [.id "AA_EXPAND" hs, .grp [.id "AA_INJECT_SELF_IN_PARENS" h1, .id "AA_GET_TOKEN" h2, .grp (.id "first" h3 :: .comma :: D) h4] gh] out ∧
      strip out = [.grp (i "Self" :: strip P) []] := by
  obtain ⟨P', p, B, rfl, e1, iP, iB, iD, e2⟩ := hD.cases hP hE hR
  obtain ⟨V, hV, hVs⟩ := getFirst (gh := h4) (oh := h3) hf2 iD.gives.run iP iB
  exact expandCall (by decide) hf hV hVs iP (hf _ (by decide)) (hf1 _ (by decide)) fun k1 k2 A' k3 k4 => by
    have := injectSelf (gh := k2) k3 (iP.congr k4)
    rwa [k4, e1] at this

/-- `AA_EXPAND(AA_INJECT_INTERFACE_T_IN_PARENS AA_GET_TOKEN(first, D))`: `(int P)`. -/
theorem intParams (hD : IsDecl D P E R) (hP : Inert P) (hE : Inert E) (hR : Inert R) (hf : Free hs) {h1 h2 h3 h4 : List String}
    (hf1 : Free h1) (hf2 : Free h2) :
    ∃ out, Gives [.id "AA_EXPAND" hs, .grp [.id "AA_INJECT_INTERFACE_T_IN_PARENS" h1, .id "AA_GET_TOKEN" h2, .grp (.id "first" h3 :: .comma :: D) h4] gh] out ∧
      strip out = [.grp (i "int" :: strip P) []] := by
  obtain ⟨P', p, B, rfl, e1, iP, iB, iD, e2⟩ := hD.cases hP hE hR
  obtain ⟨V, hV, hVs⟩ := getFirst (gh := h4) (oh := h3) hf2 iD.gives.run iP iB
  exact expandCall (by decide) hf hV hVs iP (hf _ (by decide)) (hf1 _ (by decide)) fun k1 k2 A' k3 k4 => by
    have := injectInt (gh := k2) k3 (iP.congr k4)
    rwa [k4, e1] at this

/-- `AA_IMPL_CONCAT(AA_IMPL_REMOVE_REQUIRES, AA_GET_TOKEN(all_except_first, D))`: `(E) R`. -/
theorem afterParams (hD : IsDecl D P E R) (hP : Inert P) (hE : Inert E) (hR : Inert R) (hRc : NoComma R) (hf : Free hs) {h1 h2 h3 h4 : List String}
    (hf1 : Free h1) (hf2 : Free h2) :
    ∃ out, Gives [.id "AA_IMPL_CONCAT" hs, .grp [.id "AA_IMPL_REMOVE_REQUIRES" h1, .comma, .id "AA_GET_TOKEN" h2,
        .grp (.id "all_except_first" h3 :: .comma :: D) h4] gh] out ∧
      strip out = .grp (strip E) [] :: strip R := by
  obtain ⟨P', p, B, rfl, e1, iP, iB, iD, e2⟩ := hD.cases hP hE hR
  obtain ⟨V, hV, hVs⟩ := getRest (gh := h4) (oh := h3) hf2 iD.gives.run iP iB
  refine concat hf hV.run ?_ (hVs.trans e2) hE hR hRc (hf1 _ (by decide))
  intro t ht
  simp at ht
  rcases ht with rfl | rfl <;> simp

/-- `AA_GET_ALL_AFTER_REQUIREMENT(D)`: `R`. -/
theorem afterRequirement (hD : IsDecl D P E R) (hP : Inert P) (hE : Inert E) (hR : Inert R) (hRc : NoComma R) (hf : Free hs)
    (hx : "AA_GET_ALL_AFTER_REQUIREMENT" ∉ hs) :
    ∃ out, Gives [.id "AA_GET_ALL_AFTER_REQUIREMENT" hs, .grp D gh] out ∧ strip out = strip R := by
  obtain ⟨P', p, B, _, e1, iP, iB, iD, e2⟩ := hD.cases hP hE hR
  refine Gives.call' hx rfl bind_v (exp := [("__VA_ARGS__", D)]) ⟨rfl, iD.gives.run, trivial⟩ fun H hH => ?_
  have fH : Free H := fun y hy => hH y (hf y hy) (by rintro rfl; revert hy; decide)
  simp
  obtain ⟨V, hV, hVs⟩ := afterParams (gh := H) (h3 := H) (h4 := H) (hD.hide H) hP hE hR hRc fH fH fH
  obtain ⟨e, E1, R1, rfl, hE1, hR1⟩ := strip_grp hVs
  have := getRest (gh := H) (oh := H) fH hV.run (hE.congr hE1) (hR.congr hR1)
  rwa [hR1] at this

/-- `AA_GET_REQUIREMENT(D)`: `E`. -/
theorem requirement (hD : IsDecl D P E R) (hP : Inert P) (hE : Inert E) (hR : Inert R) (hRc : NoComma R) (hf : Free hs)
    (hx : "AA_GET_REQUIREMENT" ∉ hs) :
    ∃ out, Gives [.id "AA_GET_REQUIREMENT" hs, .grp D gh] out ∧ strip out = strip E := by
  obtain ⟨P', p, B, _, e1, iP, iB, iD, e2⟩ := hD.cases hP hE hR
  refine Gives.call' hx rfl bind_v (exp := [("__VA_ARGS__", D)]) ⟨rfl, iD.gives.run, trivial⟩ fun H hH => ?_
  have fH : Free H := fun y hy => hH y (hf y hy) (by rintro rfl; revert hy; decide)
  simp
  obtain ⟨V, hV, hVs⟩ := afterParams (gh := H) (h3 := H) (h4 := H) (hD.hide H) hP hE hR hRc fH fH fH
  obtain ⟨e, E1, R1, rfl, hE1, hR1⟩ := strip_grp hVs
  obtain ⟨U, hU, hUs⟩ := getFirst (gh := H) (oh := H) fH hV.run (hE.congr hE1) (hR.congr hR1)
  exact expandCall (by decide) fH hU hUs (hE.congr hE1) (fH _ (by decide)) (fH _ (by decide)) fun k1 k2 A' k3 k4 => by
    have := removeParens (gh := k2) k3 ((hE.congr hE1).congr k4)
    rwa [k4, hE1] at this

end AnyAny.Macro
