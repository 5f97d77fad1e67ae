import Verif.Lemmas.Macro2
import Verif.Spec.MacroText
/-
C71: the macros that declare methods.
-/
namespace AnyAny.Macro
open Tok

/-- `ts` is replaced by text that is `S`, up to hide sets. -/
def Out (ts S : List Tok) : Prop := ∃ out, Gives ts out ∧ strip out = S

theorem Out.nil : Out [] [] := ⟨[], Gives.nil, by simp [strip]⟩

theorem Out.append {a b A B : List Tok} (h : Out a A) (k : Out b B) : Out (a ++ b) (A ++ B) := by
  obtain ⟨x, hx, rfl⟩ := h
  obtain ⟨y, hy, rfl⟩ := k
  exact ⟨_, hx.append hy, strip_append x y⟩

theorem Out.sym {x : String} {ts S : List Tok} (h : Out ts S) : Out (.sym x :: ts) (.sym x :: S) :=
  Out.append (a := [.sym x]) (A := [.sym x]) ⟨_, Gives.sym x, by simp [strip, stripTok]⟩ h

theorem Out.comma {ts S : List Tok} (h : Out ts S) : Out (.comma :: ts) (.comma :: S) :=
  Out.append (a := [.comma]) (A := [.comma]) ⟨_, Gives.comma, by simp [strip, stripTok]⟩ h

theorem Out.id {x : String} {hs : List String} {ts S : List Tok} (hx : table.lookup x = none) (h : Out ts S) : Out (.id x hs :: ts) (.id x [] :: S) :=
  Out.append (a := [.id x hs]) (A := [.id x []]) ⟨_, Gives.id hx, by simp [strip, stripTok]⟩ h

theorem Out.grp {gh : List String} {a A ts S : List Tok} (ha : Out a A) (h : Out ts S) : Out (.grp a gh :: ts) (.grp A [] :: S) := by
  obtain ⟨x, hx, rfl⟩ := ha
  exact Out.append (a := [.grp a gh]) (A := [.grp (strip x) []]) ⟨_, Gives.grp hx.run, by simp [strip, stripTok]⟩ h

theorem Out.call {a b : Tok} {A ts S : List Tok} (hc : Out [a, b] A) (h : Out ts S) : Out (a :: b :: ts) (A ++ S) := Out.append hc h

theorem Out.call1 {a b t : Tok} {ts S : List Tok} (hc : Out [a, b] [t]) (h : Out ts S) : Out (a :: b :: ts) (t :: S) := Out.append hc h

attribute [local simp] subst substTok lookup addHide hideTok

theorem Out.becomes {ts S : List Tok} (h : Out ts S) : Becomes ts S := by
  obtain ⟨out, h, e⟩ := h
  obtain ⟨N, h⟩ := h.run
  exact ⟨N, out, h, e⟩

/-- Walks through the text of a declaration. -/
local macro "walk" hn:ident hD:ident hP:ident hE:ident hR:ident hRc:ident fH:ident x1:ident x2:ident : tactic => `(tactic|
  repeat' first
    | exact Out.nil
    | refine Out.sym ?_
    | refine Out.comma ?_
    | refine Out.id (by first | exact $hn | decide) ?_
    | refine Out.call1 (intParams $hD $hP $hE $hR $fH $fH $fH) ?_
    | refine Out.call1 (selfParams $hD $hP $hE $hR $fH $fH $fH) ?_
    | refine Out.call (afterRequirement $hD $hP $hE $hR $hRc $fH $x1) ?_
    | exact requirement $hD $hP $hE $hR $hRc $fH $x2
    | refine Out.grp ?_ ?_)

theorem extern_out {n : String} (hn : table.lookup n = none) {P E R : List Tok} (hP : Inert P) (hE : Inert E) (hR : Inert R) (hRc : NoComma R) :
    Out [i "anyany_extern_method", g (i n :: .comma :: g P :: i "requires" :: g E :: R)] (externText n (strip P) (strip E) (strip R)) := by
  have hD : IsDecl (g P :: i "requires" :: g E :: R) P E R := by simp [IsDecl, strip, stripTok]
  obtain ⟨_, _, _, _, _, _, _, iD, _⟩ := hD.cases hP hE hR
  refine Gives.call' (by simp) rfl (bind_1v (a := [i n]) (noComma_one (by simp)))
    (exp := [("NAME", [i n]), ("__VA_ARGS__", g P :: i "requires" :: g E :: R)]) ⟨rfl, run_id hn, rfl, iD.gives.run, trivial⟩ fun H hH => ?_
  have fH : Free H := fun y hy => hH y (by simp) (by rintro rfl; revert hy; decide)
  have x1 : "AA_GET_ALL_AFTER_REQUIREMENT" ∉ H := hH _ (by simp) (by decide)
  have x2 : "AA_GET_REQUIREMENT" ∉ H := hH _ (by simp) (by decide)
  have hD' := hD.hide H
  generalize hDe : (g P :: i "requires" :: g E :: R) = D at hD' ⊢
  simp [m_anyany_extern_method, externText]
  change Out _ _
  walk hn hD' hP hE hR hRc fH x1 x2

set_option maxRecDepth 20000 in
theorem method_out {n : String} (hn : table.lookup n = none) {P E R : List Tok} (hP : Inert P) (hE : Inert E) (hR : Inert R) (hRc : NoComma R) :
    Out [i "anyany_method", g (i n :: .comma :: g P :: i "requires" :: g E :: R)] (methodText n (strip P) (strip E) (strip R)) := by
  have hD : IsDecl (g P :: i "requires" :: g E :: R) P E R := by simp [IsDecl, strip, stripTok]
  obtain ⟨_, _, _, _, _, _, _, iD, _⟩ := hD.cases hP hE hR
  refine Gives.call' (by simp) rfl (bind_1v (a := [i n]) (noComma_one (by simp)))
    (exp := [("NAME", [i n]), ("__VA_ARGS__", g P :: i "requires" :: g E :: R)]) ⟨rfl, run_id hn, rfl, iD.gives.run, trivial⟩ fun H hH => ?_
  have fH : Free H := fun y hy => hH y (by simp) (by rintro rfl; revert hy; decide)
  have x1 : "AA_GET_ALL_AFTER_REQUIREMENT" ∉ H := hH _ (by simp) (by decide)
  have x2 : "AA_GET_REQUIREMENT" ∉ H := hH _ (by simp) (by decide)
  have hD' := hD.hide H
  generalize hDe : (g P :: i "requires" :: g E :: R) = D at hD' ⊢
  simp [m_anyany_method, methodText]
  change Out _ _
  walk hn hD' hP hE hR hRc fH x1 x2

theorem pseudo_out {n : String} (hn : table.lookup n = none) {E R : List Tok} (hE : Inert E) (hR : Inert R) (hRc : NoComma R) :
    Out [i "anyany_pseudomethod", g (i n :: .comma :: i "requires" :: g E :: R)] (pseudoText n (strip E) (strip R)) := by
  have hD : IsDecl (g [] :: i "requires" :: g E :: R) [] E R := by simp [IsDecl, strip, stripTok]
  have hP : Inert [] := by simp [Inert]
  obtain ⟨_, _, _, _, _, _, iB, iD, _⟩ := hD.cases hP hE hR
  have iV : Inert (i "requires" :: g E :: R) := by simp only [Inert] at iD; exact iD.2
  refine Gives.call' (by simp) rfl (bind_1v (a := [i n]) (noComma_one (by simp)))
    (exp := [("NAME", [i n]), ("__VA_ARGS__", i "requires" :: g E :: R)]) ⟨rfl, run_id hn, rfl, iV.gives.run, trivial⟩ fun K hK => ?_
  have e : addHide K (subst [("NAME", [i n]), ("__VA_ARGS__", i "requires" :: g E :: R)] [("NAME", [i n]), ("__VA_ARGS__", i "requires" :: g E :: R)]
      m_anyany_pseudomethod.body) = [.id "AA_IMPL_ANYANY_PSEUDOMETHOD" K, .grp (.id n K :: .comma :: addHide K (g [] :: i "requires" :: g E :: R)) K] := by
    simp [m_anyany_pseudomethod]
  refine (fun h => ?_ : Out [.id "AA_IMPL_ANYANY_PSEUDOMETHOD" K, .grp (.id n K :: .comma :: addHide K (g [] :: i "requires" :: g E :: R)) K]
    (pseudoText n (strip E) (strip R)) → _) ?_
  · obtain ⟨out, h1, h2⟩ := h
    exact ⟨out, by rw [← e] at h1; exact h1, h2⟩
  have hD' := hD.hide K
  have iD' : Inert (addHide K (g [] :: i "requires" :: g E :: R)) := (inert_addHide K _).2 iD
  generalize addHide K (g [] :: i "requires" :: g E :: R) = D at hD' iD'
  refine Gives.call' (hK _ (by simp) (by decide)) rfl (bind_1v (a := [.id n K]) (noComma_one (by simp)))
    (exp := [("NAME", [.id n K]), ("__VA_ARGS__", D)]) ⟨rfl, run_id hn, rfl, iD'.gives.run, trivial⟩ fun H hH => ?_
  have fH : Free H := fun y hy => hH y (hK y (by simp) (by rintro rfl; revert hy; decide)) (by rintro rfl; revert hy; decide)
  have x1 : "AA_GET_ALL_AFTER_REQUIREMENT" ∉ H := hH _ (hK _ (by simp) (by decide)) (by decide)
  have x2 : "AA_GET_REQUIREMENT" ∉ H := hH _ (hK _ (by simp) (by decide)) (by decide)
  have hD'' := hD'.hide H
  simp [m_AA_IMPL_ANYANY_PSEUDOMETHOD, pseudoText]
  change Out _ _
  walk hn hD'' hP hE hR hRc fH x1 x2

/-! ### Return types with a comma -/

theorem Run.call' {x : String} {hs gh : List String} {args rest : List Tok} {m : Macro} {raw exp : List (String × List Tok)} {r : Res}
    (hx : x ∉ hs) (hm : (table.find? fun d => d.1 == x).map (·.2) = some m)
    (hb : bindArgs m (splitCommas args) = some raw) (he : ExpArgs raw exp)
    (h : ∀ H, (∀ y, y ∉ hs → y ≠ x → y ∉ H) → Run (addHide H (subst raw exp m.body) ++ rest) r) :
    Run (.id x hs :: .grp args gh :: rest) r :=
  Run.call (macroOf_some hx hm) hb he (h _ fun _ k1 k2 => not_filter k1 (by simpa using k2))

theorem Bad.after {ts S rest : List Tok} (h : Out ts S) (k : Run rest .error) : Run (ts ++ rest) .error := by
  obtain ⟨out, h, _⟩ := h
  exact h rest _ k

theorem Bad.sym {x : String} {ts : List Tok} (k : Run ts .error) : Run (.sym x :: ts) .error := Bad.after (Out.sym Out.nil) k
theorem Bad.comma {ts : List Tok} (k : Run ts .error) : Run (.comma :: ts) .error := Bad.after (Out.comma Out.nil) k
theorem Bad.id {x : String} {hs : List String} {ts : List Tok} (hx : table.lookup x = none) (k : Run ts .error) : Run (.id x hs :: ts) .error :=
  Bad.after (Out.id hx Out.nil) k
theorem Bad.grp {gh : List String} {a ts : List Tok} (ha : Inert a) (k : Run ts .error) : Run (.grp a gh :: ts) .error :=
  Bad.after (Out.grp ⟨a, ha.gives, rfl⟩ Out.nil) k
theorem Bad.call {a b : Tok} {A ts : List Tok} (hc : Out [a, b] A) (k : Run ts .error) : Run (a :: b :: ts) .error := Bad.after hc k

theorem comma_mem {a b : List Tok} (e : strip a = strip b) (h : Tok.comma ∈ b) : Tok.comma ∈ a := by
  have : stripTok .comma ∈ strip b := by rw [strip_eq_map]; exact List.mem_map_of_mem h
  rw [← e, strip_eq_map, List.mem_map] at this
  obtain ⟨u, hu, e⟩ := this
  rwa [← stripTok_comma.1 (by rw [e]; simp [stripTok])]

/-- `AA_GET_ALL_AFTER_REQUIREMENT((P) requires(E) R)`: `AA_IMPL_CONCAT_EXPAND` is given too many arguments. -/
theorem afterRequirement_bad {D P E R : List Tok} {hs gh : List String} {rest : List Tok} (hD : IsDecl D P E R) (hP : Inert P) (hE : Inert E)
    (hR : Inert R) (hRc : Tok.comma ∈ R) (hf : Free hs) (hx : "AA_GET_ALL_AFTER_REQUIREMENT" ∉ hs) :
    Run (.id "AA_GET_ALL_AFTER_REQUIREMENT" hs :: .grp D gh :: rest) .error := by
  obtain ⟨_, _, _, _, _, _, _, iD, _⟩ := hD.cases hP hE hR
  refine Run.call' hx rfl bind_v (exp := [("__VA_ARGS__", D)]) ⟨rfl, iD.gives.run, trivial⟩ fun H hH => ?_
  have fH : Free H := fun y hy => hH y (hf y hy) (by rintro rfl; revert hy; decide)
  have hD' := hD.hide H
  simp [m_AA_GET_ALL_AFTER_REQUIREMENT]
  refine Run.badArg (macroOf_some (fH _ (by decide)) rfl) (bind_1v (a := [.id "all_except_first" H]) (noComma_one (by simp)))
    (run_id (by decide)) ?_
  obtain ⟨P', p, B, e0, e1, iP, iB, iD', e2⟩ := hD'.cases hP hE hR
  rw [e0] at iD' ⊢
  obtain ⟨V, hV, hVs⟩ := getRest (gh := H) (oh := H) fH iD'.gives.run iP iB
  refine Run.call' (fH _ (by decide)) rfl (bind_2 (a := [.id "AA_IMPL_REMOVE_REQUIRES" H]) (noComma_one (by simp)) ?_)
    (exp := [("a", [.id "AA_IMPL_REMOVE_REQUIRES" H]), ("b", V)]) ⟨rfl, run_id (by decide), rfl, hV.run, trivial⟩ fun K hK => ?_
  · intro t ht
    simp at ht
    rcases ht with rfl | rfl <;> simp
  have hVc : Tok.comma ∈ addHide K V := comma_mem (b := i "requires" :: g E :: R)
    (by rw [strip_addHide, hVs, e2]; simp [strip, stripTok]) (by simp [hRc])
  obtain ⟨c, d, hcd⟩ := List.append_of_mem hVc
  simp [m_AA_IMPL_CONCAT]
  rw [hcd]
  exact Run.wrong (macroOf_some (hK _ (fH _ (by decide)) (by decide)) rfl) (bind_3 (a := [.id "AA_IMPL_REMOVE_REQUIRES" (H ++ K)]) (noComma_one (by simp)))

/-- Walks to the place of the error. -/
local macro "walkBad" hn:ident hD:ident hP:ident hE:ident hR:ident hRc:ident fH:ident x1:ident : tactic => `(tactic|
  repeat' first
    | exact afterRequirement_bad $hD $hP $hE $hR $hRc $fH $x1
    | refine Bad.sym ?_
    | refine Bad.comma ?_
    | refine Bad.id (by first | exact $hn | decide) ?_
    | refine Bad.call (intParams $hD $hP $hE $hR $fH $fH $fH) ?_
    | refine Bad.grp (by simp only [Inert, inertTok] <;> decide) ?_)

theorem extern_bad {n : String} (hn : table.lookup n = none) {P E R : List Tok} (hP : Inert P) (hE : Inert E) (hR : Inert R)
    (hRc : Tok.comma ∈ R) : Rejected (externCall n P E R) := by
  have hD : IsDecl (g P :: i "requires" :: g E :: R) P E R := by simp [IsDecl, strip, stripTok]
  obtain ⟨_, _, _, _, _, _, _, iD, _⟩ := hD.cases hP hE hR
  refine Run.call' (by simp) rfl (bind_1v (a := [i n]) (noComma_one (by simp)))
    (exp := [("NAME", [i n]), ("__VA_ARGS__", g P :: i "requires" :: g E :: R)]) ⟨rfl, run_id hn, rfl, iD.gives.run, trivial⟩ fun H hH => ?_
  have fH : Free H := fun y hy => hH y (by simp) (by rintro rfl; revert hy; decide)
  have x1 : "AA_GET_ALL_AFTER_REQUIREMENT" ∉ H := hH _ (by simp) (by decide)
  have hD' := hD.hide H
  generalize hDe : (g P :: i "requires" :: g E :: R) = D at hD' ⊢
  simp [m_anyany_extern_method]
  walkBad hn hD' hP hE hR hRc fH x1

set_option maxRecDepth 20000 in
theorem method_bad {n : String} (hn : table.lookup n = none) {P E R : List Tok} (hP : Inert P) (hE : Inert E) (hR : Inert R)
    (hRc : Tok.comma ∈ R) : Rejected (methodCall n P E R) := by
  have hD : IsDecl (g P :: i "requires" :: g E :: R) P E R := by simp [IsDecl, strip, stripTok]
  obtain ⟨_, _, _, _, _, _, _, iD, _⟩ := hD.cases hP hE hR
  refine Run.call' (by simp) rfl (bind_1v (a := [i n]) (noComma_one (by simp)))
    (exp := [("NAME", [i n]), ("__VA_ARGS__", g P :: i "requires" :: g E :: R)]) ⟨rfl, run_id hn, rfl, iD.gives.run, trivial⟩ fun H hH => ?_
  have fH : Free H := fun y hy => hH y (by simp) (by rintro rfl; revert hy; decide)
  have x1 : "AA_GET_ALL_AFTER_REQUIREMENT" ∉ H := hH _ (by simp) (by decide)
  have hD' := hD.hide H
  generalize hDe : (g P :: i "requires" :: g E :: R) = D at hD' ⊢
  simp [m_anyany_method]
  walkBad hn hD' hP hE hR hRc fH x1

theorem pseudo_bad {n : String} (hn : table.lookup n = none) {E R : List Tok} (hE : Inert E) (hR : Inert R)
    (hRc : Tok.comma ∈ R) : Rejected (pseudoCall n E R) := by
  have hD : IsDecl (g [] :: i "requires" :: g E :: R) [] E R := by simp [IsDecl, strip, stripTok]
  have hP : Inert [] := by simp [Inert]
  obtain ⟨_, _, _, _, _, _, _, iD, _⟩ := hD.cases hP hE hR
  have iV : Inert (i "requires" :: g E :: R) := by simp only [Inert] at iD; exact iD.2
  refine Run.call' (by simp) rfl (bind_1v (a := [i n]) (noComma_one (by simp)))
    (exp := [("NAME", [i n]), ("__VA_ARGS__", i "requires" :: g E :: R)]) ⟨rfl, run_id hn, rfl, iV.gives.run, trivial⟩ fun K hK => ?_
  have e : addHide K (subst [("NAME", [i n]), ("__VA_ARGS__", i "requires" :: g E :: R)] [("NAME", [i n]), ("__VA_ARGS__", i "requires" :: g E :: R)]
      m_anyany_pseudomethod.body) = [.id "AA_IMPL_ANYANY_PSEUDOMETHOD" K, .grp (.id n K :: .comma :: addHide K (g [] :: i "requires" :: g E :: R)) K] := by
    simp [m_anyany_pseudomethod]
  change Run (addHide K (subst _ _ m_anyany_pseudomethod.body) ++ []) .error
  rw [e]
  have hD' := hD.hide K
  have iD' : Inert (addHide K (g [] :: i "requires" :: g E :: R)) := (inert_addHide K _).2 iD
  generalize addHide K (g [] :: i "requires" :: g E :: R) = D at hD' iD'
  refine Run.call' (hK _ (by simp) (by decide)) rfl (bind_1v (a := [.id n K]) (noComma_one (by simp)))
    (exp := [("NAME", [.id n K]), ("__VA_ARGS__", D)]) ⟨rfl, run_id hn, rfl, iD'.gives.run, trivial⟩ fun H hH => ?_
  have fH : Free H := fun y hy => hH y (hK y (by simp) (by rintro rfl; revert hy; decide)) (by rintro rfl; revert hy; decide)
  have x1 : "AA_GET_ALL_AFTER_REQUIREMENT" ∉ H := hH _ (hK _ (by simp) (by decide)) (by decide)
  have hD'' := hD'.hide H
  simp [m_AA_IMPL_ANYANY_PSEUDOMETHOD]
  walkBad hn hD'' hP hE hR hRc fH x1

/-! ### C71 -/

/-- C71: `anyany_method(n, (P) requires(E) R)` declares what is documented, whatever the parameters `P` and the expression `E`
are (also with commas, at any depth), if there is no comma outside parentheses in the return type. -/
theorem C71_method_partial {n : String} (hn : table.lookup n = none) {P E R : List Tok} (hP : Inert P) (hE : Inert E) (hR : Inert R)
    (hRc : NoComma R) : Becomes (methodCall n P E R) (methodText n (strip P) (strip E) (strip R)) :=
  (method_out hn hP hE hR hRc).becomes

/-- C71: `anyany_extern_method`. -/
theorem C71_extern_method_partial {n : String} (hn : table.lookup n = none) {P E R : List Tok} (hP : Inert P) (hE : Inert E) (hR : Inert R)
    (hRc : NoComma R) : Becomes (externCall n P E R) (externText n (strip P) (strip E) (strip R)) :=
  (extern_out hn hP hE hR hRc).becomes

/-- C71: `anyany_pseudomethod`. -/
theorem C71_pseudomethod_partial {n : String} (hn : table.lookup n = none) {E R : List Tok} (hE : Inert E) (hR : Inert R)
    (hRc : NoComma R) : Becomes (pseudoCall n E R) (pseudoText n (strip E) (strip R)) :=
  (pseudo_out hn hE hR hRc).becomes

/-- C71 fails for return types with a comma outside parentheses, as in `-> std::pair<int, int>`: all three macros are
rejected by the preprocessor, whatever the rest of the declaration is. -/
theorem C71_comma_in_return_type_fails {n : String} (hn : table.lookup n = none) {P E R : List Tok} (hP : Inert P) (hE : Inert E) (hR : Inert R)
    (hRc : Tok.comma ∈ R) : Rejected (methodCall n P E R) ∧ Rejected (externCall n P E R) ∧ Rejected (pseudoCall n E R) :=
  ⟨method_bad hn hP hE hR hRc, extern_bad hn hP hE hR hRc, pseudo_bad hn hE hR hRc⟩

/-- `anyany_method(foo, (const& self, int x, char y) requires(self.foo(x, y)) -> std::string)`. -/
def exP : List Tok := [i "const", s "&", i "self", .comma, i "int", i "x", .comma, i "char", i "y"]
def exE : List Tok := [i "self", s ".", i "foo", g [i "x", .comma, i "y"]]
def exR : List Tok := [s "->", i "std", s "::", i "string"]

example : table.lookup "foo" = none ∧ Inert exP ∧ Inert exE ∧ Inert exR ∧ NoComma exR := by
  refine ⟨by decide, ?_, ?_, ?_, by simp [exR, NoComma]⟩ <;> simp only [exP, exE, exR, Inert, inertTok] <;> decide

/-- Its result, computed. -/
example : (match expand table 100 (externCall "foo" exP exE exR) with | .ok out => (strip out).length | _ => 0) = 48 := by decide +kernel

/-- `-> std::pair<int, int>`. -/
example : Inert [s "->", i "std", s "::", i "pair", s "<", i "int", .comma, i "int", s ">"] ∧
    Tok.comma ∈ [s "->", i "std", s "::", i "pair", s "<", i "int", .comma, i "int", s ">"] := by
  refine ⟨?_, by simp⟩
  simp only [Inert, inertTok]; decide

end AnyAny.Macro
