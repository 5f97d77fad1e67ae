import Verif.Spec.Macro
/-
Evaluation of the preprocessor model without fuel.
-/
namespace AnyAny.Macro
open Tok

def Res.app (a : List Tok) : Res → Res
  | .ok ts => .ok (a ++ ts)
  | r => r

/-- With enough fuel the text `ts` is replaced by `r` (or rejected). -/
def Run (ts : List Tok) (r : Res) : Prop := ∃ N, ∀ n, N ≤ n → expand table n ts = r

/-- `ts` is replaced by `out`, whatever follows. -/
def Gives (ts out : List Tok) : Prop := ∀ rest r, Run rest r → Run (ts ++ rest) (r.app out)

theorem Run.nil : Run [] (.ok []) := ⟨1, fun n hn => by obtain ⟨k, rfl⟩ : ∃ k, n = k + 1 := ⟨n - 1, by omega⟩; rfl⟩

theorem Res.app_nil (r : Res) : r.app [] = r := by cases r <;> rfl
theorem Res.app_app (a b : List Tok) (r : Res) : (r.app b).app a = r.app (a ++ b) := by cases r <;> simp [Res.app]
theorem Res.app_cons (t : Tok) (r : Res) : r.cons t = r.app [t] := by cases r <;> rfl

theorem Gives.run {ts out : List Tok} (h : Gives ts out) : Run ts (.ok out) := by
  have := h [] _ Run.nil
  simpa [Res.app] using this

theorem Gives.nil : Gives [] [] := fun rest r h => by rw [Res.app_nil]; exact h

theorem Gives.append {a b x y : List Tok} (h : Gives a x) (k : Gives b y) : Gives (a ++ b) (x ++ y) := fun rest r hr => by
  rw [List.append_assoc, ← Res.app_app]
  exact h _ _ (k _ _ hr)

theorem Run.succ {ts : List Tok} {r : Res} (f : Nat → Res) (hf : ∀ n, expand table (n + 1) ts = f n) (h : ∃ N, ∀ n, N ≤ n → f n = r) :
    Run ts r := by
  obtain ⟨N, h⟩ := h
  refine ⟨N + 1, fun n hn => ?_⟩
  obtain ⟨k, rfl⟩ : ∃ k, n = k + 1 := ⟨n - 1, by omega⟩
  rw [hf]
  exact h k (by omega)

theorem Gives.sym (s : String) : Gives [.sym s] [.sym s] := fun rest r ⟨N, h⟩ =>
  Run.succ (fun n => (expand table n rest).cons (.sym s)) (fun n => rfl) ⟨N, fun n hn => by rw [h n hn, Res.app_cons]⟩

theorem Gives.comma : Gives [.comma] [.comma] := fun rest r ⟨N, h⟩ =>
  Run.succ (fun n => (expand table n rest).cons .comma) (fun n => rfl) ⟨N, fun n hn => by rw [h n hn, Res.app_cons]⟩

theorem Gives.grp {ts out : List Tok} {gh : List String} (h : Run ts (.ok out)) : Gives [.grp ts gh] [.grp out gh] :=
  fun rest r ⟨N, hr⟩ => by
    obtain ⟨M, h⟩ := h
    refine Run.succ (fun n => match expand table n ts with | .ok ts' => (expand table n rest).cons (.grp ts' gh) | r => r)
      (fun n => rfl) ⟨max N M, fun n hn => ?_⟩
    rw [h n (by omega), hr n (by omega)]
    exact Res.app_cons _ _

theorem macroOf_none {x : String} (h : table.lookup x = none) (hs : List String) : macroOf table x hs = none := by
  unfold macroOf
  split
  · rfl
  · rw [Option.map_eq_none_iff, List.find?_eq_none]
    intro d hd
    rw [List.lookup_eq_none_iff] at h
    have := h d hd
    simp only [bne_iff_ne, ne_eq] at this
    simp only [beq_iff_eq]
    exact fun e => this e.symm

/-- An identifier that names no macro. -/
theorem Gives.id {x : String} {hs : List String} (h : table.lookup x = none) : Gives [.id x hs] [.id x hs] :=
  fun rest r ⟨N, hr⟩ => by
    refine Run.succ (fun n => (expand table n rest).cons (.id x hs)) (fun n => ?_) ⟨N, fun n hn => by rw [hr n hn, Res.app_cons]⟩
    cases rest with
    | nil => rfl
    | cons t rest =>
      cases t with
      | grp ts gh => simp only [List.cons_append, List.nil_append, expand, macroOf_none h]
      | _ => rfl

/-- The name of a macro before something that is not a parenthesis. -/
theorem Run.name {x : String} {hs : List String} {rest : List Tok} {r : Res} (hg : ∀ ts gh rest', rest ≠ .grp ts gh :: rest')
    (h : Run rest r) : Run (.id x hs :: rest) (r.app [.id x hs]) := by
  obtain ⟨N, hr⟩ := h
  refine Run.succ (fun n => (expand table n rest).cons (.id x hs)) (fun n => ?_) ⟨N, fun n hn => by rw [hr n hn, Res.app_cons]⟩
  cases rest with
  | nil => rfl
  | cons t rest =>
    cases t with
    | grp ts gh => exact absurd rfl (hg _ _ _)
    | _ => rfl

theorem Gives.name {x y : String} {hs h' : List String} {b out : List Tok} (h : Gives (.id y h' :: b) out) :
    Gives (.id x hs :: .id y h' :: b) (.id x hs :: out) := fun rest r hr => by
  have := Run.name (x := x) (hs := hs) (by simp) (h rest r hr)
  rw [Res.app_app] at this
  exact this

/-- All arguments have an expansion. -/
def ExpArgs : List (String × List Tok) → List (String × List Tok) → Prop
  | [], [] => True
  | (p, a) :: as, (q, b) :: bs => p = q ∧ Run a (.ok b) ∧ ExpArgs as bs
  | _, _ => False

theorem expandArgs_of : ∀ {raw exp : List (String × List Tok)}, ExpArgs raw exp →
    ∃ N, ∀ n, N ≤ n → expandArgs (expand table n) raw = (some exp, .fuel)
  | [], [], _ => ⟨0, fun _ _ => rfl⟩
  | (p, a) :: as, (q, b) :: bs, ⟨e, ⟨N, h⟩, k⟩ => by
    obtain ⟨M, hM⟩ := expandArgs_of k
    refine ⟨max N M, fun n hn => ?_⟩
    simp only [expandArgs, h n (by omega), hM n (by omega), e]
  | [], _ :: _, h => h.elim
  | _ :: _, [], h => h.elim

/-- A call. -/
theorem Run.call {x : String} {hs gh : List String} {args rest : List Tok} {m : Macro} {raw exp : List (String × List Tok)} {r : Res}
    (hm : macroOf table x hs = some m) (hb : bindArgs m (splitCommas args) = some raw) (he : ExpArgs raw exp)
    (h : Run (addHide (hs.filter gh.contains ++ [x]) (subst raw exp m.body) ++ rest) r) : Run (.id x hs :: .grp args gh :: rest) r := by
  obtain ⟨N, h⟩ := h
  obtain ⟨M, he⟩ := expandArgs_of he
  refine Run.succ (fun n => expand table (n + 1) (.id x hs :: .grp args gh :: rest)) (fun n => rfl) ⟨max N M, fun n hn => ?_⟩
  simp only [expand, hm, hb, he n (by omega), h n (by omega)]

theorem Gives.call {x : String} {hs gh : List String} {args out : List Tok} {m : Macro} {raw exp : List (String × List Tok)}
    (hm : macroOf table x hs = some m) (hb : bindArgs m (splitCommas args) = some raw) (he : ExpArgs raw exp)
    (h : Gives (addHide (hs.filter gh.contains ++ [x]) (subst raw exp m.body)) out) : Gives [.id x hs, .grp args gh] out :=
  fun rest r hr => Run.call hm hb he (h rest r hr)

/-- Wrong number of arguments. -/
theorem Run.wrong {x : String} {hs gh : List String} {args rest : List Tok} {m : Macro}
    (hm : macroOf table x hs = some m) (hb : bindArgs m (splitCommas args) = none) : Run (.id x hs :: .grp args gh :: rest) .error :=
  Run.succ (fun _ => .error) (fun n => by simp only [expand, hm, hb]) ⟨0, fun _ _ => rfl⟩

/-- Failure in an argument after good ones. -/
theorem Run.badArg {x : String} {hs gh : List String} {args rest : List Tok} {m : Macro} {p q : String} {a a' b : List Tok}
    (hm : macroOf table x hs = some m) (hb : bindArgs m (splitCommas args) = some [(p, a), (q, b)]) (ha : Run a (.ok a'))
    (hbad : Run b .error) : Run (.id x hs :: .grp args gh :: rest) .error := by
  obtain ⟨N, ha⟩ := ha
  obtain ⟨M, hbad⟩ := hbad
  refine Run.succ (fun n => expand table (n + 1) (.id x hs :: .grp args gh :: rest)) (fun n => rfl) ⟨max N M, fun n hn => ?_⟩
  simp only [expand, hm, hb, expandArgs, ha n (by omega), hbad n (by omega)]

/-! ### Inert text -/

theorem Inert.gives_tok : ∀ {t : Tok}, (∀ ts h, t = .grp ts h → Inert ts → Run ts (.ok ts)) → inertTok t → Gives [t] [t]
  | .id _ _, _, h => Gives.id (by simpa [inertTok] using h)
  | .sym _, _, _ => Gives.sym _
  | .comma, _, _ => Gives.comma
  | .paste, _, h => by simp [inertTok] at h
  | .grp ts hh, k, h => Gives.grp (k ts hh rfl (by simpa [inertTok] using h))

theorem Inert.gives : ∀ {ts : List Tok}, Inert ts → Gives ts ts
  | [], _ => Gives.nil
  | t :: ts, h => by
    simp only [Inert] at h
    exact Gives.append (a := [t]) (x := [t])
      (Inert.gives_tok (fun us k e hu => (Inert.gives (ts := us) hu).run) h.1) (Inert.gives (ts := ts) h.2)
termination_by ts => sizeOf ts
decreasing_by
  · subst e; simp; omega
  · simp; omega

theorem inert_append {a b : List Tok} : Inert (a ++ b) ↔ Inert a ∧ Inert b := by
  induction a with
  | nil => simp [Inert]
  | cons t a ih => simp [Inert, ih, and_assoc]

theorem strip_append (a b : List Tok) : strip (a ++ b) = strip a ++ strip b := by
  induction a with
  | nil => simp [strip]
  | cons t a ih => simp [strip, ih]

theorem addHide_append (h : List String) (a b : List Tok) : addHide h (a ++ b) = addHide h a ++ addHide h b := by
  induction a with
  | nil => simp [addHide]
  | cons t a ih => simp [addHide, ih]

mutual
theorem strip_hideTok (h : List String) : ∀ t, stripTok (hideTok h t) = stripTok t
  | .id _ _ | .sym _ | .comma | .paste => by simp [hideTok, stripTok]
  | .grp ts _ => by simp [hideTok, stripTok, strip_addHide h ts]
theorem strip_addHide (h : List String) : ∀ ts, strip (addHide h ts) = strip ts
  | [] => by simp [addHide]
  | t :: ts => by simp [addHide, strip, strip_hideTok h t, strip_addHide h ts]
end

mutual
theorem inert_hideTok (h : List String) : ∀ t, inertTok (hideTok h t) ↔ inertTok t
  | .id _ _ | .sym _ | .comma | .paste => by simp [hideTok, inertTok]
  | .grp ts _ => by simp [hideTok, inertTok, inert_addHide h ts]
theorem inert_addHide (h : List String) : ∀ ts, Inert (addHide h ts) ↔ Inert ts
  | [] => by simp [addHide]
  | t :: ts => by simp [addHide, Inert, inert_hideTok h t, inert_addHide h ts]
end

mutual
theorem inert_stripTok : ∀ t, inertTok (stripTok t) ↔ inertTok t
  | .id _ _ | .sym _ | .comma | .paste => by simp [stripTok, inertTok]
  | .grp ts _ => by simp [stripTok, inertTok, inert_strip ts]
theorem inert_strip : ∀ ts, Inert (strip ts) ↔ Inert ts
  | [] => by simp [strip]
  | t :: ts => by simp [strip, Inert, inert_stripTok t, inert_strip ts]
end

theorem Inert.congr {a b : List Tok} (e : strip a = strip b) (h : Inert b) : Inert a := by
  rw [← inert_strip, e, inert_strip]; exact h

theorem strip_eq_map (ts : List Tok) : strip ts = ts.map stripTok := by
  induction ts with
  | nil => rfl
  | cons t ts ih => simp [strip, ih]

theorem stripTok_comma {t : Tok} : stripTok t = .comma ↔ t = .comma := by cases t <;> simp [stripTok]

theorem NoComma.congr {a b : List Tok} (e : strip a = strip b) (h : NoComma b) : NoComma a := by
  intro t ht hc
  subst hc
  have : stripTok .comma ∈ strip a := by rw [strip_eq_map]; exact List.mem_map_of_mem ht
  rw [e, strip_eq_map, List.mem_map] at this
  obtain ⟨u, hu, e⟩ := this
  exact h u hu (stripTok_comma.1 (by rw [e]; simp [stripTok]))

theorem noComma_addHide {h : List String} {ts : List Tok} (k : NoComma ts) : NoComma (addHide h ts) := by
  induction ts with
  | nil => simpa [addHide] using k
  | cons t ts ih =>
    intro u hu
    simp only [addHide, List.mem_cons] at hu
    rcases hu with rfl | hu
    · have := k t (by simp)
      cases t <;> simp_all [hideTok]
    · exact ih (fun x hx => k x (by simp [hx])) u hu

/-! ### Arguments -/

theorem join_split : ∀ ts : List Tok, joinCommas (splitCommas ts) = ts ∧ splitCommas ts ≠ []
  | [] => ⟨rfl, by simp [splitCommas]⟩
  | t :: ts => by
    have ih := join_split ts
    cases hs : splitCommas ts with
    | nil => exact absurd hs ih.2
    | cons a as =>
      have e : joinCommas (a :: as) = ts := by rw [← hs]; exact ih.1
      cases t with
      | comma => simp [splitCommas, hs, joinCommas, e]
      | _ =>
        refine ⟨?_, by simp [splitCommas, hs]⟩
        simp only [splitCommas, hs]
        cases as with
        | nil => simpa [joinCommas] using e
        | cons b bs => simpa [joinCommas] using e

theorem split_noComma {ts : List Tok} (h : NoComma ts) : splitCommas ts = [ts] := by
  induction ts with
  | nil => rfl
  | cons t ts ih =>
    have := ih (fun x hx => h x (by simp [hx]))
    have ht := h t (by simp)
    cases t <;> simp_all [splitCommas]

theorem split_cons {a b : List Tok} (h : NoComma a) : splitCommas (a ++ .comma :: b) = a :: splitCommas b := by
  induction a with
  | nil => rfl
  | cons t a ih =>
    have := ih (fun x hx => h x (by simp [hx]))
    have ht := h t (by simp)
    cases t <;> simp_all [splitCommas]

theorem noComma_one {t : Tok} (h : t ≠ .comma) : NoComma [t] := by
  intro u hu; simp at hu; subst hu; exact h

/-- Only `...`. -/
theorem bind_v {b V : List Tok} : bindArgs ⟨[], true, b⟩ (splitCommas V) = some [("__VA_ARGS__", V)] := by
  simp [bindArgs, bindNamed, (join_split V).1]

/-- One named parameter and `...`. -/
theorem bind_1v {p : String} {b a V : List Tok} (h : NoComma a) :
    bindArgs ⟨[p], true, b⟩ (splitCommas (a ++ .comma :: V)) = some [(p, a), ("__VA_ARGS__", V)] := by
  simp [bindArgs, bindNamed, split_cons h, (join_split V).1]

/-- Two named parameters and `...`. -/
theorem bind_2v {p q : String} {b a c V : List Tok} (h : NoComma a) (k : NoComma c) :
    bindArgs ⟨[p, q], true, b⟩ (splitCommas (a ++ .comma :: (c ++ .comma :: V))) = some [(p, a), (q, c), ("__VA_ARGS__", V)] := by
  simp [bindArgs, bindNamed, split_cons h, split_cons k, (join_split V).1]

theorem bind_1 {p : String} {b a : List Tok} (h : NoComma a) : bindArgs ⟨[p], false, b⟩ (splitCommas a) = some [(p, a)] := by
  simp [bindArgs, bindNamed, split_noComma h]

theorem bind_2 {p q : String} {b a c : List Tok} (h : NoComma a) (k : NoComma c) :
    bindArgs ⟨[p, q], false, b⟩ (splitCommas (a ++ .comma :: c)) = some [(p, a), (q, c)] := by
  simp [bindArgs, bindNamed, split_cons h, split_noComma k]

/-- Three or more arguments for two parameters. -/
theorem bind_3 {p q : String} {b a c d : List Tok} (h : NoComma a) :
    bindArgs ⟨[p, q], false, b⟩ (splitCommas (a ++ .comma :: (c ++ .comma :: d))) = none := by
  have hlen : 2 ≤ (splitCommas (c ++ .comma :: d)).length := by
    induction c with
    | nil =>
      have := (join_split d).2
      cases hd : splitCommas d with
      | nil => exact absurd hd this
      | cons x xs => simp [splitCommas, hd]
    | cons t c ih =>
      cases hd : splitCommas (c ++ .comma :: d) with
      | nil => rw [hd] at ih; simp at ih
      | cons x xs =>
        rw [hd] at ih
        cases t <;> simp_all [splitCommas]
  rw [split_cons h]
  match hs : splitCommas (c ++ .comma :: d), hlen with
  | x :: y :: zs, _ => simp [bindArgs, bindNamed]

end AnyAny.Macro
