import Verif.Spec.TypeNames
/-
Lemmas on the names of types: they can be read back.
-/
namespace AnyAny.Names
open Spec

mutual
/-- The name without leaving functions out. -/
def raw (c : Compiler) : Bool → Ent → List Int
  | _, .nil => []
  | first, .cons k as rest => (if first || k.isPtr then [] else [58, 58]) ++ pKind c k (raws c true as) ++ raw c false rest
def raws (c : Compiler) : Bool → Ents → List Int
  | _, .nil => []
  | first, .cons e es => (if first then [] else [44, 32]) ++ raw c true e ++ raws c false es
end

mutual
/-- What is told, without leaving functions out. -/
def erase (c : Compiler) : Ent → Ent
  | .nil => .nil
  | .cons k as rest => .cons (toldKind c k) (toldArgs c k (erases c as)) (erase c rest)
def erases (c : Compiler) : Ents → Ents
  | .nil => .nil
  | .cons e es => .cons (erase c e) (erases c es)
end

theorem toldKind_isFn (c : Compiler) (k : Kind) : (toldKind c k).isFn = k.isFn := by cases c <;> cases k <;> rfl
theorem toldKind_isPtr (c : Compiler) (k : Kind) : (toldKind c k).isPtr = k.isPtr := by cases c <;> cases k <;> rfl
theorem toldKind_idem (c : Compiler) (k : Kind) : toldKind c (toldKind c k) = toldKind c k := by cases c <;> cases k <;> rfl
theorem isPtr_iff (k : Kind) : k.isPtr = true ↔ k = .ptr := by cases k <;> simp [Kind.isPtr]

theorem pKind_told (c : Compiler) (k : Kind) (as : Ents) (f : Ents → List Int) :
    pKind c (toldKind c k) (f (toldArgs c k as)) = pKind c k (f as) := by
  cases c <;> cases k <;> rfl

mutual
theorem pEnt_raw (c : Compiler) (first : Bool) (e : Ent) (h : first = true ∨ (c = .clang → e.hasFn = false)) : pEnt c first e = raw c first (told c e) := by
  match e with
  | .nil => cases first <;> rfl
  | .cons k as rest =>
    unfold pEnt told
    by_cases hs : c = .clang ∧ (k.isFn || rest.hasFn) = true
    · rw [if_pos hs, if_pos hs]
      rcases h with rfl | h
      · exact pEnt_raw c true rest (.inl rfl)
      · have := h hs.1
        rw [Ent.hasFn, hs.2] at this; cases this
    · rw [if_neg hs, if_neg hs]
      unfold raw
      rw [pEnt_raw c false rest (.inr fun hc => by
        cases hr : rest.hasFn with
        | false => rfl
        | true => exact absurd ⟨hc, by simp [hr]⟩ hs), pEnts_raw c true as, toldKind_isPtr, pKind_told c k (toldAll c as) (raws c true)]
theorem pEnts_raw (c : Compiler) (first : Bool) (es : Ents) : pEnts c first es = raws c first (toldAll c es) := by
  match es with
  | .nil => cases first <;> rfl
  | .cons e es =>
    unfold pEnts toldAll raws
    rw [pEnt_raw c true e (.inl rfl), pEnts_raw c false es]
end

mutual
theorem erase_told (c : Compiler) (e : Ent) : erase c (told c e) = told c e := by
  match e with
  | .nil => rfl
  | .cons k as rest =>
    unfold told
    split
    · exact erase_told c rest
    · unfold erase
      rw [erase_told c rest, toldKind_idem]
      have h := erases_told c as
      congr 1
      cases c <;> cases k <;> first | exact h | rfl
theorem erases_told (c : Compiler) (es : Ents) : erases c (toldAll c es) = toldAll c es := by
  match es with
  | .nil => rfl
  | .cons e es =>
    unfold toldAll erases
    rw [erase_told c e, erases_told c es]
end

theorem okKind_told (c : Compiler) (k : Kind) (as : Ents) (h : OkKind k as) : OkKind (toldKind c k) (toldArgs c k (toldAll c as)) := by
  cases c <;> cases k <;> simp_all [OkKind, toldKind, toldArgs, toldAll]

mutual
theorem ok_told (c : Compiler) (e : Ent) (h : OkEnt e) : OkEnt (told c e) ∧ (Begins e → Begins (told c e)) := by
  match e with
  | .nil => exact ⟨trivial, id⟩
  | .cons k as rest =>
    obtain ⟨h1, h2, h3, h4⟩ := h
    have ih := ok_told c rest h3
    unfold told
    by_cases hs : c = .clang ∧ (k.isFn || rest.hasFn) = true
    · rw [if_pos hs]
      refine ⟨ih.1, fun _ => ?_⟩
      by_cases hk : k.isFn = true
      · exact ih.2 (h4 hk)
      · have hr : rest.hasFn = true := by
          have := hs.2; simp only [hk, Bool.false_or] at this; exact this
        exact begins_fn c rest h3 hr hs.1
    · rw [if_neg hs]
      refine ⟨⟨okKind_told c k as h1, ?_, ih.1, fun hk => ih.2 (h4 (by rwa [toldKind_isFn] at hk))⟩, fun hb => ?_⟩
      · have := oks_told c as h2
        cases c <;> cases k <;> first | exact this | trivial
      · show toldKind c k ≠ .ptr
        intro hp
        have := toldKind_isPtr c k
        rw [hp] at this
        exact hb ((isPtr_iff k).1 this.symm)
theorem begins_fn (c : Compiler) (e : Ent) (h : OkEnt e) (hf : e.hasFn = true) (hc : c = .clang) : Begins (told c e) := by
  match e with
  | .nil => cases hf
  | .cons k as rest =>
    obtain ⟨h1, h2, h3, h4⟩ := h
    unfold told
    rw [if_pos ⟨hc, hf⟩]
    by_cases hk : k.isFn = true
    · exact (ok_told c rest h3).2 (h4 hk)
    · have hr : rest.hasFn = true := by
        rw [Ent.hasFn] at hf; simp only [hk, Bool.false_or] at hf; exact hf
      exact begins_fn c rest h3 hr hc
theorem oks_told (c : Compiler) (es : Ents) (h : OkEnts es) : OkEnts (toldAll c es) := by
  match es with
  | .nil => trivial
  | .cons e es =>
    obtain ⟨h1, h2, h3⟩ := h
    exact ⟨(ok_told c e h2).2 h1, (ok_told c e h2).1, oks_told c es h3⟩
end

/-- What may follow an argument, or the whole name. -/
def Stop : List Int → Prop
  | [] => True
  | c :: _ => c = 44 ∨ c = 62 ∨ c = 41 ∨ c = 93

/-- What may follow a part. -/
def Follow : List Int → Prop
  | [] => True
  | c :: _ => c = 58 ∨ c = 42 ∨ c = 44 ∨ c = 62 ∨ c = 41 ∨ c = 93

theorem stop_follow {r : List Int} (h : Stop r) : Follow r := by
  cases r with
  | nil => trivial
  | cons c r => exact .inr (.inr h)

theorem raw_follow (c : Compiler) (e : Ent) (r : List Int) (h : Stop r) : Follow (raw c false e ++ r) := by
  match e with
  | .nil => exact stop_follow h
  | .cons k as rest =>
    unfold raw
    by_cases hk : k = .ptr
    · subst hk
      have : pKind c .ptr (raws c true as) = [42] := by cases c <;> rfl
      rw [this]; exact .inr (.inl rfl)
    · have : k.isPtr = false := by
        cases h' : k.isPtr with
        | false => rfl
        | true => exact absurd ((isPtr_iff k).1 h') hk
      simp only [this, Bool.or_self]
      exact .inl rfl

theorem raws_stop (c : Compiler) (es : Ents) (d : Int) (r : List Int) (h : d = 41 ∨ d = 62) : Stop (raws c false es ++ d :: r) := by
  match es with
  | .nil => rcases h with rfl | rfl
            · exact .inr (.inr (.inl rfl))
            · exact .inr (.inl rfl)
  | .cons e es => unfold raws; exact .inl rfl

/-- An identifier is followed by something else. -/
theorem ident_split {a b x y : List Int} (ha : ∀ c ∈ a, IdChar c) (hb : ∀ c ∈ b, IdChar c)
    (hx : ∀ c l, x = c :: l → ¬ IdChar c) (hy : ∀ c l, y = c :: l → ¬ IdChar c) (h : a ++ x = b ++ y) : a = b ∧ x = y := by
  induction a generalizing b with
  | nil =>
    cases b with
    | nil => exact ⟨rfl, h⟩
    | cons d b => exact absurd (hb d (by simp)) (hx d (b ++ y) h)
  | cons d a ih =>
    cases b with
    | nil => exact absurd (ha d (by simp)) (hy d (a ++ x) h.symm)
    | cons d' b =>
      obtain ⟨rfl, h'⟩ := List.cons.inj h
      obtain ⟨rfl, hr⟩ := ih (fun c hc => ha c (by simp [hc])) (fun c hc => hb c (by simp [hc])) h'
      exact ⟨rfl, hr⟩

theorem place_split {a b x y : List Int} (ha : (41 : Int) ∉ a) (hb : (41 : Int) ∉ b) (h : a ++ 41 :: x = b ++ 41 :: y) : a = b ∧ x = y := by
  induction a generalizing b with
  | nil =>
    cases b with
    | nil => exact ⟨rfl, (List.cons.inj h).2⟩
    | cons d b => have := (List.cons.inj h).1; subst this; simp at hb
  | cons d a ih =>
    cases b with
    | nil => have := (List.cons.inj h).1; subst this; simp at ha
    | cons d' b =>
      obtain ⟨rfl, h'⟩ := List.cons.inj h
      obtain ⟨rfl, hr⟩ := ih (by simp_all) (by simp_all) h'
      exact ⟨rfl, hr⟩

theorem follow_not_id {x : List Int} (h : Follow x) : ∀ c l, x = c :: l → ¬ IdChar c := by
  rintro c l rfl hc
  unfold Follow at h; unfold IdChar at hc; omega

theorem punct_not_id {d : Int} (h : d = 60 ∨ d = 40) (x : List Int) : ∀ c l, d :: x = c :: l → ¬ IdChar c := by
  intro c l e hc
  have := (List.cons.inj e).1
  unfold IdChar at hc; omega

/-- The name of a part is an identifier and something else, or begins with punctuation. -/
theorem pKind_shape (c : Compiler) (k : Kind) (as : Ents) (A x : List Int) (hk : OkKind k as) (hp : k ≠ .ptr) (hx : Follow x) :
    (∃ n y, Ident n ∧ pKind c k A ++ x = n ++ y ∧ (∀ d l, y = d :: l → ¬ IdChar d) ∧
      ((k = .id n ∧ y = x) ∨ (k = .templ n ∧ y = 60 :: (A ++ 62 :: x)) ∨ (k = .fn n ∧ y = 40 :: (A ++ 41 :: x)))) ∨
    (∃ d l, pKind c k A ++ x = d :: l ∧ ¬ IdChar d ∧ (d = 123 ∨ d = 40 ∨ d = 60) ∧ ((∃ tu, k = .anon tu) ∨ ∃ no p, k = .lambda no p)) := by
  cases k with
  | id n => exact .inl ⟨n, x, hk.1, by cases c <;> rfl, follow_not_id hx, .inl ⟨rfl, rfl⟩⟩
  | templ n => exact .inl ⟨n, 60 :: (A ++ 62 :: x), hk, by cases c <;> simp [pKind], punct_not_id (.inl rfl) _, .inr (.inl ⟨rfl, rfl⟩)⟩
  | fn n => exact .inl ⟨n, 40 :: (A ++ 41 :: x), hk, by cases c <;> simp [pKind], punct_not_id (.inr rfl) _, .inr (.inr ⟨rfl, rfl⟩)⟩
  | anon tu =>
    refine .inr ?_
    cases c
    · exact ⟨123, _, rfl, by unfold IdChar; omega, .inl rfl, .inl ⟨tu, rfl⟩⟩
    · exact ⟨40, _, rfl, by unfold IdChar; omega, .inr (.inl rfl), .inl ⟨tu, rfl⟩⟩
  | lambda no p =>
    refine .inr ?_
    cases c
    · exact ⟨60, _, rfl, by unfold IdChar; omega, .inr (.inr rfl), .inr ⟨no, p, rfl⟩⟩
    · exact ⟨40, _, rfl, by unfold IdChar; omega, .inr (.inl rfl), .inr ⟨no, p, rfl⟩⟩
  | ptr => exact absurd rfl hp

theorem follow_ne {x : List Int} (h : Follow x) (d : Int) (hd : d = 60 ∨ d = 40) (l : List Int) : x ≠ d :: l := by
  rintro rfl
  unfold Follow at h; omega

/-- One part can be read back. -/
theorem kind_inj (c : Compiler) {k k' : Kind} {as as' : Ents} (hk : OkKind k as) (hk' : OkKind k' as') (hp : k ≠ .ptr) (hp' : k' ≠ .ptr)
    (H : ∀ d r r', d = 41 ∨ d = 62 → raws c true as ++ d :: r = raws c true as' ++ d :: r' → erases c as = erases c as' ∧ r = r')
    {x x' : List Int} (hx : Follow x) (hx' : Follow x') (h : pKind c k (raws c true as) ++ x = pKind c k' (raws c true as') ++ x') :
    toldKind c k = toldKind c k' ∧ toldArgs c k (erases c as) = toldArgs c k' (erases c as') ∧ x = x' := by
  rcases pKind_shape c k as (raws c true as) x hk hp hx with ⟨n, y, hn, e, hy, hc⟩ | ⟨d, l, e, hd, -, hc⟩
  · rcases pKind_shape c k' as' (raws c true as') x' hk' hp' hx' with ⟨n', y', hn', e', hy', hc'⟩ | ⟨d', l', e', hd', -, -⟩
    · rw [e, e'] at h
      obtain ⟨rfl, rfl⟩ := ident_split hn.2 hn'.2 hy hy' h
      rcases hc with ⟨rfl, rfl⟩ | ⟨rfl, ey⟩ | ⟨rfl, ey⟩
      · rcases hc' with ⟨rfl, rfl⟩ | ⟨rfl, ey'⟩ | ⟨rfl, ey'⟩
        · refine ⟨rfl, ?_, rfl⟩
          rw [hk.2, hk'.2]
        · exact absurd ey' (follow_ne hx _ (.inl rfl) _)
        · exact absurd ey' (follow_ne hx _ (.inr rfl) _)
      · subst ey
        rcases hc' with ⟨rfl, ey'⟩ | ⟨rfl, ey'⟩ | ⟨rfl, ey'⟩
        · exact absurd ey'.symm (follow_ne hx' _ (.inl rfl) _)
        · obtain ⟨ha, rfl⟩ := H 62 x x' (.inr rfl) (List.cons.inj ey').2
          refine ⟨rfl, ?_, rfl⟩
          cases c <;> exact ha
        · exact absurd (List.cons.inj ey').1 (by omega)
      · subst ey
        rcases hc' with ⟨rfl, ey'⟩ | ⟨rfl, ey'⟩ | ⟨rfl, ey'⟩
        · exact absurd ey'.symm (follow_ne hx' _ (.inr rfl) _)
        · exact absurd (List.cons.inj ey').1 (by omega)
        · obtain ⟨ha, rfl⟩ := H 41 x x' (.inl rfl) (List.cons.inj ey').2
          refine ⟨rfl, ?_, rfl⟩
          cases c <;> exact ha
    · rw [e, e'] at h
      obtain ⟨hne, hall⟩ := hn
      cases n with
      | nil => exact absurd rfl hne
      | cons a n =>
        obtain ⟨rfl, -⟩ := List.cons.inj h
        exact absurd (hall a (by simp)) hd'
  · rcases pKind_shape c k' as' (raws c true as') x' hk' hp' hx' with ⟨n', y', hn', e', hy', hc'⟩ | ⟨d', l', e', hd', -, hc'⟩
    · rw [e, e'] at h
      obtain ⟨hne, hall⟩ := hn'
      cases n' with
      | nil => exact absurd rfl hne
      | cons a n =>
        obtain ⟨rfl, -⟩ := List.cons.inj h
        exact absurd (hall d (by simp)) hd
    · rcases hc with ⟨tu, rfl⟩ | ⟨no, p, rfl⟩
      · rcases hc' with ⟨tu', rfl⟩ | ⟨no', p', rfl⟩
        · have e1 : as = .nil := hk
          have e2 : as' = .nil := hk'
          subst e1 e2
          refine ⟨by cases c <;> rfl, by cases c <;> rfl, ?_⟩
          cases c <;> exact List.append_cancel_left h
        · cases c
          · exact absurd (List.cons.inj h).1 (by omega)
          · exact absurd (List.cons.inj (List.cons.inj h).2).1 (by omega)
      · rcases hc' with ⟨tu', rfl⟩ | ⟨no', p', rfl⟩
        · cases c
          · exact absurd (List.cons.inj h).1 (by omega)
          · exact absurd (List.cons.inj (List.cons.inj h).2).1 (by omega)
        · cases c
          · have h2 : raws .gcc true as ++ 41 :: (62 :: x) = raws .gcc true as' ++ 41 :: (62 :: x') := by
              have : gccLambda ++ (raws .gcc true as ++ 41 :: (62 :: x)) = gccLambda ++ (raws .gcc true as' ++ 41 :: (62 :: x')) := by
                simpa [pKind] using h
              exact List.append_cancel_left this
            obtain ⟨ha, hr⟩ := H 41 _ _ (.inl rfl) h2
            exact ⟨rfl, ha, (List.cons.inj hr).2⟩
          · have h2 : p ++ 41 :: x = p' ++ 41 :: x' := by
              have : clangLambda ++ (p ++ 41 :: x) = clangLambda ++ (p' ++ 41 :: x') := by
                simpa [pKind] using h
              exact List.append_cancel_left this
            obtain ⟨rfl, hr⟩ := place_split hk hk' h2
            exact ⟨rfl, rfl, hr⟩

/-- A type does not begin with `)` or `>`. -/
theorem raw_head (c : Compiler) (e : Ent) (hb : Begins e) (ho : OkEnt e) (r : List Int) (hr : Stop r) (d : Int) (l : List Int) (hd : d = 41 ∨ d = 62) :
    d :: l ≠ raw c true e ++ r := by
  match e with
  | .nil => exact hb.elim
  | .cons k as rest =>
    obtain ⟨h1, h2, h3, h4⟩ := ho
    unfold raw
    simp only [Bool.true_or, if_true, List.nil_append, List.append_assoc]
    rcases pKind_shape c k as (raws c true as) (raw c false rest ++ r) h1 hb (raw_follow c rest r hr) with ⟨n, y, hn, e, -⟩ | ⟨d', l', e, -, hd', -⟩
    · rw [e]
      obtain ⟨hne, hall⟩ := hn
      cases n with
      | nil => exact absurd rfl hne
      | cons a n =>
        intro h
        obtain ⟨rfl, -⟩ := List.cons.inj h
        have := hall d (by simp)
        unfold IdChar at this; omega
    · rw [e]
      intro h
      obtain ⟨rfl, -⟩ := List.cons.inj h
      omega

mutual
theorem raw_inj (c : Compiler) (e : Ent) (ho : OkEnt e) (first : Bool) (e' : Ent) (ho' : OkEnt e') (hb : first = true → Begins e ∧ Begins e')
    (r r' : List Int) (hr : Stop r) (hr' : Stop r') (h : raw c first e ++ r = raw c first e' ++ r') : erase c e = erase c e' ∧ r = r' := by
  match e, e' with
  | .nil, .nil => exact ⟨rfl, by cases first <;> exact h⟩
  | .nil, .cons k' as' rest' =>
    cases first with
    | true => exact (hb rfl).1.elim
    | false =>
      exfalso
      have hs : Stop (raw c false (.cons k' as' rest') ++ r') := by rw [← h]; exact hr
      unfold raw at hs
      by_cases hk : k' = .ptr
      · subst hk
        have : pKind c .ptr (raws c true as') = [42] := by cases c <;> rfl
        rw [this] at hs
        simp [Kind.isPtr, Stop] at hs
      · have : k'.isPtr = false := by
          cases h' : k'.isPtr with
          | false => rfl
          | true => exact absurd ((isPtr_iff k').1 h') hk
        simp [this, Stop] at hs
  | .cons k as rest, .nil =>
    cases first with
    | true => exact (hb rfl).2.elim
    | false =>
      exfalso
      have hs : Stop (raw c false (.cons k as rest) ++ r) := by rw [h]; exact hr'
      unfold raw at hs
      by_cases hk : k = .ptr
      · subst hk
        have : pKind c .ptr (raws c true as) = [42] := by cases c <;> rfl
        rw [this] at hs
        simp [Kind.isPtr, Stop] at hs
      · have : k.isPtr = false := by
          cases h' : k.isPtr with
          | false => rfl
          | true => exact absurd ((isPtr_iff k).1 h') hk
        simp [this, Stop] at hs
  | .cons k as rest, .cons k' as' rest' =>
    obtain ⟨h1, h2, h3, h4⟩ := ho
    obtain ⟨h1', h2', h3', h4'⟩ := ho'
    have main : k ≠ .ptr → k' ≠ .ptr → pKind c k (raws c true as) ++ (raw c false rest ++ r) = pKind c k' (raws c true as') ++ (raw c false rest' ++ r') →
        erase c (.cons k as rest) = erase c (.cons k' as' rest') ∧ r = r' := by
      intro hp hp' he
      obtain ⟨e1, e2, e3⟩ := kind_inj c h1 h1' hp hp' (fun d s s' hd hs => raws_inj c as h2 true as' h2' d s s' hd hs)
        (raw_follow c rest r hr) (raw_follow c rest' r' hr') he
      obtain ⟨e4, e5⟩ := raw_inj c rest h3 false rest' h3' nofun r r' hr hr' e3
      exact ⟨by unfold erase; rw [e1, e2, e4], e5⟩
    cases first with
    | true =>
      unfold raw at h
      simp only [Bool.true_or, if_true, List.nil_append, List.append_assoc] at h
      exact main (hb rfl).1 (hb rfl).2 h
    | false =>
      have np : ∀ k : Kind, k ≠ .ptr → k.isPtr = false := by
        intro k hk
        cases h' : k.isPtr with
        | false => rfl
        | true => exact absurd ((isPtr_iff k).1 h') hk
      have pp : ∀ A, pKind c .ptr A = [42] := by intro A; cases c <;> rfl
      unfold raw at h
      by_cases hk : k = .ptr
      · by_cases hk' : k' = .ptr
        · subst hk hk'
          simp only [pp, Kind.isPtr, Bool.or_true, if_true, List.nil_append, List.append_assoc, List.cons_append] at h
          obtain ⟨e4, e5⟩ := raw_inj c rest h3 false rest' h3' nofun r r' hr hr' (List.cons.inj h).2
          have a1 : as = .nil := h1
          have a2 : as' = .nil := h1'
          subst a1 a2
          exact ⟨by unfold erase; rw [e4], e5⟩
        · subst hk
          simp [pp, np k' hk', Kind.isPtr] at h
      · by_cases hk' : k' = .ptr
        · subst hk'
          simp [pp, np k hk, Kind.isPtr] at h
        · simp only [np k hk, np k' hk', Bool.or_self, Bool.false_eq_true, if_false, List.append_assoc, List.cons_append, List.nil_append] at h
          exact main hk hk' (List.cons.inj (List.cons.inj h).2).2
theorem raws_inj (c : Compiler) (es : Ents) (ho : OkEnts es) (first : Bool) (es' : Ents) (ho' : OkEnts es') (d : Int)
    (r r' : List Int) (hd : d = 41 ∨ d = 62) (h : raws c first es ++ d :: r = raws c first es' ++ d :: r') : erases c es = erases c es' ∧ r = r' := by
  match es, es' with
  | .nil, .nil => exact ⟨rfl, by cases first <;> exact (List.cons.inj h).2⟩
  | .nil, .cons e' es' =>
    exfalso
    obtain ⟨h1', h2', h3'⟩ := ho'
    unfold raws at h
    cases first with
    | true =>
      simp only [if_true, List.nil_append, List.append_assoc] at h
      exact raw_head c e' h1' h2' _ (raws_stop c es' d r' hd) d r hd h
    | false => simp at h; omega
  | .cons e es, .nil =>
    exfalso
    obtain ⟨h1, h2, h3⟩ := ho
    unfold raws at h
    cases first with
    | true =>
      simp only [if_true, List.nil_append, List.append_assoc] at h
      exact raw_head c e h1 h2 _ (raws_stop c es d r hd) d r' hd h.symm
    | false => simp at h; omega
  | .cons e es, .cons e' es' =>
    obtain ⟨h1, h2, h3⟩ := ho
    obtain ⟨h1', h2', h3'⟩ := ho'
    have h' : raw c true e ++ (raws c false es ++ d :: r) = raw c true e' ++ (raws c false es' ++ d :: r') := by
      unfold raws at h
      cases first with
      | true => simpa only [if_true, List.nil_append, List.append_assoc] using h
      | false =>
        simp only [Bool.false_eq_true, if_false, List.append_assoc, List.cons_append, List.nil_append] at h
        exact (List.cons.inj (List.cons.inj h).2).2
    obtain ⟨e1, e2⟩ := raw_inj c e h2 true e' h2' (fun _ => ⟨h1, h1'⟩) _ _ (raws_stop c es d r hd) (raws_stop c es' d r' hd) h'
    obtain ⟨e3, e4⟩ := raws_inj c es h3 false es' h3' d r r' hd e2
    exact ⟨by unfold erases; rw [e1, e3], e4⟩
end

/-- The name tells what it should, and no more. -/
theorem name_eq_iff (c : Compiler) {t u : Ent} (ht : Ty t) (hu : Ty u) : name c t = name c u ↔ told c t = told c u := by
  unfold name
  rw [pEnt_raw c true t (.inl rfl), pEnt_raw c true u (.inl rfl)]
  constructor
  · intro h
    have ot := ok_told c t ht.2
    have ou := ok_told c u hu.2
    have := (raw_inj c _ ot.1 true _ ou.1 (fun _ => ⟨ot.2 ht.1, ou.2 hu.1⟩) [93] [93] (.inr (.inr (.inr rfl))) (.inr (.inr (.inr rfl))) h).1
    rwa [erase_told, erase_told] at this
  · intro h; rw [h]

mutual
theorem told_plain (c : Compiler) (e : Ent) (h : Plain c e) : told c e = e := by
  match e with
  | .nil => rfl
  | .cons k as rest =>
    obtain ⟨h1, h2, h3, h4, h5⟩ := h
    unfold told
    rw [if_neg (by
      rintro ⟨hc, hf⟩
      rw [h3 hc, Bool.false_or, noFn_plain c rest h5 hc] at hf; cases hf)]
    rw [told_plain c rest h5, toldAll_plain c as h4]
    cases k with
    | anon tu => exact absurd rfl (h1 tu)
    | lambda no p => exact absurd rfl (h2 no p)
    | _ => cases c <;> rfl
theorem noFn_plain (c : Compiler) (e : Ent) (h : Plain c e) (hc : c = .clang) : e.hasFn = false := by
  match e with
  | .nil => rfl
  | .cons k as rest =>
    obtain ⟨-, -, h3, -, h5⟩ := h
    unfold Ent.hasFn
    rw [h3 hc, noFn_plain c rest h5 hc]; rfl
theorem toldAll_plain (c : Compiler) (es : Ents) (h : PlainAll c es) : toldAll c es = es := by
  match es with
  | .nil => rfl
  | .cons e es =>
    obtain ⟨h1, h2⟩ := h
    unfold toldAll
    rw [told_plain c e h1, toldAll_plain c es h2]
end

mutual
theorem plain_told (e : Ent) (h : Plain .gcc (told .gcc e)) : Plain .gcc e := by
  match e with
  | .nil => trivial
  | .cons k as rest =>
    unfold told at h
    rw [if_neg (by rintro ⟨hc, -⟩; cases hc)] at h
    obtain ⟨h1, h2, -, h4, h5⟩ := h
    refine ⟨fun tu hk => ?_, fun no p hk => ?_, nofun, ?_, plain_told rest h5⟩
    · subst hk; exact h1 0 rfl
    · subst hk; exact h2 0 [] rfl
    · refine plainAll_told as ?_
      cases k <;> exact h4
theorem plainAll_told (es : Ents) (h : PlainAll .gcc (toldAll .gcc es)) : PlainAll .gcc es := by
  match es with
  | .nil => trivial
  | .cons e es => exact ⟨plain_told e h.1, plainAll_told es h.2⟩
end

end AnyAny.Names
