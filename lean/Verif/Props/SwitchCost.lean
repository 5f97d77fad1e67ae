import Verif.Spec.SwitchCost
import Verif.Props.TypeSwitch
/-
Property C136: a `type_switch` compares types in order, stops at the first case that gives a result, and calls no function twice.
-/
namespace AnyAny.SwitchCost

theorem casesT_some (T i : Nat) (g : Option Nat) (ts : List Nat) (r : Nat) : casesT T i g ts (some r) = (some r, []) := by
  induction ts with
  | nil => rfl
  | cons t ts ih => simp [casesT, caseT, ih]

theorem switchT_some (T : Nat) (cs : List Case) : ∀ i r, switchT T i cs (some r) = (some r, []) := by
  induction cs with
  | nil => intro i r; rfl
  | cons c cs ih => intro i r; simp [switchT, casesT_some, ih]

theorem upTo_append (T : Nat) (es fs : List Entry) : upTo T (es ++ fs) = if es.any (·.decides T) then upTo T es else es ++ upTo T fs := by
  induction es with
  | nil => rfl
  | cons e es ih =>
    by_cases h : e.decides T = true
    · simp [upTo, h]
    · simp only [List.cons_append, upTo, h, if_false, Bool.false_eq_true, ih, List.any_cons, Bool.false_or]
      split <;> rfl

theorem upTo_none (T : Nat) (es : List Entry) (h : es.any (·.decides T) = false) : upTo T es = es := by
  have := upTo_append T es []
  rw [h] at this
  simpa [upTo] using this

theorem casesT_eq (T i : Nat) (g : Option Nat) (ts : List Nat) :
    casesT T i g ts none = (if T ∈ ts then g else none, (upTo T (ts.map (⟨·, i, g⟩))).flatMap (Entry.steps T)) := by
  induction ts with
  | nil => rfl
  | cons t ts ih =>
    by_cases he : T = t
    · subst he
      cases g with
      | none => simp [casesT, caseT, ih, upTo, Entry.decides, Entry.steps]
      | some r => simp [casesT, caseT, casesT_some, upTo, Entry.decides, Entry.steps]
    · have he' : ¬ t = T := fun h => he h.symm
      simp [casesT, caseT, he, he', ih, upTo, Entry.decides, Entry.steps]

theorem any_decides (T i : Nat) (g : Option Nat) (ts : List Nat) :
    (ts.map (fun t => (⟨t, i, g⟩ : Entry))).any (·.decides T) = (decide (T ∈ ts) && g.isSome) := by
  induction ts with
  | nil => rfl
  | cons t ts ih =>
    rw [List.map_cons, List.any_cons, ih]
    show ((t == T && g.isSome) || _) = _
    by_cases he : t = T
    · subst he; cases g <;> simp
    · have h1 : (t == T) = false := beq_false_of_ne he
      have h2 : decide (T ∈ t :: ts) = decide (T ∈ ts) := by
        rw [decide_eq_decide, List.mem_cons]
        exact ⟨fun h => h.resolve_left (fun h => he h.symm), .inr⟩
      rw [h1, h2, Bool.false_and, Bool.false_or]

theorem switchT_eq (T : Nat) (cs : List Case) : ∀ i,
    switchT T i cs none = (cs.findSome? (fun c => if T ∈ c.types then c.gives else none), (upTo T (entries i cs)).flatMap (Entry.steps T)) := by
  induction cs with
  | nil => intro i; rfl
  | cons c cs ih =>
    intro i
    simp only [switchT, casesT_eq, entries, upTo_append, any_decides, List.findSome?_cons]
    by_cases hT : T ∈ c.types
    · cases hg : c.gives with
      | some r => simp [hT, switchT_some]
      | none =>
        have := upTo_none T (c.types.map (⟨·, i, none⟩)) (by rw [any_decides]; simp)
        simp [hT, ih, this]
    · have := upTo_none T (c.types.map (⟨·, i, c.gives⟩)) (by rw [any_decides]; simp [hT])
      simp [hT, ih, this]

/-- **C136.** The steps of a switch are exactly those of the types up to the first that decides, in the order in which they are written; what is behind it costs nothing. -/
theorem C136_steps (T : Nat) (cs : List Case) : (switchT T 0 cs none).2 = (upTo T (entries 0 cs)).flatMap (Entry.steps T) := by
  rw [switchT_eq]

/-- **C136.** The result, as in C48: the first case with the type whose function returns something. -/
theorem C136_result (T : Nat) (cs : List Case) (d : Nat) :
    (switchT T 0 cs none).1 = cs.findSome? (fun c => if T ∈ c.types then c.gives else none) ∧
      (defaultT T cs d).1 = (cs.findSome? (fun c => if T ∈ c.types then c.gives else none)).getD d := by
  refine ⟨by rw [switchT_eq], ?_⟩
  unfold defaultT
  simp only [switchT_eq]
  cases cs.findSome? (fun c => if T ∈ c.types then c.gives else none) <;> rfl

/-- **C136.** These are the results of the model of C48: for a polymorphic object with a value of type `T`, whatever history it has. -/
theorem C136_model {cfg : Mem.Cfg} (C : Mem.CfgOk cfg) {w : Poly.PW} {S : Poly.SRefs} (h : Poly.Reach cfg w S) {x : Poly.Opd} {T : Nat} {a : Poly.Addr}
    (hx : Poly.Target w S x T a) (hm : Poly.HasDescr w S x) (cs : List Case) (cst : Bool) (d : Nat) :
    Poly.Returns w (Poly.typeSwitch cst x (cs.map fun c => (c.types, fun _ => pure c.gives)) (.value d)) (some (defaultT T cs d).1) ∧
      Poly.Returns w (Poly.typeSwitch cst x (cs.map fun c => (c.types, fun _ => pure c.gives)) .noDefault) (switchT T 0 cs none).1 := by
  have := Poly.C48_exact C h hx hm (cs.map fun c => (c.types, fun _ => c.gives)) cst d
  rw [(C136_result T cs d).1, (C136_result T cs d).2]
  simpa [List.map_map, Function.comp_def, List.findSome?_map] using this

theorem comparisons_steps (T : Nat) (es : List Entry) : comparisons (es.flatMap (Entry.steps T)) = es.length := by
  induction es with
  | nil => rfl
  | cons e es ih =>
    unfold comparisons at *
    rw [List.flatMap_cons, List.countP_append, ih, List.length_cons]
    unfold Entry.steps
    split <;> simp [List.countP_cons] <;> omega

theorem entries_length (cs : List Case) : ∀ i, (entries i cs).length = (cs.map (·.types.length)).sum := by
  induction cs with
  | nil => intro i; rfl
  | cons c cs ih => intro i; simp [entries, ih]

theorem upTo_length (T : Nat) (es : List Entry) : (upTo T es).length ≤ es.length := by
  induction es with
  | nil => exact Nat.le_refl _
  | cons e es ih => unfold upTo; split <;> simp <;> omega

/-- **C136.** The type of the value is asked for at most as often as types are written; for a type that is not there, exactly as often. -/
theorem C136_comparisons (T : Nat) (cs : List Case) :
    comparisons (switchT T 0 cs none).2 ≤ (cs.map (·.types.length)).sum ∧
      ((∀ c ∈ cs, T ∉ c.types) → comparisons (switchT T 0 cs none).2 = (cs.map (·.types.length)).sum) := by
  rw [C136_steps, comparisons_steps, ← entries_length cs 0]
  refine ⟨upTo_length _ _, fun h => ?_⟩
  have key : ∀ (cs : List Case) i, (∀ c ∈ cs, T ∉ c.types) → (entries i cs).any (·.decides T) = false := by
    intro cs
    induction cs with
    | nil => intro i _; rfl
    | cons c cs ih =>
      intro i h
      rw [entries, List.any_append, any_decides, ih (i + 1) (fun c' m => h c' (by simp [m]))]
      simp [h c (by simp)]
  rw [upTo_none T _ (key cs 0 h)]

/-- **C136.** Types of cases before the one that decides, and those before `T` in it, are compared once each; then the switch is over. -/
theorem C136_position (T : Nat) (pre post : List Case) (ts us : List Nat) (r : Nat) (hp : ∀ c ∈ pre, T ∉ c.types) (ht : T ∉ ts) :
    comparisons (switchT T 0 (pre ++ ⟨ts ++ T :: us, some r⟩ :: post) none).2 = (pre.map (·.types.length)).sum + ts.length + 1 ∧
      calls (switchT T 0 (pre ++ ⟨ts ++ T :: us, some r⟩ :: post) none).2 = 1 := by
  rw [C136_steps, comparisons_steps]
  have key : ∀ (pre : List Case) i, (∀ c ∈ pre, T ∉ c.types) →
      (upTo T (entries i (pre ++ ⟨ts ++ T :: us, some r⟩ :: post))).length = (pre.map (·.types.length)).sum + ts.length + 1 ∧
        calls ((upTo T (entries i (pre ++ ⟨ts ++ T :: us, some r⟩ :: post))).flatMap (Entry.steps T)) = 1 := by
    have skip : ∀ (ts : List Nat) (i : Nat) (g : Option Nat), T ∉ ts → calls ((ts.map (fun t => (⟨t, i, g⟩ : Entry))).flatMap (Entry.steps T)) = 0 := by
      intro ts i g h
      induction ts with
      | nil => rfl
      | cons t ts ih =>
        simp only [List.mem_cons, not_or] at h
        have h1 : ¬ t = T := fun e => h.1 e.symm
        have h2 := ih h.2
        unfold calls at *
        rw [List.map_cons, List.flatMap_cons, List.countP_append, h2]
        simp [Entry.steps, h1, List.countP_cons]
    intro pre
    induction pre with
    | nil =>
      intro i _
      have e : entries i ([] ++ ⟨ts ++ T :: us, some r⟩ :: post) =
          ts.map (⟨·, i, some r⟩) ++ (⟨T, i, some r⟩ :: (us.map (⟨·, i, some r⟩) ++ entries (i + 1) post)) := by simp [entries]
      have hu : upTo T (entries i ([] ++ ⟨ts ++ T :: us, some r⟩ :: post)) = ts.map (⟨·, i, some r⟩) ++ [⟨T, i, some r⟩] := by
        rw [e, upTo_append, any_decides]
        simp [ht, upTo, Entry.decides]
      rw [hu]
      refine ⟨by simp, ?_⟩
      have := skip ts i (some r) ht
      unfold calls at *
      rw [List.flatMap_append, List.countP_append, this]
      simp [Entry.steps, List.countP_cons]
    | cons c pre ih =>
      intro i h
      obtain ⟨h1, h2⟩ := ih (i + 1) (fun c' m => h c' (by simp [m]))
      have hc := h c (by simp)
      have hu : upTo T (entries i (c :: pre ++ ⟨ts ++ T :: us, some r⟩ :: post)) =
          c.types.map (⟨·, i, c.gives⟩) ++ upTo T (entries (i + 1) (pre ++ ⟨ts ++ T :: us, some r⟩ :: post)) := by
        rw [List.cons_append, entries, upTo_append, any_decides]
        simp [hc]
      rw [hu]
      refine ⟨by simp [h1]; omega, ?_⟩
      have := skip c.types i c.gives hc
      unfold calls at *
      rw [List.flatMap_append, List.countP_append, this, h2]
  exact key pre 0 hp

/-- **C136.** The function of a case is called at most once ("invokes count <= 1"), if its types are different (which `cases` checks); only if it lists the type. -/
theorem C136_once (T : Nat) (cs : List Case) (hn : ∀ c ∈ cs, c.types.Nodup) (k : Nat) :
    (switchT T 0 cs none).2.count (.call k) ≤ 1 ∧ ((switchT T 0 cs none).2.count (.call k) = 1 → ∃ c, cs[k]? = some c ∧ T ∈ c.types) := by
  have one : ∀ (ts : List Nat) (i : Nat) (g : Option Nat), ts.Nodup →
      (casesT T i g ts none).2.count (.call k) ≤ (if i = k ∧ T ∈ ts then 1 else 0) := by
    intro ts i g hn
    induction ts with
    | nil => simp [casesT]
    | cons t ts ih =>
      obtain ⟨hn1, hn2⟩ := List.nodup_cons.1 hn
      have := ih hn2
      by_cases he : T = t
      · subst he
        cases g with
        | none =>
          simp only [hn1, and_false, if_false] at this
          by_cases hk : i = k <;> simp [casesT, caseT, hk, List.count_cons] at this ⊢ <;> omega
        | some r => by_cases hk : i = k <;> simp [casesT, caseT, casesT_some, hk, List.count_cons]
      · simpa [casesT, caseT, he, List.count_cons] using this
  have key : ∀ (cs : List Case) (i : Nat) (res : Option Nat), (∀ c ∈ cs, c.types.Nodup) →
      (switchT T i cs res).2.count (.call k) ≤ (if i ≤ k ∧ ∃ c, cs[k - i]? = some c ∧ T ∈ c.types then 1 else 0) := by
    intro cs
    induction cs with
    | nil => intro i res _; simp [switchT]
    | cons c cs ih =>
      intro i res hn
      cases res with
      | some r => simp [switchT_some]
      | none =>
        have h1 := one c.types i c.gives (hn c (by simp))
        have h2 := ih (i + 1) (casesT T i c.gives c.types none).1 (fun c' m => hn c' (by simp [m]))
        simp only [switchT, List.count_append]
        by_cases hk : i = k
        · subst hk
          rw [if_neg (by omega)] at h2
          simp only [true_and] at h1
          have e : (i ≤ i ∧ ∃ c', (c :: cs)[i - i]? = some c' ∧ T ∈ c'.types) ↔ T ∈ c.types := by simp
          simp only [e]
          omega
        · rw [if_neg (by simp [hk])] at h1
          have e : (i ≤ k ∧ ∃ c', (c :: cs)[k - i]? = some c' ∧ T ∈ c'.types) ↔ (i + 1 ≤ k ∧ ∃ c', cs[k - (i + 1)]? = some c' ∧ T ∈ c'.types) := by
            constructor
            · rintro ⟨a, b⟩
              have : k - i = k - (i + 1) + 1 := by omega
              rw [this] at b
              exact ⟨by omega, by simpa using b⟩
            · rintro ⟨a, b⟩
              have : k - i = k - (i + 1) + 1 := by omega
              rw [this]
              exact ⟨by omega, by simpa using b⟩
          simp only [e]
          omega
  have h := key cs 0 none hn
  simp only [Nat.zero_le, true_and, Nat.sub_zero] at h
  split at h
  · rename_i hx; exact ⟨h, fun _ => hx⟩
  · exact ⟨by omega, fun e => by omega⟩

/-- **C136.** `default_(f)` calls `f` once if no case gives a result, and not at all otherwise. -/
theorem C136_default (T : Nat) (cs : List Case) (d : Nat) :
    (defaultT T cs d).2 = (switchT T 0 cs none).2 ++ (if ∃ c ∈ cs, T ∈ c.types ∧ c.gives.isSome then [] else [.default]) := by
  have e : (∃ c ∈ cs, T ∈ c.types ∧ c.gives.isSome) ↔ (switchT T 0 cs none).1 ≠ none := by
    rw [(C136_result T cs d).1]
    constructor
    · rintro ⟨c, hc, hT, hg⟩ h
      have := List.findSome?_eq_none_iff.1 h c hc
      rw [if_pos hT] at this
      rw [this] at hg
      cases hg
    · intro h
      obtain ⟨r, hr⟩ := Option.ne_none_iff_exists'.1 h
      obtain ⟨c, hc, h'⟩ := List.exists_of_findSome?_eq_some hr
      split at h'
      · rename_i hT; exact ⟨c, hc, hT, by rw [h']; rfl⟩
      · cases h'
  simp only [e]
  unfold defaultT
  simp only
  cases (switchT T 0 cs none).1 <;> simp

example : switchT 2 0 [⟨[1], some 5⟩, ⟨[3, 2, 4], some 6⟩, ⟨[2], some 7⟩] none = (some 6, [.compare 1, .compare 3, .compare 2, .call 1]) := by decide
-- a function that returns nullopt: the switch goes on
example : switchT 2 0 [⟨[2, 4], none⟩, ⟨[2], some 7⟩] none = (some 7, [.compare 2, .call 0, .compare 4, .compare 2, .call 1]) := by decide
example : (defaultT 9 [⟨[2, 4], none⟩, ⟨[2], some 7⟩] 1).2 = [.compare 2, .compare 4, .compare 2, .default] := by decide

end AnyAny.SwitchCost
