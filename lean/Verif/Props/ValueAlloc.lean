/-
C110: A value that uses allocators (a `std::pmr` container in an any with `std::pmr::polymorphic_allocator`) uses the allocator of its any, so it is usable while that allocator's resource exists.

Values are constructed so, but assignments between anys with unequal allocators, and the transmutating move constructor, break it.
-/
import Verif.Model.ValueAlloc

namespace AnyAny.ValueAlloc

/-! ## Specification -/

/-- Every value that uses an allocator uses the allocator of its any. -/
def Consistent (w : W) : Prop := ∀ a s v r, w.any a = some s → s.val = some v → v.res = some r → r = s.al

/-- Nothing exists, and every resource exists. -/
def start : W := ⟨fun _ => none, fun _ => false⟩

/-- What a user has to observe: constructors make new anys, with an allocator whose resource exists; the other operations are called for anys that exist; a resource that is an allocator of some any,
the default one, or one that copies of other allocators use, is not ended. -/
def Legal (c : Cfg) (w : W) : Op → Prop
  | .emptyCtor a al => w.any a = none ∧ w.dead al = false
  | .valueCtor a al _ _ => w.any a = none ∧ w.dead al = false
  | .emplace a _ _ => w.any a ≠ none
  | .copyCtor a o => w.any a = none ∧ w.any o ≠ none
  | .moveCtor a o => w.any a = none ∧ w.any o ≠ none
  | .transCtor a o => w.any a = none ∧ w.any o ≠ none
  | .moveAssign a o => w.any a ≠ none ∧ w.any o ≠ none
  | .copyAssign a o => w.any a ≠ none ∧ w.any o ≠ none
  | .destruct a => w.any a ≠ none
  | .reset a => w.any a ≠ none
  | .use a => ∃ s v, w.any a = some s ∧ s.val = some v
  | .endResource r => (∀ a s, w.any a = some s → s.al ≠ r) ∧ r ≠ c.dflt ∧ ∀ x, c.soccc x = r → x = r

/-- The value of the any, if there is one, uses no allocator. -/
def Plain (s : AnySt) : Prop := ∀ v, s.val = some v → v.res = none

/-- Assignments are between anys whose allocators agree in the end, or of values that use no allocator. -/
def Keeps (c : Cfg) (w : W) : Op → Prop
  | .moveAssign a o => ∀ s p, w.any a = some s → w.any o = some p → Plain p ∨ c.pocma = true ∨ s.al = p.al
  | .copyAssign a o => ∀ s p, w.any a = some s → w.any o = some p →
      Plain p ∨ c.pocma = true ∨ c.soccc p.al = (if c.pocca then p.al else s.al)
  | .transCtor _ o => ∀ p, w.any o = some p → Plain p ∨ p.al = c.dflt
  | _ => True

/-- The state after an operation that returned or threw. -/
def After (w' : W) : Res → Prop
  | .ok x => x = w'
  | .exn x => x = w'
  | _ => False

/-- States after histories of legal operations that keep the allocators together; calls in the operations throw or not. -/
inductive Reach (c : Cfg) : W → Prop
  | start : Reach c start
  | step {w w' : W} (op : Op) (fault : Option Nat) : Reach c w → Legal c w op → Keeps c w op → After w' (step c fault w op) → Reach c w'

/-- A history without exceptions. -/
def run (c : Cfg) : List Op → Res → Res
  | [], r => r
  | op :: l, .ok w => run c l (step c none w op)
  | _ :: _, r => r

/-! ## Invariant -/

/-- Allocators of anys are alive, and so are the default one and what copies of living ones are. -/
def Live (c : Cfg) (w : W) : Prop :=
  (∀ a s, w.any a = some s → w.dead s.al = false) ∧ w.dead c.dflt = false ∧ ∀ x, w.dead x = false → w.dead (c.soccc x) = false

theorem set_any (w : W) (a : Nat) (s : Option AnySt) (b : Nat) : (w.set a s).any b = if b = a then s else w.any b := rfl
theorem set_dead (w : W) (a : Nat) (s : Option AnySt) : (w.set a s).dead = w.dead := rfl

theorem usable_of (w : W) (s : AnySt) (h : ∀ v r, s.val = some v → v.res = some r → w.dead r = false) : w.usable s.val = true := by
  obtain ⟨al, val⟩ := s
  match val with
  | none => rfl
  | some ⟨_, none⟩ => rfl
  | some ⟨x, some r⟩ => simp [W.usable, h _ r rfl rfl]

theorem usable_inv {c : Cfg} {w : W} (hl : Live c w) (hc : Consistent w) {a : Nat} {s : AnySt} (h : w.any a = some s) : w.usable s.val = true :=
  usable_of w s fun v r hv hr => by rw [hc a s v r h hv hr]; exact hl.1 a s h

theorem usable_copied {c : Cfg} {w : W} (hl : Live c w) (hc : Consistent w) {a : Nat} {s : AnySt} (h : w.any a = some s) : w.usable (s.val.map (copied c)) = true := by
  have := usable_of w ⟨s.al, s.val.map (copied c)⟩ (by
    intro v r hv hr
    cases hs : s.val with
    | none => simp [hs] at hv
    | some u =>
      simp only [hs, Option.map_some, Option.some.injEq] at hv
      subst hv
      simp only [copied, Option.map_eq_some_iff] at hr
      obtain ⟨q, hq, rfl⟩ := hr
      rw [hc a s u q h hs hq]
      exact hl.2.2 _ (hl.1 a s h))
  exact this

theorem live_set {c : Cfg} {w : W} (hl : Live c w) (a : Nat) (s : Option AnySt) (h : ∀ t, s = some t → w.dead t.al = false) : Live c (w.set a s) := by
  refine ⟨fun b t hb => ?_, hl.2.1, hl.2.2⟩
  rw [set_any] at hb
  by_cases hba : b = a
  · rw [if_pos hba] at hb; exact h t hb
  · rw [if_neg hba] at hb; exact hl.1 b t hb

theorem cons_set {w : W} (hc : Consistent w) (a : Nat) (s : Option AnySt) (h : ∀ t v r, s = some t → t.val = some v → v.res = some r → r = t.al) : Consistent (w.set a s) := by
  intro b t v r hb
  rw [set_any] at hb
  by_cases hba : b = a
  · rw [if_pos hba] at hb; exact h t v r hb
  · rw [if_neg hba] at hb; exact hc b t v r hb

theorem made_res {c : Cfg} {t : Ty} {al v r : Nat} (h : (made c t al v).res = some r) : r = al := by
  unfold made at h
  cases hq : c.constructs && t.aware <;> rw [hq] at h <;> simp at h
  exact h.symm

theorem copied_res {c : Cfg} {s : AnySt} {v : Val} {r : Nat} (hs : ∀ u q, s.val = some u → u.res = some q → q = s.al) (h : s.val.map (copied c) = some v) (hr : v.res = some r) :
    r = c.soccc s.al := by
  cases hv : s.val with
  | none => simp [hv] at h
  | some u =>
    simp only [hv, Option.map_some, Option.some.injEq] at h
    subst h
    simp only [copied, Option.map_eq_some_iff] at hr
    obtain ⟨q, hq, rfl⟩ := hr
    rw [hs u q hv hq]

theorem plain_copied {c : Cfg} {s : AnySt} {v : Val} (hp : Plain s) (h : s.val.map (copied c) = some v) : v.res = none := by
  cases hv : s.val with
  | none => simp [hv] at h
  | some u =>
    simp only [hv, Option.map_some, Option.some.injEq] at h
    subst h
    simp [copied, hp u hv]

theorem construct_after {c : Cfg} {t : Ty} {al : Nat} {f : Option Nat} {d l w' : W} (h : After w' (construct c t al f d l)) : w' = d ∨ w' = l := by
  unfold construct at h
  split at h
  · exact h.elim
  · split at h
    · exact Or.inr h.symm
    · split at h
      · split at h
        · exact h.elim
        · exact Or.inr h.symm
      · exact Or.inl h.symm

theorem construct_ub {c : Cfg} {t : Ty} {al : Nat} {f : Option Nat} {d l : W} (h : l.dead al = false) : construct c t al f d l ≠ .ub := by
  unfold construct
  rw [h]
  simp only [Bool.false_eq_true, if_false]
  split
  · simp
  · split
    · split <;> simp
    · simp

/-- Every legal operation, kept together or not, has defined behaviour in consistent states. -/
theorem step_ne_ub {c : Cfg} {w : W} (hl : Live c w) (hc : Consistent w) (op : Op) (f : Option Nat) (h : Legal c w op) : step c f w op ≠ .ub := by
  cases op with
  | emptyCtor a al => simp [step, emptyCtor, h.1]
  | valueCtor a al t v => simp only [step, valueCtor, h.1]; exact construct_ub h.2
  | emplace a t v =>
    cases ha : w.any a with
    | none => exact absurd ha h
    | some s =>
      simp only [step, emplace, ha, usable_inv hl hc ha, if_true]
      exact construct_ub (hl.1 a s ha)
  | copyCtor a o =>
    cases ho : w.any o with
    | none => exact absurd ho h.2
    | some s =>
      simp only [step, copyCtor, h.1, ho, usable_inv hl hc ho, usable_copied hl hc ho, if_true]
      split <;> simp
  | moveCtor a o =>
    cases ho : w.any o with
    | none => exact absurd ho h.2
    | some s => simp [step, moveCtor, h.1, ho, usable_inv hl hc ho]
  | transCtor a o =>
    cases ho : w.any o with
    | none => exact absurd ho h.2
    | some s => simp [step, transCtor, h.1, ho, usable_inv hl hc ho]
  | moveAssign a o =>
    cases ha : w.any a with
    | none => exact absurd ha h.1
    | some s =>
      cases ho : w.any o with
      | none => exact absurd ho h.2
      | some p =>
        simp only [step, moveAssign, ha, ho, usable_inv hl hc ha, usable_inv hl hc ho, Bool.and_self, if_true]
        split
        · simp
        · split
          · simp
          · split <;> simp
  | copyAssign a o =>
    cases ha : w.any a with
    | none => exact absurd ha h.1
    | some s =>
      cases ho : w.any o with
      | none => exact absurd ho h.2
      | some p =>
        simp only [step, copyAssign, ha, ho, usable_inv hl hc ha, usable_inv hl hc ho, usable_copied hl hc ho, Bool.and_self, if_true]
        generalize (if c.pocca = true then p.al else s.al) = al
        split
        · simp
        · split
          · simp
          · split <;> simp
  | destruct a =>
    cases ha : w.any a with
    | none => exact absurd ha h
    | some s => simp [step, destruct, ha, usable_inv hl hc ha]
  | reset a =>
    cases ha : w.any a with
    | none => exact absurd ha h
    | some s => simp [step, reset, ha, usable_inv hl hc ha]
  | use a =>
    obtain ⟨s, v, ha, hv⟩ := h
    have := usable_inv hl hc ha
    obtain ⟨al, val⟩ := s
    simp only at hv
    subst hv
    simp [step, useVal, ha, this]
  | endResource r => simp [step, endResource]

/-- The operations that keep allocators together keep the invariant. -/
theorem step_inv {c : Cfg} {w w' : W} (hl : Live c w) (hc : Consistent w) (op : Op) (f : Option Nat) (h : Legal c w op) (hk : Keeps c w op) (ha' : After w' (step c f w op)) :
    Live c w' ∧ Consistent w' := by
  cases op with
  | emptyCtor a al =>
    simp only [step, emptyCtor, h.1] at ha'
    subst ha'
    exact ⟨live_set hl _ _ (by rintro t ⟨⟩; exact h.2), cons_set hc _ _ (by rintro t v r ⟨⟩ hv; cases hv)⟩
  | valueCtor a al t v =>
    simp only [step, valueCtor, h.1] at ha'
    rcases construct_after ha' with rfl | rfl
    · exact ⟨live_set hl _ _ (by rintro t ⟨⟩; exact h.2), cons_set hc _ _ (by rintro t v r ⟨⟩ hv hr; cases hv; exact made_res hr)⟩
    · exact ⟨hl, hc⟩
  | emplace a t v =>
    cases ha : w.any a with
    | none => exact absurd ha h
    | some s =>
      simp only [step, emplace, ha, usable_inv hl hc ha, if_true] at ha'
      rcases construct_after ha' with rfl | rfl
      · exact ⟨live_set hl _ _ (by rintro t ⟨⟩; exact hl.1 a s ha), cons_set hc _ _ (by rintro t v r ⟨⟩ hv hr; cases hv; exact made_res hr)⟩
      · exact ⟨live_set hl _ _ (by rintro t ⟨⟩; exact hl.1 a s ha), cons_set hc _ _ (by rintro t v r ⟨⟩ hv; cases hv)⟩
  | copyCtor a o =>
    cases ho : w.any o with
    | none => exact absurd ho h.2
    | some s =>
      simp only [step, copyCtor, h.1, ho, usable_inv hl hc ho, usable_copied hl hc ho, if_true] at ha'
      split at ha'
      · subst ha'; exact ⟨hl, hc⟩
      · subst ha'
        exact ⟨live_set hl _ _ (by rintro t ⟨⟩; exact hl.2.2 _ (hl.1 o s ho)),
          cons_set hc _ _ (by rintro t v r ⟨⟩ hv hr; exact copied_res (fun u q => hc o s u q ho) hv hr)⟩
  | moveCtor a o =>
    cases ho : w.any o with
    | none => exact absurd ho h.2
    | some s =>
      simp only [step, moveCtor, h.1, ho, usable_inv hl hc ho, if_true] at ha'
      subst ha'
      refine ⟨live_set (live_set hl _ _ ?_) _ _ ?_, cons_set (cons_set hc _ _ ?_) _ _ ?_⟩
      · rintro t ⟨⟩; exact hl.1 o s ho
      · rintro t ⟨⟩; exact hl.1 o s ho
      · rintro t v r ⟨⟩ hv; cases hv
      · rintro t v r ⟨⟩ hv hr; exact hc o s v r ho hv hr
  | transCtor a o =>
    cases ho : w.any o with
    | none => exact absurd ho h.2
    | some s =>
      simp only [step, transCtor, h.1, ho, usable_inv hl hc ho, if_true] at ha'
      subst ha'
      refine ⟨live_set (live_set hl _ _ ?_) _ _ ?_, cons_set (cons_set hc _ _ ?_) _ _ ?_⟩
      · rintro t ⟨⟩; exact hl.1 o s ho
      · rintro t ⟨⟩; exact hl.2.1
      · rintro t v r ⟨⟩ hv; cases hv
      · rintro t v r ⟨⟩ hv hr
        rcases hk s ho with hp | hd
        · rw [hp v hv] at hr; cases hr
        · exact (hc o s v r ho hv hr).trans hd
  | moveAssign a o =>
    cases ha : w.any a with
    | none => exact absurd ha h.1
    | some s =>
      cases ho : w.any o with
      | none => exact absurd ho h.2
      | some p =>
        simp only [step, moveAssign, ha, ho, usable_inv hl hc ha, usable_inv hl hc ho, Bool.and_self, if_true] at ha'
        have hk := hk s p ha ho
        have hpa := hl.1 o p ho
        have hsa := hl.1 a s ha
        split at ha'
        · subst ha'; exact ⟨hl, hc⟩
        · split at ha'
          · subst ha'
            refine ⟨live_set (live_set hl _ _ ?_) _ _ ?_, cons_set (cons_set hc _ _ ?_) _ _ ?_⟩
            · rintro t ⟨⟩; exact hpa
            · rintro t ⟨⟩; exact hpa
            · rintro t v r ⟨⟩ hv; cases hv
            · rintro t v r ⟨⟩ hv hr; exact hc o p v r ho hv hr
          · rename_i hm
            split at ha'
            · subst ha'
              exact ⟨live_set hl _ _ (by rintro t ⟨⟩; exact hsa), cons_set hc _ _ (by rintro t v r ⟨⟩ hv; cases hv)⟩
            · subst ha'
              refine ⟨live_set (live_set hl _ _ ?_) _ _ ?_, cons_set (cons_set hc _ _ ?_) _ _ ?_⟩
              · rintro t ⟨⟩; exact hpa
              · rintro t ⟨⟩; exact hsa
              · rintro t v r ⟨⟩ hv; cases hv
              · rintro t v r ⟨⟩ hv hr
                rcases hk with hp | hp | he
                · rw [hp v hv] at hr; cases hr
                · exact absurd hp hm
                · exact (hc o p v r ho hv hr).trans he.symm
  | copyAssign a o =>
    cases ha : w.any a with
    | none => exact absurd ha h.1
    | some s =>
      cases ho : w.any o with
      | none => exact absurd ho h.2
      | some p =>
        simp only [step, copyAssign, ha, ho, usable_inv hl hc ha, usable_inv hl hc ho, usable_copied hl hc ho, Bool.and_self, if_true] at ha'
        have hk := hk s p ha ho
        have hpa := hl.1 o p ho
        have hsa := hl.1 a s ha
        have hal : w.dead (if c.pocca then p.al else s.al) = false := by split <;> assumption
        generalize (if c.pocca = true then p.al else s.al) = al at ha' hk hal
        split at ha'
        · subst ha'; exact ⟨hl, hc⟩
        · split at ha'
          · subst ha'
            exact ⟨live_set hl _ _ (by rintro t ⟨⟩; exact hl.2.2 _ hpa),
              cons_set hc _ _ (by rintro t v r ⟨⟩ hv hr; exact copied_res (fun u q => hc o p u q ho) hv hr)⟩
          · rename_i hm
            split at ha'
            · subst ha'
              exact ⟨live_set hl _ _ (by rintro t ⟨⟩; exact hal), cons_set hc _ _ (by rintro t v r ⟨⟩ hv; cases hv)⟩
            · subst ha'
              refine ⟨live_set hl _ _ (by rintro t ⟨⟩; exact hal), cons_set hc _ _ ?_⟩
              rintro t v r ⟨⟩ hv hr
              rcases hk with hp | hp | he
              · rw [plain_copied hp hv] at hr; cases hr
              · exact absurd hp hm
              · exact (copied_res (fun u q => hc o p u q ho) hv hr).trans he
  | destruct a =>
    cases ha : w.any a with
    | none => exact absurd ha h
    | some s =>
      simp only [step, destruct, ha, usable_inv hl hc ha, if_true] at ha'
      subst ha'
      exact ⟨live_set hl _ _ (by rintro t ⟨⟩), cons_set hc _ _ (by rintro t v r ⟨⟩)⟩
  | reset a =>
    cases ha : w.any a with
    | none => exact absurd ha h
    | some s =>
      simp only [step, reset, ha, usable_inv hl hc ha, if_true] at ha'
      subst ha'
      exact ⟨live_set hl _ _ (by rintro t ⟨⟩; exact hl.1 a s ha), cons_set hc _ _ (by rintro t v r ⟨⟩ hv; cases hv)⟩
  | use a =>
    obtain ⟨s, v, ha, hv⟩ := h
    have hu := usable_inv hl hc ha
    obtain ⟨al, val⟩ := s
    simp only at hv
    subst hv
    simp only [step, useVal, ha, hu, if_true] at ha'
    subst ha'
    exact ⟨hl, hc⟩
  | endResource r =>
    simp only [step, endResource] at ha'
    subst ha'
    obtain ⟨h1, h2, h3⟩ := h
    refine ⟨⟨fun a s hs => ?_, ?_, fun x hx => ?_⟩, hc⟩
    · simp only [if_neg (h1 a s hs)]; exact hl.1 a s hs
    · simp only [if_neg (Ne.symm h2)]; exact hl.2.1
    · simp only at hx ⊢
      by_cases hxr : x = r
      · simp [hxr] at hx
      · rw [if_neg hxr] at hx
        rw [if_neg (fun e => hxr (h3 x e))]
        exact hl.2.2 x hx

theorem reach_inv {c : Cfg} {w : W} (h : Reach c w) : Live c w ∧ Consistent w := by
  induction h with
  | start => exact ⟨⟨fun _ _ h => by simp [start] at h, rfl, fun _ _ => rfl⟩, fun _ _ _ _ h => by simp [start] at h⟩
  | step op f _ hl hk ha ih => exact step_inv ih.1 ih.2 op f hl hk ha

/-! ## Theorems -/

/-- C110: a value that is emplaced in an any, or that an any is constructed from, uses the allocator of the any if the allocator passes itself on and the type uses allocators; the allocator of the any
stays what it was, or is the one given to the constructor. -/
theorem C110_made (c : Cfg) (w w' : W) (a : Nat) (t : Ty) (v : Nat) (f : Option Nat) :
    (∀ s, w.any a = some s → step c f w (.emplace a t v) = .ok w' → w'.any a = some ⟨s.al, some ⟨v, if c.constructs && t.aware then some s.al else none⟩⟩) ∧
    (∀ al, step c f w (.valueCtor a al t v) = .ok w' → w'.any a = some ⟨al, some ⟨v, if c.constructs && t.aware then some al else none⟩⟩) := by
  have key : ∀ al d l, construct c t al f d l = .ok w' → w' = d := by
    intro al d l h
    unfold construct at h
    split at h
    · cases h
    · split at h
      · cases h
      · split at h
        · split at h <;> cases h
        · cases h; rfl
  constructor
  · intro s hs h
    simp only [step, emplace, hs] at h
    split at h
    · rw [key _ _ _ h, set_any, if_pos rfl]; rfl
    · cases h
  · intro al h
    simp only [step, valueCtor] at h
    split at h
    · cases h
    · rw [key _ _ _ h, set_any, if_pos rfl]; rfl

/-- C110 (partial): in histories of legal operations, with exceptions anywhere, whose assignments (and transmutating moves) are between anys whose allocators agree or are propagated, or of values without
allocators, every value uses the allocator of its any, in every state; and no legal operation, an assignment or not, touches a value whose resource does not exist any more. Missing: the other
assignments, see `C110_move_fails` and `C110_copy_fails`. -/
theorem C110_partial (c : Cfg) (w : W) (h : Reach c w) :
    (∀ a s v r, w.any a = some s → s.val = some v → v.res = some r → r = s.al) ∧ ∀ op f, Legal c w op → step c f w op ≠ .ub :=
  ⟨(reach_inv h).2, fun op f hl => step_ne_ub (reach_inv h).1 (reach_inv h).2 op f hl⟩

/-- C110, moves that throw: only those between anys with different allocators, if the allocator is not moved along, of an any with a value; the any assigned to is then empty, with its allocator,
and all others are what they were. -/
theorem C110_move_throws (c : Cfg) (w w' : W) (a o : Nat) (f : Option Nat) (h : step c f w (.moveAssign a o) = .exn w') :
    ∃ s p, w.any a = some s ∧ w.any o = some p ∧ a ≠ o ∧ c.pocma = false ∧ s.al ≠ p.al ∧ p.val ≠ none ∧ f ≠ none ∧
      w'.any a = some ⟨s.al, none⟩ ∧ w'.dead = w.dead ∧ ∀ b, b ≠ a → w'.any b = w.any b := by
  simp only [step, moveAssign] at h
  split at h
  · rename_i s p hs ho
    split at h
    · cases h
    · rename_i hne
      split at h
      · split at h
        · cases h
        · rename_i hm
          split at h
          · rename_i hf
            cases h
            simp only [Bool.and_eq_true, bne_iff_ne] at hf
            refine ⟨s, p, hs, ho, hne, by simpa using hm, hf.1.2, ?_, ?_, by simp [set_any], rfl, fun b hb => by rw [set_any, if_neg hb]⟩
            · intro e; simp [e] at hf
            · intro e; simp [e] at hf
          · cases h
      · cases h
  · cases h

/-- When an operation throws and what it leaves behind: `f = some 0` is the first thing in it that can fail (allocation, or the copy), `f = some 1` the second one. `w'`: the state afterwards. -/
def Throws (c : Cfg) (f : Option Nat) (w w' : W) : Op → Prop
  | .emplace a t _ => ((f = some 0 ∧ t.small = false) ∨ (f = some 1 ∧ t.nothrow = false ∧ (c.constructs = true → t.aware = true → t.nothrowAlloc = false))) ∧
      ∃ s, w.any a = some s ∧ w' = w.set a (some ⟨s.al, none⟩)
  | .valueCtor _ _ t _ => ((f = some 0 ∧ t.small = false) ∨ (f = some 1 ∧ t.nothrow = false ∧ (c.constructs = true → t.aware = true → t.nothrowAlloc = false))) ∧ w' = w
  | .copyCtor _ o => f ≠ none ∧ (∃ p v, w.any o = some p ∧ p.val = some v) ∧ w' = w
  | .moveAssign a o => f ≠ none ∧ a ≠ o ∧ c.pocma = false ∧
      ∃ s p v, w.any a = some s ∧ w.any o = some p ∧ p.val = some v ∧ s.al ≠ p.al ∧ w' = w.set a (some ⟨s.al, none⟩)
  | .copyAssign a o => ∃ s p v, w.any a = some s ∧ w.any o = some p ∧ p.val = some v ∧
      ((f = some 0 ∧ w' = w) ∨
       (f = some 1 ∧ c.pocma = false ∧ (if c.pocca then p.al else s.al) ≠ c.soccc p.al ∧ w' = w.set a (some ⟨if c.pocca then p.al else s.al, none⟩)))
  | _ => False

private theorem exn_iff (x w' : W) : Res.exn x = .exn w' ↔ w' = x := ⟨fun h => by cases h; rfl, fun h => by rw [h]⟩

/-- C110, exceptions: in every state, an operation throws exactly when something in it that is needed fails, and then the any it is for is as it was or empty, with the
allocator it has, and no other any is changed. -/
theorem C110_throws (c : Cfg) (w w' : W) (h : Reach c w) (op : Op) (f : Option Nat) (hl : Legal c w op) :
    step c f w op = .exn w' ↔ Throws c f w w' op := by
  obtain ⟨hi, hc⟩ := reach_inv h
  have key : ∀ t al d l, l.dead al = false → (construct c t al f d l = .exn w' ↔
      ((f = some 0 ∧ t.small = false) ∨ (f = some 1 ∧ t.nothrow = false ∧ (c.constructs = true → t.aware = true → t.nothrowAlloc = false))) ∧ w' = l) := by
    intro t al d l hd
    obtain ⟨ta, tn, tna, ts⟩ := t
    simp only [construct, hd, mayThrow, Bool.false_eq_true, if_false]
    by_cases h0 : f = some 0
    · subst h0
      cases ts <;> simp [exn_iff, -Res.exn.injEq]
    · by_cases h1 : f = some 1
      · subst h1
        cases hcc : c.constructs <;> cases ta <;> cases tn <;> cases tna <;> simp [exn_iff, -Res.exn.injEq]
      · simp [h0, h1]
  cases op with
  | emptyCtor a al => simp [step, emptyCtor, hl.1, Throws]
  | valueCtor a al t v =>
    simp only [step, valueCtor, hl.1, Throws]
    exact key t al _ w hl.2
  | emplace a t v =>
    cases hs : w.any a with
    | none => exact absurd hs hl
    | some s =>
      simp only [step, emplace, hs, usable_inv hi hc hs, if_true, Throws]
      rw [key t s.al _ (w.set a (some ⟨s.al, none⟩)) (hi.1 a s hs)]
      simp
  | copyCtor a o =>
    cases ho : w.any o with
    | none => exact absurd ho hl.2
    | some p =>
      simp only [step, copyCtor, hl.1, ho, usable_inv hi hc ho, usable_copied hi hc ho, if_true, Throws]
      cases hv : p.val <;> cases f <;> simp [hv, exn_iff, -Res.exn.injEq]
  | moveCtor a o =>
    cases ho : w.any o with
    | none => exact absurd ho hl.2
    | some p => simp [step, moveCtor, hl.1, ho, usable_inv hi hc ho, Throws]
  | transCtor a o =>
    cases ho : w.any o with
    | none => exact absurd ho hl.2
    | some p => simp [step, transCtor, hl.1, ho, usable_inv hi hc ho, Throws]
  | moveAssign a o =>
    cases hs : w.any a with
    | none => exact absurd hs hl.1
    | some s =>
      cases ho : w.any o with
      | none => exact absurd ho hl.2
      | some p =>
        simp only [step, moveAssign, hs, ho, usable_inv hi hc hs, usable_inv hi hc ho, Throws, Bool.and_self, if_true]
        by_cases hao : a = o
        · simp [hao]
        · by_cases hm : c.pocma = true
          · simp [hao, hm]
          · by_cases hal : s.al = p.al
            · simp [hao, hm, hal]
            · cases hv : p.val <;> cases f <;> simp [hao, hm, hal, hv, exn_iff, -Res.exn.injEq]
  | copyAssign a o =>
    cases hs : w.any a with
    | none => exact absurd hs hl.1
    | some s =>
      cases ho : w.any o with
      | none => exact absurd ho hl.2
      | some p =>
        simp only [step, copyAssign, hs, ho, usable_inv hi hc hs, usable_inv hi hc ho, usable_copied hi hc ho, Throws, Bool.and_self, if_true]
        cases hv : p.val with
        | none => by_cases hm : c.pocma = true <;> simp [hm, hv]
        | some v =>
          by_cases h0 : f = some 0
          · subst h0; simp [hv, exn_iff, -Res.exn.injEq]
          · by_cases hm : c.pocma = true
            · simp [h0, hm]
            · by_cases h1 : f = some 1
              · subst h1
                by_cases hal : (if c.pocca = true then p.al else s.al) = c.soccc p.al
                · simp [hm, hal, hv]
                · simp [hm, hal, hv, exn_iff, -Res.exn.injEq]
              · simp [h0, h1, hm]
  | destruct a =>
    cases hs : w.any a with
    | none => exact absurd hs hl
    | some s => simp [step, destruct, hs, usable_inv hi hc hs, Throws]
  | reset a =>
    cases hs : w.any a with
    | none => exact absurd hs hl
    | some s => simp [step, reset, hs, usable_inv hi hc hs, Throws]
  | use a =>
    obtain ⟨s, v, hs, hv⟩ := hl
    obtain ⟨al, val⟩ := s
    simp only at hv
    subst hv
    have := usable_inv hi hc hs
    simp only [step, useVal, hs, Throws]
    rw [if_pos this]
    simp
  | endResource r => simp [step, endResource, Throws]

theorem not_plain {s : AnySt} (h : ¬Plain s) : ∃ v r, s.val = some v ∧ v.res = some r := by
  obtain ⟨al, val⟩ := s
  match val with
  | none => exact absurd (fun _ h => by cases h) h
  | some ⟨x, none⟩ => exact absurd (fun _ h => by cases h; rfl) h
  | some ⟨x, some r⟩ => exact ⟨_, r, rfl, rfl⟩

/-- Success of an operation. -/
theorem ok_of_set {w w' : W} (h : Res.ok w = .ok w') : w' = w := by cases h; rfl

/-- C110: exactly the assignments and transmutating moves in `Keeps` leave the value with the allocator of its any, in every state that can be reached. -/
theorem C110_exact (c : Cfg) (w w' : W) (h : Reach c w) (op : Op) (f : Option Nat) (hl : Legal c w op) (ha : step c f w op = .ok w') : Consistent w' ↔ Keeps c w op := by
  obtain ⟨hi, hc⟩ := reach_inv h
  refine ⟨fun hc' => ?_, fun hk => (step_inv hi hc op f hl hk (by rw [ha]; rfl)).2⟩
  cases op with
  | transCtor a o =>
    intro p ho
    simp only [step, transCtor, hl.1, ho, usable_inv hi hc ho, if_true] at ha
    have hw := ok_of_set ha
    subst hw
    by_cases hp : Plain p
    · exact Or.inl hp
    · refine Or.inr ?_
      obtain ⟨v, r, hv, hr⟩ := not_plain hp
      have h1 := hc' a ⟨c.dflt, p.val⟩ v r (by rw [set_any, if_pos rfl]) hv hr
      rw [← hc o p v r ho hv hr]; exact h1
  | moveAssign a o =>
    intro s p hs ho
    simp only [step, moveAssign, hs, ho, usable_inv hi hc hs, usable_inv hi hc ho, Bool.and_self, if_true] at ha
    by_cases hao : a = o
    · subst hao; rw [hs] at ho; cases ho; exact Or.inr (Or.inr rfl)
    rw [if_neg hao] at ha
    by_cases hm : c.pocma = true
    · exact Or.inr (Or.inl hm)
    rw [if_neg hm] at ha
    split at ha
    · cases ha
    have hw := ok_of_set ha
    subst hw
    by_cases hp : Plain p
    · exact Or.inl hp
    · refine Or.inr (Or.inr ?_)
      obtain ⟨v, r, hv, hr⟩ := not_plain hp
      have h1 := hc' a ⟨s.al, p.val⟩ v r (by rw [set_any, if_pos rfl]) hv hr
      rw [← hc o p v r ho hv hr]; exact h1.symm
  | copyAssign a o =>
    intro s p hs ho
    simp only [step, copyAssign, hs, ho, usable_inv hi hc hs, usable_inv hi hc ho, usable_copied hi hc ho, Bool.and_self, if_true] at ha
    generalize (if c.pocca = true then p.al else s.al) = al at ha ⊢
    split at ha
    · cases ha
    by_cases hm : c.pocma = true
    · exact Or.inr (Or.inl hm)
    rw [if_neg hm] at ha
    split at ha
    · cases ha
    have hw := ok_of_set ha
    subst hw
    by_cases hp : Plain p
    · exact Or.inl hp
    · refine Or.inr (Or.inr ?_)
      obtain ⟨v, r, hv, hr⟩ := not_plain hp
      have h1 := hc' a ⟨al, p.val.map (copied c)⟩ (copied c v) (c.soccc r) (by rw [set_any, if_pos rfl]) (by simp [hv]) (by simp [copied, hr])
      rw [← hc o p v r ho hv hr]; exact h1
  | _ => trivial

/-- C110 (fails): after `a = std::move(o)` with unequal allocators that are not propagated, the value in `a` uses the allocator `o` had, not the one of `a`: once `o` is destroyed and its resource, which no other any
uses, has ended, destroying `a` (or using its value) is undefined behaviour. `std::pmr` containers move their elements to the allocator of the target. -/
theorem C110_move_fails (c : Cfg) (w : W) (h : Reach c w) (a o : Nat) (s p : AnySt) (v : Val) (hs : w.any a = some s) (ho : w.any o = some p) (hv : p.val = some v) (hr : v.res = some p.al)
    (hm : c.pocma = false) (hne : s.al ≠ p.al) (hon : ∀ b t, w.any b = some t → t.al = p.al → b = o) (hd : p.al ≠ c.dflt) (hx : ∀ x, c.soccc x = p.al → x = p.al) :
    ∃ w1 w2 w3, step c none w (.moveAssign a o) = .ok w1 ∧ w1.any a = some ⟨s.al, some v⟩ ∧
      step c none w1 (.destruct o) = .ok w2 ∧
      Legal c w2 (.endResource p.al) ∧ step c none w2 (.endResource p.al) = .ok w3 ∧
      Legal c w3 (.destruct a) ∧ step c none w3 (.destruct a) = .ub ∧ Legal c w3 (.use a) ∧ step c none w3 (.use a) = .ub := by
  obtain ⟨hi, hc⟩ := reach_inv h
  have hao : a ≠ o := by rintro rfl; rw [hs] at ho; cases ho; exact hne rfl
  let w1 := (w.set o (some ⟨p.al, none⟩)).set a (some ⟨s.al, p.val⟩)
  have e1o : w1.any o = some ⟨p.al, none⟩ := by simp [w1, set_any, Ne.symm hao]
  have e1a : w1.any a = some ⟨s.al, some v⟩ := by simp [w1, set_any, hv]
  let w2 := w1.set o none
  have e2a : w2.any a = some ⟨s.al, some v⟩ := by simp only [w2, set_any]; rw [if_neg hao]; exact e1a
  let w3 : W := { w2 with dead := fun q => if q = p.al then true else w2.dead q }
  have e3a : w3.any a = some ⟨s.al, some v⟩ := e2a
  have hu : w3.usable (some v) = false := by
    obtain ⟨x, r⟩ := v
    simp only at hr
    subst hr
    simp [W.usable, w3]
  refine ⟨w1, w2, w3, ?_, e1a, ?_, ⟨fun b t hb => ?_, hd, hx⟩, rfl, ?_, ?_, ⟨_, v, e3a, rfl⟩, ?_⟩
  · simp [step, moveAssign, hs, ho, usable_inv hi hc hs, usable_inv hi hc ho, hao, hm, w1]
  · simp [step, destruct, e1o, W.usable, w2]
  · simp only [w2, w1, set_any] at hb
    by_cases hbo : b = o
    · rw [if_pos hbo] at hb; cases hb
    · rw [if_neg hbo, if_neg hbo] at hb
      by_cases hba : b = a
      · rw [if_pos hba] at hb; cases hb; exact hne
      · rw [if_neg hba] at hb; exact fun e => hbo (hon b t hb e)
  · simp [Legal, e3a]
  · simp only [step, destruct, e3a, hu]; rfl
  · simp only [step, useVal, e3a, hu]; rfl

/-- C110 (fails): after `a = o` with allocators that are not propagated, the value in `a` uses what `select_on_container_copy_construction` makes of the allocator of `o` (for `std::pmr` the default
resource), whatever the allocator of `a` is. -/
theorem C110_copy_fails (c : Cfg) (w : W) (h : Reach c w) (a o : Nat) (s p : AnySt) (v : Val) (hs : w.any a = some s) (ho : w.any o = some p) (hv : p.val = some v) (hr : v.res = some p.al)
    (hm : c.pocma = false) (hp : c.pocca = false) :
    ∃ w1, step c none w (.copyAssign a o) = .ok w1 ∧ w1.any a = some ⟨s.al, some ⟨v.val, some (c.soccc p.al)⟩⟩ := by
  obtain ⟨hi, hc⟩ := reach_inv h
  refine ⟨w.set a (some ⟨s.al, p.val.map (copied c)⟩), ?_, ?_⟩
  · simp [step, copyAssign, hs, ho, usable_inv hi hc hs, usable_inv hi hc ho, usable_copied hi hc ho, hm, hp]
  · rw [set_any, if_pos rfl, hv]; simp [copied, hr]

/-- C110 (fails): `emplace` and the constructors are `noexcept` (and without a guard for allocated memory) if the type is nothrow constructible from the arguments, but the construction is from the arguments and
the allocator: if that throws, the program terminates. -/
theorem C110_terminates_fails (c : Cfg) (w : W) (h : Reach c w) (t : Ty) (hc : c.constructs = true) (ht : t.aware = true) (hn : t.nothrow = true) (ha : t.nothrowAlloc = false) (a v : Nat) :
    (∀ s, w.any a = some s → step c (some 1) w (.emplace a t v) = .term) ∧
    (w.any a = none → ∀ al, w.dead al = false → step c (some 1) w (.valueCtor a al t v) = .term) := by
  obtain ⟨hi, hcs⟩ := reach_inv h
  constructor
  · intro s hs
    simp [step, emplace, hs, usable_inv hi hcs hs, construct, set_dead, hi.1 a s hs, mayThrow, hc, ht, hn, ha]
  · intro hw al hal
    simp [step, valueCtor, hw, construct, hal, mayThrow, hc, ht, hn, ha]

/-- C110 (partial): the program never terminates if construction with the allocator does not throw when construction without it does not (always so with `std::allocator`). Missing: the other types, see
`C110_terminates_fails`. -/
theorem C110_terminates_partial (c : Cfg) (w : W) (op : Op) (f : Option Nat)
    (h : ∀ a t v, op = .emplace a t v → c.constructs = true → t.aware = true → t.nothrow = true → t.nothrowAlloc = true)
    (h' : ∀ a al t v, op = .valueCtor a al t v → c.constructs = true → t.aware = true → t.nothrow = true → t.nothrowAlloc = true) : step c f w op ≠ .term := by
  have key : ∀ t al d l, (c.constructs = true → t.aware = true → t.nothrow = true → t.nothrowAlloc = true) → construct c t al f d l ≠ .term := by
    intro t al d l hh
    have hm : t.nothrow = true → mayThrow c t = false := by
      intro hn
      unfold mayThrow
      by_cases h1 : (c.constructs && t.aware) = true
      · rw [if_pos h1]
        rw [Bool.and_eq_true] at h1
        simp [hh h1.1 h1.2 hn]
      · rw [if_neg h1, hn]; rfl
    unfold construct
    split
    · simp
    · split
      · simp
      · split
        · rename_i hq
          split
          · rename_i hn
            rw [hm hn] at hq
            exact absurd hq.2 (by decide)
          · simp
        · simp
  cases op <;> simp only [step, emptyCtor, valueCtor, emplace, copyCtor, moveCtor, transCtor, moveAssign, copyAssign, destruct, reset, useVal, endResource]
  case valueCtor a al t v => split <;> first | simp; done | exact key _ _ _ _ (h' a al t v rfl)
  case emplace a t v =>
    split
    · simp
    · split
      · exact key _ _ _ _ (h a t v rfl)
      · simp
  all_goals
    repeat' split
    all_goals simp

/-! ## Examples -/

/-- `std::pmr::polymorphic_allocator<std::byte>`: nothing is propagated, copies use the default resource (number 0). -/
def pmr : Cfg := ⟨false, false, fun _ => 0, 0, true⟩
/-- `std::pmr::list`: not nothrow constructible. -/
def pmrList : Ty := ⟨true, false, false, true⟩
/-- `std::pmr::string` from an rvalue: nothrow, but not with an allocator. -/
def pmrString : Ty := ⟨true, true, false, true⟩
/-- `int`. -/
def int : Ty := ⟨false, true, true, true⟩

/-- A list is emplaced in an any with resource 1, and moved to an any with resource 1: its allocator is still 1. -/
example : ∃ w, Reach pmr w ∧ w.any 1 = some ⟨1, some ⟨7, some 1⟩⟩ := by
  have r1 := Reach.step (c := pmr) (.emptyCtor 0 1) none .start ⟨rfl, rfl⟩ trivial rfl
  have r2 := Reach.step (.emplace 0 pmrList 7) none r1 (by simp [Legal]; decide) trivial rfl
  have r3 := Reach.step (.emptyCtor 1 1) none r2 ⟨by decide, rfl⟩ trivial rfl
  have r4 := Reach.step (.moveAssign 1 0) none r3 ⟨by decide, by decide⟩ (by
    intro s p hs hp
    refine Or.inr (Or.inr ?_)
    have e1 : some s = some ⟨1, none⟩ := hs.symm.trans rfl
    have e2 : some p = some ⟨1, some ⟨7, some 1⟩⟩ := hp.symm.trans rfl
    cases e1; cases e2; rfl) rfl
  exact ⟨_, r4, by decide⟩

/-- The case of `C110_move_fails`: the any moved to has resource 2; and of `C110_copy_fails`: the copy uses resource 0. -/
example : ∃ w, Reach pmr w ∧ w.any 0 = some ⟨1, some ⟨7, some 1⟩⟩ ∧ w.any 1 = some ⟨2, none⟩ ∧ pmr.pocma = false ∧ pmr.pocca = false ∧ (1 : Nat) ≠ pmr.dflt ∧ (∀ x, pmr.soccc x = 1 → x = 1) ∧
    ∀ b t, w.any b = some t → t.al = 1 → b = 0 := by
  have r1 := Reach.step (c := pmr) (.emptyCtor 0 1) none .start ⟨rfl, rfl⟩ trivial rfl
  have r2 := Reach.step (.emplace 0 pmrList 7) none r1 (by simp [Legal]; decide) trivial rfl
  have r3 := Reach.step (.emptyCtor 1 2) none r2 ⟨by decide, rfl⟩ trivial rfl
  refine ⟨_, r3, by decide, by decide, rfl, rfl, by decide, (fun x h => by cases h), ?_⟩
  intro b t hb ht
  simp only [set_any] at hb
  by_cases h1 : b = 1
  · rw [if_pos h1] at hb; cases hb; cases ht
  · rw [if_neg h1] at hb
    by_cases h0 : b = 0
    · exact h0
    · rw [if_neg h0, if_neg h0] at hb; cases hb

/-- Types for `C110_terminates_fails`, and for `C110_terminates_partial`. -/
example : pmr.constructs = true ∧ pmrString.aware = true ∧ pmrString.nothrow = true ∧ pmrString.nothrowAlloc = false ∧ int.aware = false := by decide

/-- A history that ends with undefined behaviour. -/
example : run pmr [.emptyCtor 0 1, .emplace 0 pmrList 7, .emptyCtor 1 2, .moveAssign 1 0, .destruct 0, .endResource 1, .use 1] (.ok start) = .ub := by rfl

/-- The allocation for the value of a new any fails. -/
example (c : Cfg) : Reach c start ∧ Legal c start (.valueCtor 0 1 ⟨false, false, false, false⟩ 5) ∧
    Throws c (some 0) start start (.valueCtor 0 1 ⟨false, false, false, false⟩ 5) := ⟨.start, ⟨rfl, rfl⟩, .inl ⟨rfl, rfl⟩, rfl⟩

end AnyAny.ValueAlloc
