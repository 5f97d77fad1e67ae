import Verif.Spec.PolyHist
import Verif.Spec.AnyRun
import Verif.Lemmas.TypeList
/-
Executable client programs with references, for the examples beside the theorems. Legality of a
statement is checked by a program; only variables and any addresses below `N` are used.
-/
namespace AnyAny.Poly
open AnyAny.TypeList (hasSubsequence hasSubsequence_iff occurs_infix)
open AnyAny.Mem (Method Cfg World upd content addrOf)

def notLentB (N : Nat) (S : SRefs) (r : Nat) : Bool :=
  decide (r < N) && (List.range N).all fun n => match S n with
    | some s => decide (s.lender ≠ some r)
    | none => true

def convertsB (k : Kind) (ms : List Method) (s : SRef) : Bool :=
  match k, s.kind with
  | .polyRef, .polyRef | .constPolyRef, .constPolyRef | .constPolyRef, .polyRef
  | .polyPtr, .polyPtr | .constPolyPtr, .constPolyPtr | .constPolyPtr, .polyPtr => hasSubsequence ms s.ms
  | .ref, .polyRef | .ref, .ref
  | .cref, .polyRef | .cref, .constPolyRef | .cref, .ref | .cref, .cref => ms.all fun m => s.ms.contains m
  | _, _ => false

def liveB (N : Nat) (w : PW) (t : Nat) : Addr → Bool
  | .mem p => (List.range N).any fun a => decide (addrOf w.mem a = some p) &&
      match content w.mem a with
      | some o => o.ty == t
      | none => false
  | .var x => match w.vars x with
    | some (t', _) => t' == t
    | none => false

def legalB (cfg : Cfg) (N : Nat) (w : PW) (S : SRefs) : Op → Bool
  | .newVar .. | .dropVar .. => true
  | .mem op => decide (Mem.Legal cfg w.mem op)
  | .ofVar r _ _ x => notLentB N S r && (w.vars x).isSome
  | .ofAny r k ms a => notLentB N S r && k.isPtr && match a with
    | none => true
    | some a' => match Mem.snap w.mem a' with
      | some s => hasSubsequence ms s.ms
      | none => false
  | .ofNullT r k _ _ | .ofNull r k _ => notLentB N S r && k.isPtr
  | .conv r k ms src => notLentB N S r && match S src with
    | some s => convertsB k ms s
    | none => false
  | .assign r src => notLentB N S r && match S r, S src with
    | some d, some s => decide (d.kind = s.kind) && decide (d.ms = s.ms)
    | _, _ => false
  | .addrOf r src => notLentB N S r && match S src with
    | some s => decide (s.kind = .polyRef ∨ s.kind = .constPolyRef)
    | none => false
  | .deref r src => notLentB N S r && match S src with
    | some s => s.kind.isPtr && s.target.isSome
    | none => false
  | .constCast r src => notLentB N S r && match S src with
    | some s => decide (s.kind = .constPolyPtr)
    | none => false
  | .view r src => notLentB N S r && decide (r ≠ src) && match S src with
    | some s => s.kind.isStateful
    | none => false
  | .drop r => notLentB N S r
  | .invoke r m _ => match S r with
    | some s => match s.target with
      | some (t, p) => s.ms.contains (.user m) && !s.kind.isPtr &&
          (!s.kind.isConst || decide (cfg.kind m ≠ .mutRef)) && liveB N w t p
      | none => false
    | none => false

/-- Run a program; a statement that throws is abandoned. -/
def run (cfg : Cfg) (N : Nat) : List Op → PW → SRefs → Option (PW × SRefs)
  | [], w, S => some (w, S)
  | op :: ops, w, S =>
    if legalB cfg N w S op then
      match exec cfg op w with
      | .ok _ w' => run cfg N ops w' (specStep w S op)
      | .exn w' => run cfg N ops w' S
      | _ => none
    else none

theorem notLentB_sound {N : Nat} {S : SRefs} (hS : ∀ n, N ≤ n → S n = none) {r : Nat} (h : notLentB N S r = true) :
    r < N ∧ NotLent S r := by
  simp only [notLentB, Bool.and_eq_true, decide_eq_true_eq, List.all_eq_true, List.mem_range] at h
  refine ⟨h.1, fun n s hs => ?_⟩
  by_cases hn : n < N
  · have := h.2 n hn
    rw [hs] at this
    simpa using this
  · rw [hS n (by omega)] at hs; cases hs

theorem sub_infix {ms ms' : List Method} (h : hasSubsequence ms ms' = true) : ms <:+: ms' :=
  (occurs_infix _ _).1 ((hasSubsequence_iff _ _).1 h)

theorem convertsB_sound {k : Kind} {ms : List Method} {s : SRef} (h : convertsB k ms s = true) : Converts k ms s := by
  unfold convertsB at h
  unfold Converts
  split at h <;> (try cases h) <;> simp_all [sub_infix]

theorem liveB_sound {N : Nat} {w : PW} {t : Nat} {p : Addr} (h : liveB N w t p = true) : liveAt w t p := by
  cases p with
  | mem p =>
    simp only [liveB, List.any_eq_true, Bool.and_eq_true, decide_eq_true_eq] at h
    obtain ⟨a, _, h1, h2⟩ := h
    split at h2
    · rename_i o ho; exact ⟨a, o, ho, h1, by simpa using h2⟩
    · cases h2
  | var x =>
    simp only [liveB] at h
    split at h
    · rename_i t' v hx; exact ⟨v, by rw [hx]; simp at h; rw [h]⟩
    · cases h

theorem legalB_sound {cfg : Cfg} {N : Nat} {w : PW} {S : SRefs} (hS : ∀ n, N ≤ n → S n = none) {op : Op}
    (h : legalB cfg N w S op = true) : Legal cfg w S op ∧ ∀ n, N ≤ n → specStep w S op n = none := by
  have hu : ∀ {r x}, r < N → ∀ n, N ≤ n → upd S r x n = none := by
    intro r x hr n hn
    have : n ≠ r := by omega
    simp only [upd, this, if_false]; exact hS n hn
  cases op <;> simp only [legalB, Bool.and_eq_true, decide_eq_true_eq] at h
  case newVar => exact ⟨trivial, hS⟩
  case dropVar => exact ⟨trivial, hS⟩
  case mem => exact ⟨h, hS⟩
  case ofVar => have := notLentB_sound hS h.1; exact ⟨⟨this.2, h.2⟩, hu this.1⟩
  case ofAny r k ms a =>
    have := notLentB_sound hS h.1.1
    refine ⟨⟨this.2, h.1.2, ?_⟩, hu this.1⟩
    rintro a' rfl
    have h2 := h.2
    simp only [] at h2
    split at h2
    · rename_i s hs; exact ⟨s, hs, sub_infix h2⟩
    · cases h2
  case ofNullT => have := notLentB_sound hS h.1; exact ⟨⟨this.2, h.2⟩, hu this.1⟩
  case ofNull => have := notLentB_sound hS h.1; exact ⟨⟨this.2, h.2⟩, hu this.1⟩
  case conv =>
    have := notLentB_sound hS h.1
    refine ⟨⟨this.2, ?_⟩, hu this.1⟩
    have h2 := h.2
    split at h2
    · rename_i s hs; exact ⟨s, hs, convertsB_sound h2⟩
    · cases h2
  case assign =>
    have := notLentB_sound hS h.1
    refine ⟨⟨this.2, ?_⟩, hu this.1⟩
    have h2 := h.2
    split at h2
    · rename_i d s hd hs
      simp only [Bool.and_eq_true, decide_eq_true_eq] at h2
      exact ⟨d, s, hd, hs, h2⟩
    · cases h2
  case addrOf =>
    have := notLentB_sound hS h.1
    refine ⟨⟨this.2, ?_⟩, hu this.1⟩
    have h2 := h.2
    split at h2
    · rename_i s hs; exact ⟨s, hs, by simpa using h2⟩
    · cases h2
  case deref =>
    have := notLentB_sound hS h.1
    refine ⟨⟨this.2, ?_⟩, hu this.1⟩
    have h2 := h.2
    split at h2
    · rename_i s hs
      simp only [Bool.and_eq_true] at h2
      exact ⟨s, hs, h2⟩
    · cases h2
  case constCast =>
    have := notLentB_sound hS h.1
    refine ⟨⟨this.2, ?_⟩, hu this.1⟩
    have h2 := h.2
    split at h2
    · rename_i s hs; exact ⟨s, hs, by simpa using h2⟩
    · cases h2
  case view =>
    have := notLentB_sound hS h.1.1
    refine ⟨⟨this.2, h.1.2, ?_⟩, hu this.1⟩
    have h2 := h.2
    split at h2
    · rename_i s hs; exact ⟨s, hs, h2⟩
    · cases h2
  case drop => have := notLentB_sound hS h; exact ⟨this.2, hu this.1⟩
  case invoke r m x =>
    refine ⟨?_, hS⟩
    split at h
    · rename_i s hs
      split at h
      · rename_i t p ht
        simp only [Bool.and_eq_true, Bool.or_eq_true, Bool.not_eq_true', decide_eq_true_eq, List.contains_iff_mem] at h
        refine ⟨s, t, p, hs, ht, h.1.1.1, h.1.1.2, fun hc => ?_, liveB_sound h.2⟩
        rcases h.1.2 with h' | h'
        · rw [hc] at h'; cases h'
        · exact h'
      · cases h
    · cases h

theorem run_reach {cfg : Cfg} {N : Nat} {ops : List Op} {w w' : PW} {S S' : SRefs} (h : Reach cfg w S)
    (hS : ∀ n, N ≤ n → S n = none) (hr : run cfg N ops w S = some (w', S')) :
    Reach cfg w' S' ∧ ∀ n, N ≤ n → S' n = none := by
  induction ops generalizing w S with
  | nil => cases hr; exact ⟨h, hS⟩
  | cons op ops ih =>
    unfold run at hr
    split at hr
    · rename_i L
      obtain ⟨L1, L2⟩ := legalB_sound hS L
      split at hr
      · rename_i he; exact ih (h.ok L1 he) L2 hr
      · rename_i he; exact ih (h.exn L1 he) hS hr
      · cases hr
    · cases hr

/-- A program that got through witnesses a reachable state. -/
theorem run_witness {cfg : Cfg} (N : Nat) {ops : List Op} {P : PW → SRefs → Bool}
    (h : (run cfg N ops .init (fun _ => none)).any (fun p => P p.1 p.2) = true) : ∃ w S, Reach cfg w S ∧ P w S = true := by
  cases hr : run cfg N ops .init (fun _ => none) with
  | none => rw [hr] at h; cases h
  | some p => rw [hr] at h; exact ⟨p.1, p.2, (run_reach .init (fun _ _ => rfl) hr).1, h⟩

end AnyAny.Poly
