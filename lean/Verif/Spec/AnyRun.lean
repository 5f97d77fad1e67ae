import Verif.Spec.AnyHist
/-
Executable histories: legality is decidable, so concrete histories can be run. Also the example
configurations used beside the theorems.
-/
namespace AnyAny.Mem

instance instDecExSome {α : Type} {P : α → Prop} [∀ t, Decidable (P t)] (x : Option α) :
    Decidable (∃ t, x = some t ∧ P t) :=
  match x with
  | none => isFalse fun ⟨_, h, _⟩ => nomatch h
  | some t =>
    if h : P t then isTrue ⟨t, rfl, h⟩ else isFalse fun ⟨_, h1, h2⟩ => by cases h1; exact h h2

def Method.isCopy : Method → Bool
  | .copy _ => true
  | _ => false

theorem hasMoveFn_iff (ms : List Method) : (ms.contains .move || ms.any Method.isCopy) = true ↔ HasMoveFn ms := by
  simp only [HasMoveFn, Bool.or_eq_true, List.contains_iff_mem, List.any_eq_true]
  refine or_congr Iff.rfl ⟨fun ⟨m, h1, h2⟩ => ?_, fun ⟨k, h⟩ => ⟨_, h, rfl⟩⟩
  cases m <;> simp [Method.isCopy] at h2
  exact ⟨_, h1⟩

instance (ms : List Method) : Decidable (HasMoveFn ms) := decidable_of_iff _ (hasMoveFn_iff ms)
instance (cfg : Cfg) (ms : List Method) : Decidable (Movable cfg ms) := by unfold Movable; infer_instance
instance (cfg : Cfg) (ms : List Method) : Decidable (MoveAssignable cfg ms) := by unfold MoveAssignable; infer_instance

instance (w : World) (a : Nat) (s : ArgSrc) : Decidable (s.Valid w a) :=
  match s with
  | .lit _ => isTrue trivial
  | .valueOf c => inferInstanceAs (Decidable (c ≠ a ∧ (content w c).isSome))

instance (cfg : Cfg) (w : World) (op : Op) : Decidable (Legal cfg w op) := by
  cases op <;> (unfold Legal; infer_instance)

/-- Outcome of a whole history. `stuck`: some operation was not legal. -/
inductive Outcome where
  | done (w : World)
  | stuck
  | ub
  | term

/-- Run a history; an operation that throws is abandoned and the history goes on (the exception is
caught by the client). -/
def run (cfg : Cfg) : List Op → World → Outcome
  | [], w => .done w
  | op :: ops, w =>
    if Legal cfg w op then
      match exec cfg op w with
      | .ok _ w' => run cfg ops w'
      | .exn w' => run cfg ops w'
      | .ub => .ub
      | .term => .term
    else .stuck

/-- Result of a history that got through. -/
def Outcome.world? : Outcome → Option World
  | .done w => some w
  | _ => none

def Outcome.isUb : Outcome → Bool
  | .ub => true
  | _ => false

def Outcome.isTerm : Outcome → Bool
  | .term => true
  | _ => false

def Res.isUb {α} : Res α → Bool
  | .ub => true
  | _ => false

def Res.isTerm {α} : Res α → Bool
  | .term => true
  | _ => false

def Res.isExn {α} : Res α → Bool
  | .exn _ => true
  | _ => false

def Res.isOk {α} : Res α → Bool
  | .ok _ _ => true
  | _ => false

/-- The world after a call that returned or threw. -/
def Res.world? {α} : Res α → Option World
  | .ok _ w => some w
  | .exn w => some w
  | _ => none

/-- Types of the examples: 0 `int`, 1 small with destructor and throwing copy, 2 big with destructor
and throwing copy, 3 big trivial, 4 small but its move throws. -/
def exTy : Nat → TyInfo
  | 0 => { size := 4, align := 4, nothrowMove := true, nothrowCopy := true, trivCopy := true, trivDestr := true }
  | 1 => { size := 8, align := 8, nothrowMove := true, nothrowCopy := false, trivCopy := false, trivDestr := false }
  | 2 => { size := 64, align := 8, nothrowMove := true, nothrowCopy := false, trivCopy := false, trivDestr := false }
  | 3 => { size := 48, align := 8, nothrowMove := true, nothrowCopy := true, trivCopy := true, trivDestr := true }
  | _ => { size := 8, align := 8, nothrowMove := false, nothrowCopy := false, trivCopy := false, trivDestr := false }

/-- Stateful allocators that do not propagate, 16 bytes of buffer, no exceptions. -/
def exCfg : Cfg where
  soos := 16
  maxAlign := 16
  allocAlign := 16
  alwaysEq := false
  pocma := false
  pocca := false
  copyNeedsAlloc := true
  soccc := id
  defaultAlloc := 0
  ty := exTy
  faults := fun _ => false
  impl := fun _ _ v x => (v + x, v * 10 + x)
  kind := fun m => if m = 0 then .constRef else if m = 1 then .mutRef else .byValue
  movedFrom := fun _ _ => 0

/-- The same, where call number `n` throws. -/
def exCfgF (n : Nat) : Cfg := { exCfg with faults := fun k => k == n }

theorem exTy_align (t : Nat) : (exTy t).align ≤ 16 := by
  unfold exTy; split <;> decide

/-- Changing the traits of the example configuration keeps it acceptable. -/
theorem exCfg_ok : CfgOk exCfg := ⟨exTy_align, by decide⟩
theorem exCfgF_ok (n : Nat) : CfgOk (exCfgF n) := ⟨exTy_align, fun h => by cases h⟩

/-- The methods of the example class: destroy, copy, move, type_info and three user methods. -/
def exMs : List Method := [.destroy, .copy 0, .move, .typeInfo, .user 0, .user 1, .user 2]

end AnyAny.Mem
