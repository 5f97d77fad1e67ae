import Verif.Model.SwarmThreads
import Verif.Spec.SwarmReentry
/-
Rules for threads that use one swarm, and what a data race is.
-/
namespace AnyAny.SwarmRe

/-- The container `j` is the same in both states. -/
def SameC (s s' : State) (j : Nat) : Prop :=
  s.cont j = s'.cont j ∧ s.cap j = s'.cap j ∧ s.egen j = s'.egen j ∧ s.lgen j = s'.lgen j

/-- Two threads are about to use the same container, at least one of them to change it. -/
def Race (w : World) : Prop :=
  ∃ t u a b j x y, t ≠ u ∧ w.th t = some a ∧ w.th u = some b ∧ (j, x) ∈ access (join w.sh a) ∧ (j, y) ∈ access (join w.sh b) ∧
    (x = true ∨ y = true)

/-- The code uses only the types of `R` and changes only those of `W`; `i`: the type of the value it was called with. -/
def Cmd.Uses (R W : Nat → Prop) (i : Option Nat) : Cmd → Prop
  | .ret => True
  | .raise => True
  | .insert j _ k => W j ∧ k.Uses R W i
  | .clear j k => W j ∧ k.Uses R W i
  | .reserve j _ k => W j ∧ k.Uses R W i
  | .count j k => R j ∧ ∀ n, (k n).Uses R W i
  | .get k => ∀ n, (k n).Uses R W i
  | .set _ k => (∀ j, i = some j → W j) ∧ k.Uses R W i
  | .visit _ js k => (∀ j ∈ js, R j) ∧ ∀ b, (k b).Uses R W i

/-- The thread runs `p` with the visitors of `C`, uses the types of `R`, changes those of `W`. -/
def Keeps (C : Cfg) (R W : Nat → Prop) (p : Cmd) : Prop :=
  (∀ j, W j → R j) ∧ p.Uses R W none ∧ ∀ v i, R i → (C.body v i).Uses R W (some i)

/-- A type changed by one thread is not used by another one. -/
def Apart (R W : Nat → Nat → Prop) : Prop := ∀ t u j, t ≠ u → W t j → ¬ R u j

end AnyAny.SwarmRe
