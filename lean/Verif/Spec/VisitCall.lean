import Verif.Model.VisitCall
/-
The call written out by a user who knows the types: `Result r = f(static_cast<Ts&&>(args)...);`
-/
namespace AnyAny.Visit

/-- Parameter `k` is taken by value: its constructor runs. -/
def TakesByValue {D : Type} (f : Fn D) (k : Nat) : Prop := ∃ p, f.params[k]? = some p ∧ p.pass = .value

/-- The steps of the call: parameters, body, and one initialisation of the result (none if `f` returns a `Result` by value). -/
def directSteps {D : Type} (f : Fn D) (ord : List Nat) : List Step :=
  ord.map .param ++ [.body] ++ (if f.conv = .same then (if f.retRef then [.copyResult] else []) else [.convert])

/-- Exceptions reach the caller, unless they leave a function that is `noexcept`. -/
def directCall {D E A V W : Type} (f : Fn D) (throws : Step → Option E) (mem : A → V) (g : V → W) (ret : Ret A V) (ord : List Nat) :
    End E (Cur A V W) :=
  match (runSteps throws (stepResult mem g f.conv ret) (directSteps f ord) .start).2 with
  | .ok c => .returns c
  | .error (s, e) => if s = .body ∧ f.noexc = true then .terminates else .throws e

/-- What is returned agrees with the declared return type. -/
def Ret.fits {D A V : Type} (f : Fn D) : Ret A V → Prop
  | .value _ => f.retRef = false
  | .ref _ => f.retRef = true

end AnyAny.Visit
