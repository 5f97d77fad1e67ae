import Verif.Model.SwitchCost
/-
What the steps of a `type_switch` should be: the types are compared in the order in which they are written, up to the first that decides.
-/
namespace AnyAny.SwitchCost

/-- A type that is written in a switch, with the number of its case and what the function of the case returns. -/
structure Entry where
  type : Nat
  case : Nat
  gives : Option Nat

/-- All types, in the order in which they are written. -/
def entries (i : Nat) : List Case → List Entry
  | [] => []
  | c :: cs => c.types.map (⟨·, i, c.gives⟩) ++ entries (i + 1) cs

/-- The entry decides the switch: it has the type of the value and its function returns something. -/
def Entry.decides (T : Nat) (e : Entry) : Bool := e.type == T && e.gives.isSome

/-- Entries up to the first that decides, with it. -/
def upTo (T : Nat) : List Entry → List Entry
  | [] => []
  | e :: es => if e.decides T then [e] else e :: upTo T es

/-- Steps for one entry. -/
def Entry.steps (T : Nat) (e : Entry) : List Ev := if e.type = T then [.compare e.type, .call e.case] else [.compare e.type]

def comparisons (l : List Ev) : Nat := l.countP fun e => match e with | .compare _ => true | _ => false
def calls (l : List Ev) : Nat := l.countP fun e => match e with | .compare _ => false | _ => true

end AnyAny.SwitchCost
