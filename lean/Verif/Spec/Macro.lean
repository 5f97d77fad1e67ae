import Verif.Model.MacroTable
/-
Vocabulary for C71.
-/
namespace AnyAny.Macro
open Tok

mutual
/-- Forget the hide sets. -/
def stripTok : Tok → Tok
  | .id x _ => .id x []
  | .grp ts _ => .grp (strip ts) []
  | .sym x => .sym x
  | .comma => .comma
  | .paste => .paste
def strip : List Tok → List Tok
  | [] => []
  | t :: ts => stripTok t :: strip ts
end

mutual
/-- No macro of the header is named, at any depth of parentheses. -/
def inertTok : Tok → Prop
  | .id x _ => table.lookup x = none
  | .grp ts _ => Inert ts
  | .sym _ => True
  | .comma => True
  | .paste => False
def Inert : List Tok → Prop
  | [] => True
  | t :: ts => inertTok t ∧ Inert ts
end

/-- No comma outside parentheses. -/
def NoComma (ts : List Tok) : Prop := ∀ t ∈ ts, t ≠ .comma

/-- The preprocessor replaces the text `ts` by `S`. -/
def Becomes (ts S : List Tok) : Prop := ∃ N out, (∀ n, N ≤ n → expand table n ts = .ok out) ∧ strip out = S

/-- The preprocessor rejects the text `ts`. -/
def Rejected (ts : List Tok) : Prop := ∃ N, ∀ n, N ≤ n → expand table n ts = .error

/-- `anyany_method(n, (P) requires(E) R)`; likewise for the other two. -/
def methodCall (n : String) (P E R : List Tok) : List Tok := [i "anyany_method", g (i n :: .comma :: g P :: i "requires" :: g E :: R)]
def externCall (n : String) (P E R : List Tok) : List Tok := [i "anyany_extern_method", g (i n :: .comma :: g P :: i "requires" :: g E :: R)]
def pseudoCall (n : String) (E R : List Tok) : List Tok := [i "anyany_pseudomethod", g (i n :: .comma :: i "requires" :: g E :: R)]

end AnyAny.Macro
