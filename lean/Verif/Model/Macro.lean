/-
The C++ preprocessor, as far as include/anyany/anyany_macro.hpp needs it: function-like macros with named and
variadic parameters, argument prescan, `##`, rescanning with hide sets ([cpp.replace], in the formulation of
D. Prosser's algorithm). The model is of the language rule; the macros themselves are in MacroTable.lean.

Simplifications: tokens between balanced parentheses are one group (`grp`); white space and `#` do not exist (the
header does not use `#`); every argument is prescanned, also those that occur only as operands of `##` (their tokens
are then not used).
-/
namespace AnyAny.Macro

/-- Preprocessing tokens. `hide`: names of macros this token may not be the name of any more; that of a group
belongs to its closing parenthesis. The preprocessor, no code of the library; used for
  anyany_macro.hpp:1-151. -/
inductive Tok where
  | id (name : String) (hide : List String)
  | sym (s : String)
  | comma
  | paste
  | grp (ts : List Tok) (hide : List String)

namespace Tok
/-- Tokens as they stand in the source. The preprocessor, no code of the library; used for
    anyany_macro.hpp:1-151. -/
abbrev i (name : String) : Tok := .id name []
/-- The preprocessor, no code of the library; used for anyany_macro.hpp:1-151. -/
abbrev s (x : String) : Tok := .sym x
/-- The preprocessor, no code of the library; used for anyany_macro.hpp:1-151. -/
abbrev g (ts : List Tok) : Tok := .grp ts []
end Tok

/-- `#define NAME(params) body` ([cpp.replace.general]). The preprocessor, no code of the library;
    used for anyany_macro.hpp:1-151. -/
structure Macro where
  params : List String
  variadic : Bool
  body : List Tok

/-- The arguments of an invocation: separated by the commas outside inner parentheses ([cpp.replace.general] 11). -/
def splitCommas : List Tok → List (List Tok)
  | [] => [[]]
  | .comma :: ts => [] :: splitCommas ts
  | t :: ts =>
    match splitCommas ts with
    | [] => [[t]]
    | a :: as => (t :: a) :: as

/-- The preprocessor, no code of the library; used for anyany_macro.hpp:1-151. -/
def joinCommas : List (List Tok) → List Tok
  | [] => []
  | [a] => a
  | a :: b :: as => a ++ .comma :: joinCommas (b :: as)

/-- Parameters with their arguments; `none`: wrong number of arguments, the program is ill-formed
([cpp.replace.general] 4). The preprocessor, no code of the library; used for
  anyany_macro.hpp:1-151. -/
def bindNamed (variadic : Bool) : List String → List (List Tok) → Option (List (String × List Tok))
  | [], as => if variadic then some [("__VA_ARGS__", joinCommas as)] else if as.isEmpty then some [] else none
  | p :: ps, a :: as => (bindNamed variadic ps as).map ((p, a) :: ·)
  | _ :: _, [] => none

/-- An invocation `f()` of a macro without named parameters has no or one empty argument. The
    preprocessor, no code of the library; used for anyany_macro.hpp:1-151. -/
def bindArgs (m : Macro) (args : List (List Tok)) : Option (List (String × List Tok)) := bindNamed m.variadic m.params args

/-- The preprocessor, no code of the library; used for anyany_macro.hpp:1-151. -/
def lookup : List (String × List Tok) → String → Option (List Tok)
  | [], _ => none
  | (y, ts) :: r, x => if y == x then some ts else lookup r x

/-- `a ## b`: the last token on the left and the first on the right become one ([cpp.concat] 3).
    The preprocessor, no code of the library; used for anyany_macro.hpp:1-151. -/
def glue : List Tok → List Tok → List Tok
  | [], r => r
  | [.id x h], .id y h' :: r => .id (x ++ y) (h.filter h'.contains) :: r
  | [t], r => t :: r
  | t :: ts, r => t :: glue ts r

/-- An operand of `##`: the argument as it was written, not expanded ([cpp.concat] 2). The
    preprocessor, no code of the library; used for anyany_macro.hpp:1-151. -/
def operand (raw : List (String × List Tok)) : Tok → List Tok
  | .id x h => (lookup raw x).getD [.id x h]
  | t => [t]

mutual
/-- Replace parameters by expanded arguments ([cpp.subst] 1). The preprocessor, no code of the
    library; used for anyany_macro.hpp:1-151. -/
def substTok (raw exp : List (String × List Tok)) : Tok → List Tok
  | .id x h => (lookup exp x).getD [.id x h]
  | .grp ts h => [.grp (subst raw exp ts) h]
  | .sym x => [.sym x]
  | .comma => [.comma]
  | .paste => [.paste]
/-- The preprocessor, no code of the library; used for anyany_macro.hpp:1-151. -/
def subst (raw exp : List (String × List Tok)) : List Tok → List Tok
  | [] => []
  | a :: .paste :: b :: ts => glue (operand raw a) (operand raw b) ++ subst raw exp ts
  | t :: ts => substTok raw exp t ++ subst raw exp ts
end

mutual
/-- Add to the hide sets. The preprocessor, no code of the library; used for
    anyany_macro.hpp:1-151. -/
def hideTok (h : List String) : Tok → Tok
  | .id x h' => .id x (h' ++ h)
  | .grp ts h' => .grp (addHide h ts) (h' ++ h)
  | .sym x => .sym x
  | .comma => .comma
  | .paste => .paste
/-- The preprocessor, no code of the library; used for anyany_macro.hpp:1-151. -/
def addHide (h : List String) : List Tok → List Tok
  | [] => []
  | t :: ts => hideTok h t :: addHide h ts
end

/-- Outcome: the text, an error, or more fuel is needed. The preprocessor, no code of the library;
    used for anyany_macro.hpp:1-151. -/
inductive Res where
  | ok (ts : List Tok)
  | error
  | fuel

/-- The preprocessor, no code of the library; used for anyany_macro.hpp:1-151. -/
def Res.cons (t : Tok) : Res → Res
  | .ok ts => .ok (t :: ts)
  | r => r

/-- Prescan of all arguments. The preprocessor, no code of the library; used for
    anyany_macro.hpp:1-151. -/
def expandArgs (f : List Tok → Res) : List (String × List Tok) → Option (List (String × List Tok)) × Res
  | [] => (some [], .fuel)
  | (p, a) :: as =>
    match f a with
    | .ok a' =>
      match expandArgs f as with
      | (some as', _) => (some ((p, a') :: as'), .fuel)
      | r => r
    | r => (none, r)

/-- The macro a token names, unless it is hidden ([cpp.rescan] 3). The preprocessor, no code of
    the library; used for anyany_macro.hpp:1-151. -/
def macroOf (tbl : List (String × Macro)) (x : String) (hs : List String) : Option Macro :=
  if hs.contains x then none else (tbl.find? fun d => d.1 == x).map (·.2)

/-- Macro replacement of a token sequence; `n` bounds the depth of the recursion. The
    preprocessor, no code of the library; used for anyany_macro.hpp:1-151. -/
def expand (tbl : List (String × Macro)) : Nat → List Tok → Res
  | 0, _ => .fuel
  | _ + 1, [] => .ok []
  | n + 1, .id x hs :: .grp args gh :: rest =>
    match macroOf tbl x hs with
    | none => (expand tbl n (.grp args gh :: rest)).cons (.id x hs)
    | some m =>
      match bindArgs m (splitCommas args) with
      | none => .error
      | some raw =>
        match expandArgs (expand tbl n) raw with
        | (none, r) => r
        | (some exp, _) => expand tbl n (addHide (hs.filter gh.contains ++ [x]) (subst raw exp m.body) ++ rest)
  | n + 1, .grp ts gh :: rest =>
    match expand tbl n ts with
    | .ok ts' => (expand tbl n rest).cons (.grp ts' gh)
    | r => r
  | n + 1, t :: rest => (expand tbl n rest).cons t

end AnyAny.Macro
