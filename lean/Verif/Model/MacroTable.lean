import Verif.Model.Macro
/-
The macros of include/anyany/anyany_macro.hpp, written by tools/gen_macro.py from the header: `i` identifiers, `s` other
tokens, `g` parenthesised groups.
-/
namespace AnyAny.Macro
open Tok

/-- anyany_macro.hpp:22. -/
def m_AA_IMPL_REMOVE_PARENS : Macro :=
  ⟨[], true,
    [i "__VA_ARGS__"]⟩

/-- anyany_macro.hpp:23. -/
def m_AA_IMPL_TOK_first : Macro :=
  ⟨["a"], true,
    [i "a"]⟩

/-- anyany_macro.hpp:24. -/
def m_AA_IMPL_TOK_all_except_first : Macro :=
  ⟨["a"], true,
    [i "__VA_ARGS__"]⟩

/-- anyany_macro.hpp:25. -/
def m_AA_IMPL_DO_GET_FIRST_TOKEN : Macro :=
  ⟨["out", "x"], true,
    [i "AA_IMPL_TOK_", paste, i "out", g [i "x", comma, i "__VA_ARGS__"]]⟩

/-- anyany_macro.hpp:26. -/
def m_AA_IMPL_GET_FIRST_TOKEN : Macro :=
  ⟨["out"], true,
    [i "AA_IMPL_DO_GET_FIRST_TOKEN", g [i "out", comma, i "__VA_ARGS__"]]⟩

/-- anyany_macro.hpp:27. -/
def m_AA_IMPL_SEPARATE_FIRST_TOK : Macro :=
  ⟨[], true,
    [g [i "__VA_ARGS__"], comma]⟩

/-- anyany_macro.hpp:28. -/
def m_AA_GET_TOKEN : Macro :=
  ⟨["out"], true,
    [i "AA_IMPL_GET_FIRST_TOKEN", g [i "out", comma, i "AA_IMPL_SEPARATE_FIRST_TOK", i "__VA_ARGS__"]]⟩

/-- anyany_macro.hpp:29. -/
def m_AA_IMPL_REMOVE_REQUIRESrequires : Macro :=
  ⟨[], true,
    [g [i "__VA_ARGS__"]]⟩

/-- anyany_macro.hpp:30. -/
def m_AA_IMPL_CONCAT_EXPAND : Macro :=
  ⟨["a", "b"], false,
    [i "a", paste, i "b"]⟩

/-- anyany_macro.hpp:31. -/
def m_AA_IMPL_CONCAT : Macro :=
  ⟨["a", "b"], false,
    [i "AA_IMPL_CONCAT_EXPAND", g [i "a", comma, i "b"]]⟩

/-- anyany_macro.hpp:32. -/
def m_AA_EXPAND : Macro :=
  ⟨["a"], false,
    [i "a"]⟩

/-- anyany_macro.hpp:33-35. -/
def m_AA_GET_REQUIREMENT : Macro :=
  ⟨[], true,
    [i "AA_EXPAND", g [i "AA_IMPL_REMOVE_PARENS", i "AA_GET_TOKEN", g [i "first", comma, i "AA_IMPL_CONCAT",
    g [i "AA_IMPL_REMOVE_REQUIRES", comma, i "AA_GET_TOKEN", g [i "all_except_first", comma, i "__VA_ARGS__"]]]]]⟩

/-- anyany_macro.hpp:36-38. -/
def m_AA_GET_ALL_AFTER_REQUIREMENT : Macro :=
  ⟨[], true,
    [i "AA_GET_TOKEN", g [i "all_except_first", comma, i "AA_IMPL_CONCAT", g [i "AA_IMPL_REMOVE_REQUIRES", comma,
    i "AA_GET_TOKEN", g [i "all_except_first", comma, i "__VA_ARGS__"]]]]⟩

/-- anyany_macro.hpp:39. -/
def m_AA_INJECT_SELF_IN_PARENS : Macro :=
  ⟨[], true,
    [g [i "Self", i "__VA_ARGS__"]]⟩

/-- anyany_macro.hpp:40. -/
def m_AA_INJECT_INTERFACE_T_IN_PARENS : Macro :=
  ⟨[], true,
    [g [i "int", i "__VA_ARGS__"]]⟩

/-- anyany_macro.hpp:81-116. -/
def m_anyany_method : Macro :=
  ⟨["NAME"], true,
    [i "struct", i "NAME", s "{", i "private", s ":", i "using", i "method_t", s "=", i "NAME", s ";", i "template",
    s "<", i "typename", comma, i "typename", comma, i "typename", s ">", i "struct", i "make_plugin", s "{", s "}",
    s ";", i "template", s "<", i "typename", i "CRTP", comma, i "typename", i "Ret", comma, i "typename", s "...",
    i "Args", comma, i "typename", i "Method", s ">", i "struct", i "make_plugin", s "<", i "CRTP", comma, i "Ret",
    g [i "int", s "&", comma, i "Args", s "..."], comma, i "Method", s ">", s "{", i "Ret", i "NAME", g [i "Args",
    s "...", i "args"], s "{", i "return", s "::", i "aa", s "::", i "noexport", s "::", i "invoke_fn", s "<",
    i "Method", comma, s "::", i "aa", s "::", i "type_list", s "<", i "Args", s "...", s ">", s ">", s "{", s "}",
    g [s "*", i "static_cast", s "<", i "CRTP", s "*", s ">", g [i "this"], comma, i "static_cast", s "<", i "Args",
    s "&&", s ">", g [i "args"], s "..."], s ";", s "}", s "}", s ";", i "template", s "<", i "typename", i "CRTP",
    comma, i "typename", i "Ret", comma, i "typename", s "...", i "Args", comma, i "typename", i "Method", s ">",
    i "struct", i "make_plugin", s "<", i "CRTP", comma, i "Ret", g [i "const", i "int", s "&", comma, i "Args",
    s "..."], comma, i "Method", s ">", s "{", i "Ret", i "NAME", g [i "Args", s "...", i "args"], i "const", s "{",
    i "return", s "::", i "aa", s "::", i "noexport", s "::", i "invoke_fn", s "<", i "Method", comma, s "::", i "aa",
    s "::", i "type_list", s "<", i "Args", s "...", s ">", s ">", s "{", s "}", g [s "*", i "static_cast", s "<",
    i "const", i "CRTP", s "*", s ">", g [i "this"], comma, i "static_cast", s "<", i "Args", s "&&", s ">",
    g [i "args"], s "..."], s ";", s "}", s "}", s ";", i "template", s "<", i "typename", i "CRTP", comma,
    i "typename", i "Ret", comma, i "typename", s "...", i "Args", comma, i "typename", i "Method", s ">", i "struct",
    i "make_plugin", s "<", i "CRTP", comma, i "Ret", g [i "int", comma, i "Args", s "..."], comma, i "Method", s ">",
    s ":", i "make_plugin", s "<", i "CRTP", comma, i "Ret", g [i "const", i "int", s "&", comma, i "Args", s "..."],
    comma, i "Method", s ">", s "{", s "}", s ";", i "public", s ":", i "using", i "signature_type", s "=", i "auto",
    i "AA_EXPAND", g [i "AA_INJECT_INTERFACE_T_IN_PARENS", i "AA_GET_TOKEN", g [i "first", comma, i "__VA_ARGS__"]],
    i "AA_GET_ALL_AFTER_REQUIREMENT", g [i "__VA_ARGS__"], s ";", i "template", s "<", i "typename", i "CRTP", s ">",
    i "using", i "plugin", s "=", i "make_plugin", s "<", i "CRTP", comma, i "signature_type", comma, i "method_t",
    s ">", s ";", i "using", i "return_type", s "=", s "::", i "aa", s "::", i "noexport", s "::", i "return_type_of",
    s "<", i "signature_type", s ">", s ";", i "template", s "<", i "typename", i "Self", s ">", i "static", i "auto",
    i "do_invoke", i "AA_EXPAND", g [i "AA_INJECT_SELF_IN_PARENS", i "AA_GET_TOKEN", g [i "first", comma,
    i "__VA_ARGS__"]], s "->", i "decltype", g [i "static_cast", s "<", i "return_type", s ">",
    g [i "AA_GET_REQUIREMENT", g [i "__VA_ARGS__"]]], s "{", i "return", i "static_cast", s "<", i "return_type",
    s ">", g [i "AA_GET_REQUIREMENT", g [i "__VA_ARGS__"]], s ";", s "}", s "}"]⟩

/-- anyany_macro.hpp:119-129. -/
def m_anyany_extern_method : Macro :=
  ⟨["NAME"], true,
    [i "struct", i "NAME", s "{", i "using", i "signature_type", s "=", i "auto", i "AA_EXPAND",
    g [i "AA_INJECT_INTERFACE_T_IN_PARENS", i "AA_GET_TOKEN", g [i "first", comma, i "__VA_ARGS__"]],
    i "AA_GET_ALL_AFTER_REQUIREMENT", g [i "__VA_ARGS__"], s ";", i "using", i "return_type", s "=", s "::", i "aa",
    s "::", i "noexport", s "::", i "return_type_of", s "<", i "signature_type", s ">", s ";", i "template", s "<",
    i "typename", i "Self", s ">", i "static", i "auto", i "do_invoke", i "AA_EXPAND",
    g [i "AA_INJECT_SELF_IN_PARENS", i "AA_GET_TOKEN", g [i "first", comma, i "__VA_ARGS__"]], s "->", i "decltype",
    g [i "static_cast", s "<", i "return_type", s ">", g [i "AA_GET_REQUIREMENT", g [i "__VA_ARGS__"]]], s "{",
    i "return", i "static_cast", s "<", i "return_type", s ">", g [i "AA_GET_REQUIREMENT", g [i "__VA_ARGS__"]],
    s ";", s "}", s "}"]⟩

/-- anyany_macro.hpp:131-143. -/
def m_AA_IMPL_ANYANY_PSEUDOMETHOD : Macro :=
  ⟨["NAME"], true,
    [i "struct", i "NAME", s "{", i "private", s ":", i "using", i "fn_t", s "=", i "auto", g [],
    i "AA_GET_ALL_AFTER_REQUIREMENT", g [i "__VA_ARGS__"], s ";", i "public", s ":", i "using", i "value_type", s "=",
    i "decltype", g [i "static_cast", s "<", i "fn_t", s "*", s ">", g [s "0"], g []], s ";", i "template", s "<",
    i "typename", i "Self", s ">", i "static", i "constexpr", i "auto", i "do_value", g [], s "->", i "decltype",
    g [i "static_cast", s "<", i "value_type", s ">", g [i "AA_GET_REQUIREMENT", g [i "__VA_ARGS__"]], comma,
    i "static_cast", s "<", i "fn_t", s "*", s ">", g [s "0"], g []], s "{", i "return", i "static_cast", s "<",
    i "value_type", s ">", g [i "AA_GET_REQUIREMENT", g [i "__VA_ARGS__"]], s ";", s "}", s "}"]⟩

/-- anyany_macro.hpp:152. -/
def m_anyany_pseudomethod : Macro :=
  ⟨["NAME"], true,
    [i "AA_IMPL_ANYANY_PSEUDOMETHOD", g [i "NAME", comma, g [], i "__VA_ARGS__"]]⟩

/-- All macros of the header. (anyany_macro.hpp:1-151.) -/
def table : List (String × Macro) :=
  [("AA_IMPL_REMOVE_PARENS", m_AA_IMPL_REMOVE_PARENS),
   ("AA_IMPL_TOK_first", m_AA_IMPL_TOK_first),
   ("AA_IMPL_TOK_all_except_first", m_AA_IMPL_TOK_all_except_first),
   ("AA_IMPL_DO_GET_FIRST_TOKEN", m_AA_IMPL_DO_GET_FIRST_TOKEN),
   ("AA_IMPL_GET_FIRST_TOKEN", m_AA_IMPL_GET_FIRST_TOKEN),
   ("AA_IMPL_SEPARATE_FIRST_TOK", m_AA_IMPL_SEPARATE_FIRST_TOK),
   ("AA_GET_TOKEN", m_AA_GET_TOKEN),
   ("AA_IMPL_REMOVE_REQUIRESrequires", m_AA_IMPL_REMOVE_REQUIRESrequires),
   ("AA_IMPL_CONCAT_EXPAND", m_AA_IMPL_CONCAT_EXPAND),
   ("AA_IMPL_CONCAT", m_AA_IMPL_CONCAT),
   ("AA_EXPAND", m_AA_EXPAND),
   ("AA_GET_REQUIREMENT", m_AA_GET_REQUIREMENT),
   ("AA_GET_ALL_AFTER_REQUIREMENT", m_AA_GET_ALL_AFTER_REQUIREMENT),
   ("AA_INJECT_SELF_IN_PARENS", m_AA_INJECT_SELF_IN_PARENS),
   ("AA_INJECT_INTERFACE_T_IN_PARENS", m_AA_INJECT_INTERFACE_T_IN_PARENS),
   ("anyany_method", m_anyany_method),
   ("anyany_extern_method", m_anyany_extern_method),
   ("AA_IMPL_ANYANY_PSEUDOMETHOD", m_AA_IMPL_ANYANY_PSEUDOMETHOD),
   ("anyany_pseudomethod", m_anyany_pseudomethod)]

end AnyAny.Macro
