import Verif.Model.Macro
/-
The declarations that anyany_method, anyany_extern_method and anyany_pseudomethod stand for. The C++ text is in the
comment of each definition, the token list below it was written from that text by tools/gen_macro_spec.py.
-/
namespace AnyAny.Macro
open Tok

/--
struct n {
 private:
  using method_t = n;
  template <typename, typename, typename>
  struct make_plugin {};
  template <typename CRTP, typename Ret, typename... Args, typename Method>
  struct make_plugin<CRTP, Ret(int&, Args...), Method> {
    Ret n(Args... args) {
      return ::aa::noexport::invoke_fn<Method, ::aa::type_list<Args...>>{}(*static_cast<CRTP*>(this), static_cast<Args&&>(args)...);
    }
  };
  template <typename CRTP, typename Ret, typename... Args, typename Method>
  struct make_plugin<CRTP, Ret(const int&, Args...), Method> {
    Ret n(Args... args) const {
      return ::aa::noexport::invoke_fn<Method, ::aa::type_list<Args...>>{}(*static_cast<const CRTP*>(this), static_cast<Args&&>(args)...);
    }
  };
  template <typename CRTP, typename Ret, typename... Args, typename Method>
  struct make_plugin<CRTP, Ret(int, Args...), Method> : make_plugin<CRTP, Ret(const int&, Args...), Method> {};
 public:
  using signature_type = auto (int P) R;
  template <typename CRTP>
  using plugin = make_plugin<CRTP, signature_type, method_t>;
  using return_type = ::aa::noexport::return_type_of<signature_type>;
  template <typename Self>
  static auto do_invoke (Self P) -> decltype(static_cast<return_type>(E)) {
    return static_cast<return_type>(E);
  }
}
-/
def methodText (n : String) (P E R : List Tok) : List Tok :=
  ([i "struct", i n, s "{", i "private", s ":", i "using", i "method_t", s "=", i n, s ";", i "template", s "<",
  i "typename", comma, i "typename", comma, i "typename", s ">", i "struct", i "make_plugin", s "{", s "}", s ";",
  i "template", s "<", i "typename", i "CRTP", comma, i "typename", i "Ret", comma, i "typename", s "...", i "Args",
  comma, i "typename", i "Method", s ">", i "struct", i "make_plugin", s "<", i "CRTP", comma, i "Ret", g [i "int",
  s "&", comma, i "Args", s "..."], comma, i "Method", s ">", s "{", i "Ret", i n, g [i "Args", s "...", i "args"],
  s "{", i "return", s "::", i "aa", s "::", i "noexport", s "::", i "invoke_fn", s "<", i "Method", comma, s "::",
  i "aa", s "::", i "type_list", s "<", i "Args", s "...", s ">", s ">", s "{", s "}", g [s "*", i "static_cast",
  s "<", i "CRTP", s "*", s ">", g [i "this"], comma, i "static_cast", s "<", i "Args", s "&&", s ">", g [i "args"],
  s "..."], s ";", s "}", s "}", s ";", i "template", s "<", i "typename", i "CRTP", comma, i "typename", i "Ret",
  comma, i "typename", s "...", i "Args", comma, i "typename", i "Method", s ">", i "struct", i "make_plugin", s "<",
  i "CRTP", comma, i "Ret", g [i "const", i "int", s "&", comma, i "Args", s "..."], comma, i "Method", s ">", s "{",
  i "Ret", i n, g [i "Args", s "...", i "args"], i "const", s "{", i "return", s "::", i "aa", s "::", i "noexport",
  s "::", i "invoke_fn", s "<", i "Method", comma, s "::", i "aa", s "::", i "type_list", s "<", i "Args", s "...",
  s ">", s ">", s "{", s "}", g [s "*", i "static_cast", s "<", i "const", i "CRTP", s "*", s ">", g [i "this"],
  comma, i "static_cast", s "<", i "Args", s "&&", s ">", g [i "args"], s "..."], s ";", s "}", s "}", s ";",
  i "template", s "<", i "typename", i "CRTP", comma, i "typename", i "Ret", comma, i "typename", s "...", i "Args",
  comma, i "typename", i "Method", s ">", i "struct", i "make_plugin", s "<", i "CRTP", comma, i "Ret", g [i "int",
  comma, i "Args", s "..."], comma, i "Method", s ">", s ":", i "make_plugin", s "<", i "CRTP", comma, i "Ret",
  g [i "const", i "int", s "&", comma, i "Args", s "..."], comma, i "Method", s ">", s "{", s "}", s ";", i "public",
  s ":", i "using", i "signature_type", s "=", i "auto", g ([i "int"] ++ P)] ++ R ++ [s ";", i "template", s "<",
  i "typename", i "CRTP", s ">", i "using", i "plugin", s "=", i "make_plugin", s "<", i "CRTP", comma,
  i "signature_type", comma, i "method_t", s ">", s ";", i "using", i "return_type", s "=", s "::", i "aa", s "::",
  i "noexport", s "::", i "return_type_of", s "<", i "signature_type", s ">", s ";", i "template", s "<",
  i "typename", i "Self", s ">", i "static", i "auto", i "do_invoke", g ([i "Self"] ++ P), s "->", i "decltype",
  g [i "static_cast", s "<", i "return_type", s ">", g E], s "{", i "return", i "static_cast", s "<", i "return_type",
  s ">", g E, s ";", s "}", s "}"])

/--
struct n {
  using signature_type = auto (int P) R;
  using return_type = ::aa::noexport::return_type_of<signature_type>;
  template <typename Self>
  static auto do_invoke (Self P) -> decltype(static_cast<return_type>(E)) {
    return static_cast<return_type>(E);
  }
}
-/
def externText (n : String) (P E R : List Tok) : List Tok :=
  ([i "struct", i n, s "{", i "using", i "signature_type", s "=", i "auto", g ([i "int"] ++ P)] ++ R ++ [s ";",
  i "using", i "return_type", s "=", s "::", i "aa", s "::", i "noexport", s "::", i "return_type_of", s "<",
  i "signature_type", s ">", s ";", i "template", s "<", i "typename", i "Self", s ">", i "static", i "auto",
  i "do_invoke", g ([i "Self"] ++ P), s "->", i "decltype", g [i "static_cast", s "<", i "return_type", s ">", g E],
  s "{", i "return", i "static_cast", s "<", i "return_type", s ">", g E, s ";", s "}", s "}"])

/--
struct n {
 private:
  using fn_t = auto() R;
 public:
  using value_type = decltype(static_cast<fn_t*>(0)());
  template <typename Self>
  static constexpr auto do_value() -> decltype(static_cast<value_type>(E), static_cast<fn_t*>(0)()) {
    return static_cast<value_type>(E);
  }
}
-/
def pseudoText (n : String) (E R : List Tok) : List Tok :=
  ([i "struct", i n, s "{", i "private", s ":", i "using", i "fn_t", s "=", i "auto", g []] ++ R ++ [s ";",
  i "public", s ":", i "using", i "value_type", s "=", i "decltype", g [i "static_cast", s "<", i "fn_t", s "*",
  s ">", g [s "0"], g []], s ";", i "template", s "<", i "typename", i "Self", s ">", i "static", i "constexpr",
  i "auto", i "do_value", g [], s "->", i "decltype", g [i "static_cast", s "<", i "value_type", s ">", g E, comma,
  i "static_cast", s "<", i "fn_t", s "*", s ">", g [s "0"], g []], s "{", i "return", i "static_cast", s "<",
  i "value_type", s ">", g E, s ";", s "}", s "}"])

end AnyAny.Macro
