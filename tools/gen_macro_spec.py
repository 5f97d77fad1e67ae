#!/usr/bin/env python3
"""Writes Verif/Spec/MacroText.lean: the declarations the macros stand for, from the C++ text below.
NAME, PARAMS, EXPR and RET stand for what the user wrote in
anyany_method(NAME, (PARAMS) requires(EXPR) RET), where RET is '-> type'."""
import re
METHOD = '''
struct NAME {
 private:
  using method_t = NAME;
  template <typename, typename, typename>
  struct make_plugin {};
  template <typename CRTP, typename Ret, typename... Args, typename Method>
  struct make_plugin<CRTP, Ret(int&, Args...), Method> {
    Ret NAME(Args... args) {
      return ::aa::noexport::invoke_fn<Method, ::aa::type_list<Args...>>{}(*static_cast<CRTP*>(this), static_cast<Args&&>(args)...);
    }
  };
  template <typename CRTP, typename Ret, typename... Args, typename Method>
  struct make_plugin<CRTP, Ret(const int&, Args...), Method> {
    Ret NAME(Args... args) const {
      return ::aa::noexport::invoke_fn<Method, ::aa::type_list<Args...>>{}(*static_cast<const CRTP*>(this), static_cast<Args&&>(args)...);
    }
  };
  template <typename CRTP, typename Ret, typename... Args, typename Method>
  struct make_plugin<CRTP, Ret(int, Args...), Method> : make_plugin<CRTP, Ret(const int&, Args...), Method> {};
 public:
  using signature_type = auto (int PARAMS) RET;
  template <typename CRTP>
  using plugin = make_plugin<CRTP, signature_type, method_t>;
  using return_type = ::aa::noexport::return_type_of<signature_type>;
  template <typename Self>
  static auto do_invoke (Self PARAMS) -> decltype(static_cast<return_type>(EXPR)) {
    return static_cast<return_type>(EXPR);
  }
}'''
EXTERN = '''
struct NAME {
  using signature_type = auto (int PARAMS) RET;
  using return_type = ::aa::noexport::return_type_of<signature_type>;
  template <typename Self>
  static auto do_invoke (Self PARAMS) -> decltype(static_cast<return_type>(EXPR)) {
    return static_cast<return_type>(EXPR);
  }
}'''
PSEUDO = '''
struct NAME {
 private:
  using fn_t = auto() RET;
 public:
  using value_type = decltype(static_cast<fn_t*>(0)());
  template <typename Self>
  static constexpr auto do_value() -> decltype(static_cast<value_type>(EXPR), static_cast<fn_t*>(0)()) {
    return static_cast<value_type>(EXPR);
  }
}'''

def tokens(s):
    return re.findall(r'##|\.\.\.|->|::|&&|[A-Za-z_][A-Za-z0-9_]*|[0-9]+|\S', s)

def tree(toks):
    out = []
    while toks:
        t = toks.pop(0)
        if t == '(':
            out.append(('g', tree(toks)))
        elif t == ')':
            return out
        else:
            out.append(t)
    return out

VAR = {'PARAMS': 'P', 'EXPR': 'E', 'RET': 'R'}
def lean(ts):
    pieces, cur = [], []
    for t in ts:
        if isinstance(t, tuple):
            cur.append('g ' + lean(t[1]))
        elif t in VAR:
            if cur:
                pieces.append('[' + ', '.join(cur) + ']')
                cur = []
            pieces.append(VAR[t])
        elif t == ',':
            cur.append('comma')
        elif t == 'NAME':
            cur.append('i n')
        elif re.match(r'[A-Za-z_]', t):
            cur.append('i "%s"' % t)
        else:
            cur.append('s "%s"' % t)
    if cur or not pieces:
        pieces.append('[' + ', '.join(cur) + ']')
    return pieces[0] if len(pieces) == 1 else '(' + ' ++ '.join(pieces) + ')'

def wrap(s, ind, width=118):
    out, line = [], ''
    for part in re.split(r'(?<=,) ', s):
        if line and len(ind) + len(line) + 1 + len(part) > width:
            out.append(ind + line)
            line = part
        else:
            line = (line + ' ' + part) if line else part
    out.append(ind + line)
    return '\n'.join(out)

res = '''import Verif.Model.Macro
/-
The declarations that anyany_method, anyany_extern_method and anyany_pseudomethod stand for. The C++ text is in the
comment of each definition, the token list below it was written from that text by tools/gen_macro_spec.py.
-/
namespace AnyAny.Macro
open Tok

'''
for (nm, params, text) in (('methodText', '(n : String) (P E R : List Tok)', METHOD), ('externText', '(n : String) (P E R : List Tok)', EXTERN), ('pseudoText', '(n : String) (E R : List Tok)', PSEUDO)):
    res += '/--' + text.replace('NAME', 'n').replace('PARAMS', 'P').replace('EXPR', 'E').replace('RET', 'R') + '\n-/\n'
    res += 'def %s %s : List Tok :=\n%s\n\n' % (nm, params, wrap(lean(tree(tokens(text))), '  '))
res += 'end AnyAny.Macro\n'
open('/verif/lean/Verif/Spec/MacroText.lean', 'w').write(res)
