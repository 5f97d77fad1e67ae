#!/usr/bin/env python3
"""Writes the macro definitions of /repo/include/anyany/anyany_macro.hpp as Lean terms (Verif/Model/MacroTable.lean)."""
import re
src = open('/repo/include/anyany/anyany_macro.hpp').read().split('\n')
defs = []
i = 0
while i < len(src):
    if src[i].startswith('#define'):
        start = i
        text = ''
        while src[i].endswith('\\'):
            text += src[i][:-1] + ' '
            i += 1
        text += src[i]
        defs.append((start + 1, i + 1, text))
    i += 1

def tokens(s):
    return re.findall(r'##|\.\.\.|->|::|&&|[A-Za-z_][A-Za-z0-9_]*|[0-9]+|\S', s)

def tree(toks):
    out = []
    while toks:
        t = toks.pop(0)
        if t == '(':
            out.append(('g', tree(toks)))
        elif t == ')':
            return out
        else:
            out.append(t)
    return out

def lean(ts):
    r = []
    for t in ts:
        if isinstance(t, tuple):
            r.append('g ' + lean(t[1]))
        elif t == '##':
            r.append('paste')
        elif t == ',':
            r.append('comma')
        elif re.match(r'[A-Za-z_]', t):
            r.append('i "%s"' % t)
        else:
            r.append('s "%s"' % t)
    return '[' + ', '.join(r) + ']'

def wrap(s, ind, width=118):
    # break at ", "
    out, line = [], ''
    for part in re.split(r'(?<=,) ', s):
        if line and len(ind) + len(line) + 1 + len(part) > width:
            out.append(ind + line)
            line = part
        else:
            line = (line + ' ' + part) if line else part
    out.append(ind + line)
    return '\n'.join(out)

res = '''import Verif.Model.Macro
/-
The macros of include/anyany/anyany_macro.hpp, written by tools/gen_macro.py from the header: `i` identifiers, `s` other
tokens, `g` parenthesised groups.
-/
namespace AnyAny.Macro
open Tok

'''
names = []
for (a, b, t) in defs:
    m = re.match(r'#define\s+(\w+)\(([^)]*)\)\s*(.*)$', t, re.S)
    name, params, body = m.group(1), [p.strip() for p in m.group(2).split(',')], m.group(3)
    va = params and params[-1] == '...'
    if va:
        params = params[:-1]
    ln = 'm_' + name
    names.append((name, ln))
    res += '/-- anyany_macro.hpp:%s. -/\n' % (a if a == b else '%d-%d' % (a, b))
    res += 'def %s : Macro :=\n  ⟨[%s], %s,\n%s⟩\n\n' % (
        ln, ', '.join('"%s"' % p for p in params), 'true' if va else 'false', wrap(lean(tree(tokens(body))), '    '))
res += '/-- All macros of the header. -/\ndef table : List (String × Macro) :=\n  [' + ',\n   '.join('("%s", %s)' % n for n in names) + ']\n\nend AnyAny.Macro\n'
open('/verif/lean/Verif/Model/MacroTable.lean', 'w').write(res)
