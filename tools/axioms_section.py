# Rewrites section 6 of DESIGN.md from lines "theorem #[axioms]" (argument: file with them).
import sys, textwrap, collections
g = collections.defaultdict(set)
for l in open(sys.argv[1]):
    t, a = l.strip().split(' ', 1)
    g[a].add(t)
def para(head, ts):
    return textwrap.fill('* ' + head + ' ' + ', '.join(sorted(ts)) + '.', 100, subsequent_indent='  ', break_long_words=False, break_on_hyphens=False)
s = open('/verif/DESIGN.md').read()
s = s[:s.index('## 6. Axioms')] + '## 6. Axioms\n\nCollected with `Lean.collectAxioms` for each property theorem.\n\n'
s += para('None:', g['#[]']) + '\n' + para('`propext` only:', g['#[propext]']) + '\n' + para('`propext`, `Quot.sound`:', g['#[Quot.sound, propext]']) + '\n'
s += '* `propext`, `Classical.choice`, `Quot.sound`: every other theorem named in MANIFEST.json.\n'
open('/verif/DESIGN.md', 'w').write(s)
