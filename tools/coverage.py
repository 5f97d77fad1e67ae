"""Lines of /repo/include/anyany cited by comments in the model, and those that are not cited (comments and blank lines skipped)."""
import re, glob, os, sys
R = '/repo/include/anyany/'
files = [os.path.relpath(f, R) for f in glob.glob(R + '**/*.hpp', recursive=True)]
short = {}
for f in files:
    short[os.path.basename(f)] = f
cov = {f: set() for f in files}
for m in glob.glob('/verif/lean/Verif/Model/*.lean') + glob.glob('/verif/lean/Verif/Spec/*.lean'):
    s = open(m).read()
    names = [os.path.basename(n) for n in re.findall(r'[\w/]+\.hpp', s)]
    names = [n for n in names if n in short]
    # comments that cite bare line numbers mean the file the module cites most
    dflt = short[max(set(names), key=names.count)] if names else None
    for c in re.findall(r'/-.*?-/|--[^\n]*', s, re.S):
        cur = dflt
        toks = re.finditer(r'([\w/]+\.hpp)|(?<![\w.])(\d{1,4})(?:-(\d{1,4}))?(?!\w|\.\d)', c)
        for t in toks:
            if t.group(1):
                cur = short.get(os.path.basename(t.group(1)))
            elif cur:
                a = int(t.group(2)); b = int(t.group(3) or a)
                if a >= 10 and b >= a and b - a < 400:
                    cov[cur].update(range(a, b + 1))
for f in sorted(files):
    L = open(R + f).read().split('\n')
    code = [i + 1 for i, l in enumerate(L) if l.strip() and not l.strip().startswith('//')]
    un = [i for i in code if i not in cov[f]]
    rng = []
    for i in un:
        if rng and all(j not in cov[f] or not L[j-1].strip() for j in range(rng[-1][1] + 1, i)) and i - rng[-1][1] < 6:
            rng[-1][1] = i
        else:
            rng.append([i, i])
    print(f, 'code', len(code), 'cited', len(code) - len(un))
    if '-v' in sys.argv:
        print('   ', ' '.join(f'{a}-{b}' for a, b in rng))
