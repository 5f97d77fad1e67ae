import json,re,sys,glob
# collect theorems C??_ from Props
import collections
th=collections.defaultdict(list)
for f in sorted(glob.glob('/verif/lean/Verif/Props/*.lean')):
    ns=[]
    for l in open(f):
        m=re.match(r'namespace (\S+)',l)
        if m: ns.append(m.group(1))
        m=re.match(r'end (\S+)',l)
        if m and ns and ns[-1]==m.group(1): ns.pop()
        m=re.match(r'(?:protected )?theorem ((C\d+)_\S+)',l)
        if m: th[m.group(2)].append('.'.join(ns)+'.'+m.group(1))
notes=json.load(open('/verif/.notes.json')) if False else {}
exec(open('/verif/tools/notes.py').read())
claims=[]
for l in open('/verif/properties.jsonl'):
    d=json.loads(l); i=d['id']
    st,note=N.get(i,(None,''))
    if not th[i]:
        if st: claims.append({"property":i,"status":st,"theorems":[],"note":note})
        continue
    part=any(x.endswith('_partial') for x in th[i])
    if st is None: st='partial' if part or any('fails' in x for x in th[i]) else 'proved'
    claims.append({"property":i,"status":st,"theorems":th[i],"note":note})
json.dump({"claims":claims},open('/verif/MANIFEST.json','w'),indent=1)
for c in claims: print(c['property'],c['status'],len(c['theorems']),c['note'][:60])
