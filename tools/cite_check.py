# Lists model definitions whose comment cites no source lines. Run in lean/Verif: python3 ../../tools/cite_check.py Model/*.lean
import re,sys
def defs(f):
    L=open(f).read().split('\n')
    for i,l in enumerate(L):
        m=re.match(r'^(?:@\[[^\]]*\]\s*)?(?:private |protected |noncomputable |partial )*(def|structure|inductive|abbrev|class)\s+(\S+)',l)
        if not m: continue
        j=i-1
        while j>=0 and (L[j].startswith('@[') or L[j].strip().startswith('open') or re.match(r'^(set_option|variable)',L[j])): j-=1
        doc='';k=None
        if j>=0 and L[j].rstrip().endswith('-/'):
            k=j
            while k>=0 and '/-' not in L[k]: k-=1
            if '/--' in L[k]: doc='\n'.join(L[k:j+1])
            else: k=None
        yield i,m.group(2),(k,j) if k is not None else None,doc,L
if __name__=='__main__':
    for f in sys.argv[1:]:
        print('#####',f)
        for i,n,pos,doc,L in defs(f):
            if not re.search(r'hpp:\d|\d{2,4}|no code',doc):
                print('==',i+1,doc)
                print('\n'.join(L[i:i+6]))
