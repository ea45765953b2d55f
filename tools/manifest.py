import json,re,glob
thms={}
for f in glob.glob('/verif/lean/Verif/Props/*.lean'):
    ns=[]
    for l in open(f):
        m=re.match(r'namespace (\S+)',l)
        if m: ns.append(m.group(1))
        m=re.match(r'end (\S+)',l)
        if m and ns and ns[-1]==m.group(1): ns.pop()
        m=re.match(r'(?:theorem|lemma) (C\d\d\d?)(?!\d)(\S*)',l)
        if m: thms.setdefault(m.group(1),[]).append('.'.join(ns+[m.group(1)+m.group(2)]))
exec(open('/verif/tools/notes.py').read())
claims=[]
for l in open('/verif/properties.jsonl'):
    i=json.loads(l)['id']
    t=thms.get(i,[])
    if i in SHARED: t=t+SHARED[i]
    if not t and i not in NA: st='partial'; note='not yet proved'
    else:
        st=STATUS.get(i); 
        if st is None:
            st='partial' if any(x.endswith('_partial') or x.endswith('_violated') for x in t) else 'proved'
        note=NOTES.get(i,'')
    claims.append(dict(property=i,status=st,theorems=t,note=note))
json.dump(dict(claims=claims),open('/verif/MANIFEST.json','w'),indent=1,ensure_ascii=False)
from collections import Counter
print(Counter(c['status'] for c in claims), [c['property'] for c in claims if not c['theorems']])
