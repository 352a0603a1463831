# builds MANIFEST.json from /verif/claims.py-like dict; auto-collects theorems named Cxx_ in Props
import json,re,glob
props=[json.loads(l) for l in open('/verif/properties.jsonl')]
notes=json.load(open('/verif/tools/notes.json'))
th={}
for f in sorted(glob.glob('/verif/lean/Verif/Props/*.lean')):
    ns=[]
    for line in open(f):
        m=re.match(r'namespace\s+(\S+)',line)
        if m: ns.append(m.group(1))
        m=re.match(r'end\s+(\S+)',line)
        if m and ns and m.group(1)==ns[-1]: ns.pop()
        m=re.match(r'(?:@\[[^\]]*\]\s*)?theorem\s+((C\d+)_\S+)',line)
        if m: th.setdefault(m.group(2),[]).append('.'.join(ns+[m.group(1)]))
claims=[]
for p in props:
    i=p['id']
    n=notes.get(i,{})
    if i in th:
        claims.append(dict(property=i,status=n.get('status','proved'),theorems=th[i],note=n.get('note','')))
    else:
        claims.append(dict(property=i,status=n.get('status','partial'),theorems=[],note=n.get('note','not yet proved')))
json.dump({"claims":claims},open('/verif/MANIFEST.json','w'),indent=1)
for c in claims: print(c['property'],c['status'],len(c['theorems']))
