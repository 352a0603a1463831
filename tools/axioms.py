# writes AXIOMS.md: the axioms of every theorem in MANIFEST.json
import json,re,subprocess
m=json.load(open('/verif/MANIFEST.json'))
t=[x for c in m['claims'] for x in c['theorems']]
open('/tmp/axioms.lean','w').write("import Verif\n"+"\n".join("#print axioms "+x for x in t)+"\n")
out=subprocess.run(['lake','env','lean','/tmp/axioms.lean'],cwd='/verif/lean',capture_output=True,text=True).stdout
g={}
for n,a in re.findall(r"'([^']*)' (depends on axioms: \[[^\]]*\]|does not depend on any axioms)",out):
    a=re.sub(r'\s+',' ',a)
    g.setdefault(a,[]).append(n)
assert sum(map(len,g.values()))==len(t),(sum(map(len,g.values())),len(t))
with open('/verif/AXIOMS.md','w') as f:
    f.write('# Axioms of the theorems in MANIFEST.json\n')
    for a in sorted(g): f.write('\n## '+a[0].upper()+a[1:]+'\n\n'+'\n'.join('* `%s`'%n for n in sorted(g[a]))+'\n')
