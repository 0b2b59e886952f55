import json,subprocess
m=json.load(open('/verif/MANIFEST.json'))
names=[t for c in m['claims'] for t in c['theorems']]
src="import Verif\n"+"\n".join(f"#print axioms {n}" for n in names)
open('/tmp/work/Ax.lean','w').write(src)
p=subprocess.run(['lake','env','lean','/tmp/work/Ax.lean'],cwd='/verif/lean',capture_output=True,text=True)
out=p.stdout+p.stderr
import re,collections
c=collections.Counter()
cur=re.findall(r"'([^']+)' (depends on axioms: \[[^\]]*\]|does not depend on any axioms)",out)
res={}
for n,a in cur:
    a=re.sub(r"\s+"," ",a); c[a]+=1; res[n]=a
print(len(names),len(cur)); print(c)
print(out[:300] if len(cur)!=len(names) else "")
json.dump(res,open('/tmp/work/ax.json','w'))
