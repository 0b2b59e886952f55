import re,glob,json
notes=json.load(open('/verif/tools/notes.json'))
th={}
for f in sorted(glob.glob('/verif/lean/Verif/Props/*.lean')):
    for m in re.finditer(r'^theorem (C\d{2,3}_\S+)',open(f).read(),re.M):
        th.setdefault(m.group(1).split('_')[0],[]).append('MplLayout.Props.'+m.group(1))
out=[]
for l in open('/verif/properties.jsonl'):
    c=json.loads(l)['id']
    if c not in th:
        print('missing',c); continue
    n=notes.get(c,{})
    status=n.get('status','proved')
    if any('_partial' in t for t in th[c]) and status=='proved': print('WARN',c,'has partial')
    out.append(dict(property=c,status=status,theorems=th[c],note=n.get('note','')))
json.dump({'claims':out},open('/verif/MANIFEST.json','w'),indent=1)
print(len(out))
