import re,glob,json,collections
names=collections.defaultdict(list)
for f in sorted(glob.glob('/verif/lean/Verif/Props/**/*.lean',recursive=True)):
    for m in re.finditer(r'^theorem (C(\d\d+)_\w+\'*)',open(f).read(),re.M):
        names['C'+m.group(2)].append('Grassfire.'+m.group(1))
notes=json.load(open('/verif/tools/notes.json'))
props=[json.loads(l)['id'] for l in open('/verif/properties.jsonl')]
claims=[]
for p in props:
    st,note=notes.get(p,(None,''))
    if not names[p]:
        claims.append(dict(property=p,status='partial',theorems=[],note=note or 'not yet modelled')) if st!='not_applicable' else claims.append(dict(property=p,status=st,theorems=[],note=note))
        continue
    if st is None: st='partial' if any('partial' in n for n in names[p]) else 'proved'
    claims.append(dict(property=p,status=st,theorems=names[p],note=note))
claims=[c for c in claims if c['theorems'] or c['status']=='not_applicable']
json.dump({'claims':claims},open('/verif/MANIFEST.json','w'),indent=1)
print(len(claims),[ (c['property'],c['status'],len(c['theorems'])) for c in claims])
print("missing",[p for p in props if not names[p]])
