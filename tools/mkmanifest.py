#!/usr/bin/env python3
"""Regenerate MANIFEST.json: claims table below."""
import json,glob,re
C={}
exec(open('/verif/tools/claims.py').read())
names=set()
for f in glob.glob('/verif/lean/Verif/**/*.lean',recursive=True):
    for m in re.finditer(r'^(?:private )?theorem ([\w\.\']+)',open(f).read(),re.M): names.add(m.group(1))
out=[]
for k in sorted(C):
    st,th,note=C[k]
    for t in th:
        assert t in names,(k,t)
    out.append({"property":k,"status":st,"theorems":["Mips."+t for t in th],"note":note})
used={t for k in C for t in C[k][1]}
for n in sorted(names):
    if re.match(r'C\d\d_',n) and n not in used: print('unused',n)
json.dump({"claims":out},open('/verif/MANIFEST.json','w'),indent=1)
ids=[json.loads(l)['id'] for l in open('/verif/properties.jsonl')]
print('missing',[i for i in ids if i not in C])
