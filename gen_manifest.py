#!/usr/bin/env python3
"""Regenerate MANIFEST.json: theorems CNN_* found in lean/Verif/Props, status and notes from notes.json."""
import re,glob,json,os
os.chdir(os.path.dirname(os.path.abspath(__file__)))
notes=json.load(open('notes.json'))
th={}
for f in sorted(glob.glob('lean/Verif/Props/*.lean')):
    for m in re.finditer(r'^theorem (C(\d\d)_\w+)',open(f).read(),re.M):
        th.setdefault('C'+m.group(2),[]).append('JustJson.'+m.group(1))
props=[json.loads(l)['id'] for l in open('properties.jsonl') if l.strip()]
claims=[]
for p in props:
    if p not in th: continue
    n=notes.get(p,{})
    st=n.get('status') or 'proved'
    claims.append({"property":p,"status":st,"theorems":th[p],"note":n.get('note','')})
with open('MANIFEST.json','w') as f:
    f.write('{"claims": [\n'+',\n'.join(json.dumps(c) for c in claims)+'\n]}\n')
print(len(claims),'of',len(props),'missing',[p for p in props if p not in th])
