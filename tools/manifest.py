#!/usr/bin/env python3
"""Regenerate MANIFEST.json: theorems named Cnn_* in lean/Verif/Props are grouped by property."""
import re,glob,json,os
root=os.path.dirname(os.path.dirname(os.path.abspath(__file__)))
th={}
for f in sorted(glob.glob(root+'/lean/Verif/Props/*.lean')):
    for m in re.finditer(r'^(?:private )?theorem (C\d\d)_([A-Za-z0-9_\']+)',open(f).read(),re.M):
        th.setdefault(m.group(1),[]).append('Afs.'+m.group(1)+'_'+m.group(2))
status=json.load(open(root+'/tools/status.json'))
claims=[]
for l in open(root+'/properties.jsonl'):
    i=json.loads(l)['id']
    st=status.get(i)
    if st is None: continue
    claims.append({"property":i,"status":st[0],"theorems":th.get(i,[]),"note":st[1]})
with open(root+'/MANIFEST.json','w') as o:
    o.write('{"claims": [\n'+',\n'.join(' '+json.dumps(c,ensure_ascii=False) for c in claims)+'\n]}\n')
print(len(claims),'claims',sum(len(c['theorems']) for c in claims),'theorems')
