#!/usr/bin/env python3
"""Writes ../MANIFEST.json from the theorem names found in lean/Verif/Props and the notes below."""
import json, os, re, glob
root=os.path.dirname(os.path.dirname(os.path.abspath(__file__)))
names={}
for f in sorted(glob.glob(root+'/lean/Verif/Props/*.lean')):
    for m in re.finditer(r'^theorem (C\d\d+_\w+)',open(f).read(),re.M):
        names.setdefault(m.group(1).split('_')[0],[]).append(m.group(1))
exec(open(os.path.join(root,'tools','notes.py')).read())
ids=[json.loads(l)['id'] for l in open(root+'/properties.jsonl')]
claims=[]
for i in ids:
    st,note=NOTES.get(i,(None,''))
    ts=names.get(i,[])
    if st is None and not ts: continue
    if st is None: st='partial' if any(t.endswith('_partial') for t in ts) else 'proved'
    claims.append(dict(property=i,status=st,theorems=ts,note=note))
json.dump({"claims":claims},open(root+'/MANIFEST.json','w'),indent=1)
print({s:sum(c['status']==s for c in claims) for s in ('proved','partial','not_applicable')}, 'missing', [i for i in ids if i not in [c['property'] for c in claims]])
