#!/usr/bin/env python3
# Regenerates MANIFEST.json from the theorem names in lean/Verif/Props (cNN_ prefix) and notes below.
import re,glob,json,os
os.chdir(os.path.dirname(os.path.abspath(__file__)))
ids=[json.loads(l)['id'] for l in open('properties.jsonl') if l.strip()]
th={i:[] for i in ids}
for f in sorted(glob.glob('lean/Verif/Props/*.lean')):
    ns='Verif.Props'
    for m in re.finditer(r'^theorem (c(\d\d\d?)_\S+)',open(f).read(),re.M):
        th['C'+m.group(2)].append(ns+'.'+m.group(1))
notes=json.load(open('notes.json')) if os.path.exists('notes.json') else {}
claims=[]
for i in ids:
    n=notes.get(i,{})
    if not th[i]: 
        continue
    st=n.get('status') or ('partial' if any(t.endswith('_partial') for t in th[i]) else 'proved')
    claims.append({'property':i,'status':st,'theorems':th[i],'note':n.get('note','')})
json.dump({'claims':claims},open('MANIFEST.json','w'),indent=1)
print(len(claims),'claims;', 'missing', [i for i in ids if not th[i]])
