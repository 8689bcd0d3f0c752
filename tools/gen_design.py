#!/usr/bin/env python3
"""Regenerate the property index of DESIGN.md (between the markers) from properties.jsonl, MANIFEST.json and the sources."""
import json, os, re, collections
LEAN='/verif/lean/Verif'
where=collections.defaultdict(set)
for r,_,fs in os.walk(LEAN):
    for f in fs:
        if f.endswith('.lean'):
            p=os.path.join(r,f)
            for m in re.finditer(r'^theorem (C\d+)_',open(p).read(),re.M): where[m.group(1)].add(os.path.relpath(p,LEAN)[:-5])
man={c['property']:c for c in json.load(open('/verif/MANIFEST.json'))['claims']}
out=[]
for l in sorted(open('/verif/properties.jsonl'),key=lambda l:int(json.loads(l)['id'][1:])):
    d=json.loads(l); c=man.get(d['id'],{})
    note=c.get('note','')
    out.append(f"* {d['id']} {d['title']} ({c.get('status','open')}; {', '.join(sorted(where[d['id']]))}). {note}".rstrip())
s=open('/verif/DESIGN.md').read()
a='<!-- index begin -->\n'; b='<!-- index end -->'
i=s.index(a)+len(a); j=s.index(b)
open('/verif/DESIGN.md','w').write(s[:i]+'\n'.join(out)+'\n'+s[j:])
print(len(out))
