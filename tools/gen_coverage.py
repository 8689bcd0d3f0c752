#!/usr/bin/env python3
"""Write COVERAGE.md: for every source file in /repo, the model modules that cite it and the cited lines."""
import os, re, collections
REPO='/repo'
files=[os.path.relpath(os.path.join(r,f),REPO) for top in ('src','bench') for r,_,fs in os.walk(os.path.join(REPO,top)) for f in fs if f.endswith('.py')]
by_base=collections.defaultdict(list)
for f in files: by_base[os.path.basename(f)].append(f)
cited=collections.defaultdict(lambda: collections.defaultdict(set)); unresolved=collections.Counter()
LEAN='/verif/lean/Verif'
for r,_,fs in os.walk(LEAN):
    for f in sorted(fs):
        if not f.endswith('.lean'): continue
        p=os.path.join(r,f); mod='Verif.'+os.path.relpath(p,LEAN)[:-5].replace('/','.')
        s=open(p).read()
        full=[g for g in files if g in s or g.replace('src/modssc/','') in s]
        last=None
        for m in re.finditer(r'([\w/]+\.py)|(?:(?<=[:\s(])l\. ?|(?<=\.py):\s*|(?<=\.py`):\s*|(?<=\.py)\s+|(?<=and )l\.)(\d+(?:-\d+)?(?:(?:,|, | and )\s*\d+(?:-\d+)?)*)',s):
            name,lines=m.groups()
            if name: last=name; continue
            if not lines or last is None: continue
            name=last
            cand=[g for g in files if g.endswith('/'+name) or g==name]
            if len(cand)>1:
                c2=[g for g in cand if g in full]
                if c2: cand=c2
            if len(cand)>1:
                area=os.path.relpath(p,LEAN).split('/')[0].lower()
                area={'dataloader':'data_loader','augment':'data_augmentation','augmentation':'data_augmentation','deep':'inductive'}.get(area,area)
                c2=[g for g in cand if area in g]
                if c2: cand=c2
            ov={('Verif.Graph.FeatModel','api.py'):'src/modssc/graph/featurization/api.py',('Verif.Transductive.LaplaceModel','common.py'):'src/modssc/transductive/methods/classic/common.py',('Verif.Transductive.LazyModel','common.py'):'src/modssc/transductive/methods/classic/common.py',('Verif.Inductive.LoopModel','validation.py'):'src/modssc/inductive/validation.py'}
            if len(cand)!=1 and (mod,name) in ov: cand=[ov[(mod,name)]]
            if len(cand)!=1: unresolved[(mod,name)]+=1; continue
            for x in re.findall(r'\d+(?:-\d+)?',lines): cited[cand[0]][mod].add(x)
def key(x): return int(x.split('-')[0])
out=['# Coverage of the source','','Generated by `tools/gen_coverage.py` from the citations in the model: for every source file, the modules that model it','and the cited lines. Files without an entry in the second column are not modelled.','','| source file | modelled in | cited lines |','|---|---|---|']
n=0; nl=0; tot=0
for f in sorted(files):
    L=sum(1 for _ in open(os.path.join(REPO,f)))
    if os.path.basename(f)=='__init__.py' and f not in cited: continue
    ls=set()
    for m in cited.get(f,{}).values(): ls|=m
    cov=set()
    for x in ls:
        a,b=(x.split('-')+[x])[:2] if '-' in x else (x,x)
        if int(b)>=int(a): cov|=set(range(int(a),min(int(b),L)+1))
    if f in cited: n+=1
    tot+=L; nl+=len(cov)
    out.append(f"| {f} ({L}) | {', '.join(sorted(m.replace('Verif.','') for m in cited.get(f,{})))} | {', '.join(sorted(ls,key=key))} |")
out.insert(4,f'\n{n} source files are cited.')
open('/verif/COVERAGE.md','w').write('\n'.join(out)+'\n')
print(n,len(files),nl,tot,'unresolved',sum(unresolved.values())); print(unresolved.most_common(40))
