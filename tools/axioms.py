#!/usr/bin/env python3
"""Regenerates the axiom table of DESIGN.md (between the markers) from MANIFEST.json."""
import json,re,subprocess,collections
M=json.load(open('/verif/MANIFEST.json'))
names=[];seen=set()
for c in M['claims']:
    for t in c['theorems']:
        if t not in seen: seen.add(t);names.append(t)
open('/tmp/ax.lean','w').write('import Verif\n'+''.join('#print axioms %s\n'%n for n in names))
out=subprocess.run(['lake','env','lean','/tmp/ax.lean'],cwd='/verif/lean',capture_output=True,text=True).stdout
out=re.sub(r'\n\s+',' ',out)
g=collections.defaultdict(list)
for n in names:
    m=re.search(r"'%s' depends on axioms: \[(.*?)\]"%re.escape(n),out)
    if m: g[', '.join(sorted(x.strip() for x in m.group(1).split(',')))].append(n)
    elif "'%s' does not depend on any axioms"%n in out: g['none'].append(n)
    else: raise SystemExit('no answer for '+n)
s=['%d claimed theorems.'%len(names),'']
for k in sorted(g,key=lambda k:-len(g[k])):
    s.append('* **%s** (%d): %s'%(k,len(g[k]),', '.join('`%s`'%n.replace('Verif.','') for n in g[k])))
p='/verif/DESIGN.md';t=open(p).read()
a,b='<!-- axioms:begin -->','<!-- axioms:end -->'
t=t[:t.index(a)+len(a)]+'\n'+'\n'.join(s)+'\n'+t[t.index(b):]
open(p,'w').write(t)
for k in g: print(k,len(g[k]))
