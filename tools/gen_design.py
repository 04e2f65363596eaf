#!/usr/bin/env python3
"""Writes DESIGN.md: the prose below, and tables from properties.jsonl, MANIFEST.json and tools/axioms.json
(the latter written by tools/axioms.py)."""
import json, os, collections
R=os.path.dirname(os.path.dirname(os.path.abspath(__file__)))
P=[json.loads(l) for l in open(R+'/properties.jsonl')]
M={c['property']:c for c in json.load(open(R+'/MANIFEST.json'))['claims']}
A=json.load(open(R+'/tools/axioms.json')) if os.path.exists(R+'/tools/axioms.json') else {}
from design_notes import NOTES, HEAD, TAIL
o=[HEAD]
o.append('## 3. Property by property\n')
o.append('For each property: what is modelled, how it is proved, and where code and claim disagree. "Violation" theorems are proved '
 'counterexamples of the claim in the model of the code; a `_partial` theorem proves the part that is true.\n')
for p in P:
    c=M.get(p['id'],{'status':'(open)','theorems':[],'note':''})
    o.append(f"### {p['id']} — {p['title']} ({c['status']})\n")
    o.append(NOTES.get(p['id'],'').strip()+'\n')
    if c['note']: o.append('*Result.* '+c['note']+'\n')
    if c['theorems']: o.append('*Theorems.* '+', '.join('`'+t.split('.')[-1]+'`' for t in c['theorems'])+'\n')
o.append(TAIL)
o.append('## 6. Axioms of each theorem\n')
o.append('Output of `#print axioms` for every theorem of MANIFEST.json (regenerate with `tools/axioms.py`). No theorem depends on '
 'anything outside `propext`, `Classical.choice`, `Quot.sound`.\n')
g=collections.OrderedDict()
for c in M.values():
    for t in c['theorems']:
        g.setdefault(tuple(A.get(t,['not computed'])),[]).append(t)
for k,v in sorted(g.items()):
    o.append(f"**{', '.join(k) if k else 'no axioms'}** ({len(v)}): "+', '.join('`'+t.replace('Verif.','')+'`' for t in v)+'\n')
open(R+'/DESIGN.md','w').write('\n'.join(o))
