#!/usr/bin/env python3
"""Writes tools/axioms.json: the axioms each theorem of MANIFEST.json depends on."""
import json,subprocess,re,os,tempfile,collections
R=os.path.dirname(os.path.dirname(os.path.abspath(__file__)))
m=json.load(open(R+'/MANIFEST.json'))
ths=[t for c in m['claims'] for t in c['theorems']]
f=tempfile.NamedTemporaryFile('w',suffix='.lean',delete=False)
f.write('import Verif\n'+'\n'.join('#print axioms '+t for t in ths)); f.close()
o=subprocess.run(['lake','env','lean',f.name],cwd=R+'/lean',capture_output=True,text=True)
out=o.stdout+o.stderr
d={}
for x in re.finditer(r"'([^']+)' (depends on axioms: \[([^\]]*)\]|does not depend on any axioms)",out):
    d[x.group(1)]=sorted(a.strip() for a in (x.group(3) or '').replace('\n',' ').split(',') if a.strip())
miss=[t for t in ths if t not in d]
if miss: print('MISSING',miss); print(out[:2000])
json.dump(d,open(R+'/tools/axioms.json','w'),indent=0,sort_keys=True)
print(collections.Counter(tuple(v) for v in d.values()))
