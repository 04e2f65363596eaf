# Writes lean/Verif/Out/RobotTable.lean from the text of ikbtfunctions/ik_robots.py (parsed as text, not run).
import ast,re
src=open('/repo/ikbtfunctions/ik_robots.py').read()
T=ast.parse(src)
fn=[f for f in T.body if isinstance(f,ast.FunctionDef) and f.name=='robot_params'][0]
def q(s): return '"'+s+'"'
def isconst(e):
    # numbers and multiples of sp.pi
    if isinstance(e,ast.Constant): return True
    if isinstance(e,ast.Attribute): return e.attr=='pi'
    if isinstance(e,ast.UnaryOp): return isconst(e.operand)
    if isinstance(e,ast.BinOp): return isconst(e.left) and isconst(e.right)
    return False
def cell(e):
    if isinstance(e,ast.Constant) and e.value==0: return '.zero'
    if isconst(e): return '.con '+q(ast.unparse(e).replace(' ',''))
    if isinstance(e,ast.Name): return '.sym '+q(e.id)
    if isinstance(e,ast.UnaryOp) and isinstance(e.operand,ast.Name): return '.neg '+q(e.operand.id)
    if isinstance(e,ast.BinOp) and isinstance(e.op,ast.Add) and isconst(e.left) and isinstance(e.right,ast.Name):
        return '.off '+q(ast.unparse(e.left).replace(' ',''))+' '+q(e.right.id)
    raise Exception(ast.dump(e))
names=None; robots=[]
for st in fn.body:
    if isinstance(st,ast.Assign) and st.targets[0].id=='List':
        names=[x.value for x in st.value.elts]; nl=(st.lineno,st.end_lineno)
    if isinstance(st,ast.If) and isinstance(st.test,ast.Compare) and isinstance(st.test.left,ast.Name) and isinstance(st.test.ops[0],ast.Eq):
        nm=st.test.comparators[0].value; d={}
        for s in st.body:
            if isinstance(s,ast.Assign): d[s.targets[0].id]=s.value
        rows=[[cell(c) for c in r.elts] for r in d['dh'].args[0].elts]
        robots.append(dict(name=nm,l=(st.lineno,st.end_lineno),rows=rows,vv=[x.value for x in d['vv'].elts],
          params=[x.id for x in d['params'].elts], pvals=[k.id for k in d['pvals'].keys], vars=[v.args[0].id for v in d['variables'].elts]))
o=['import Verif.Out.RobotModel','/-!','# The table of ikbtfunctions/ik_robots.py','',
'Generated by tools/gen_robots.py from the text of the source; each entry cites its lines.','-/','namespace Verif.Out','']
o.append('/-- ik_robots.py:%d-%d: the names offered; adjacent string literals are concatenated, as python does -/'%nl)
o.append('def offered : List String := ['+', '.join(map(q,names))+']\n')
for i,r in enumerate(robots):
    o.append('/-- ik_robots.py:%d-%d -/'%r['l'])
    o.append('def robot%d : Block :='%i)
    o.append('  let dh : List (List Cell) := [')
    o.append(',\n'.join('    [%s]'%', '.join(x) for x in r['rows'])+']')
    o.append('  { name := %s, dh := dh, vv := %s,'%(q(r['name']),r['vv']))
    o.append('    '+', '.join('%s := [%s]'%(k,', '.join(map(q,r[k]))) for k in ['vars','params','pvals'])+' }\n')
o.append('/-- the blocks in the order of the source -/')
o.append('def blocks : List Block := ['+', '.join('robot%d'%i for i in range(len(robots)))+']\n')
o.append('end Verif.Out')
open('/verif/lean/Verif/Out/RobotTable.lean','w').write('\n'.join(o)+'\n')
defd=[r['name'] for r in robots]
print(set(names)-set(defd), set(defd)-set(names), len(names),len(defd))
for r in robots:
    vs=r['vars']
    bad=[]
    if len(r['rows'])!=6: bad.append('rows')
    if len(r['vv'])!=6: bad.append('vv%d'%len(r['vv']))
    for i,v in enumerate(vs):
        if i<len(r['vv']):
            c=r['rows'][i][3 if r['vv'][i]==1 else 2]
            if q(v) not in c: bad.append(('var',v,c))
    syms=set(re.findall(r'"(\w+)"',' '.join(c for row in r['rows'] for c in row if not c.startswith('.con'))))
    syms=set(s for s in syms if not s.startswith('sp'))
    if syms-set(vs)-set(r['params']): bad.append(('undeclared',syms-set(vs)-set(r['params'])))
    if set(r['params'])-syms: bad.append(('unused',set(r['params'])-syms))
    if r['params']!=r['pvals']: bad.append(('pvals',r['params'],r['pvals']))
    if set(r['params'])&set(vs): bad.append('overlap')
    if bad: print(r['name'],bad)
