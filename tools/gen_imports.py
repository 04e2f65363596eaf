#!/usr/bin/env python3
"""Writes lean/Verif/Main/ImportData.lean: the import statements, top-level definitions and global names used by the
functions of the library modules, read from the text of /repo (nothing is executed)."""
import ast, builtins, symtable
R = '/repo/'
BASE = {'ikbtbasics.pykinsym': 'pykinsym', 'ikbtbasics.kin_cl': 'kin_cl', 'ikbtbasics.solutionGraphV3': 'solutionGraphV3',
        'ikbtbasics.matching': 'matching', 'ikbtbasics.ik_classes': 'ik_classes',
        'ikbtfunctions.helperfunctions': 'helperfunctions', 'ikbtfunctions.graph2latex': 'graph2latex'}
CLIENT = ['ikbtfunctions.ik_robots', 'ikbtfunctions.output_cpp', 'ikbtfunctions.output_latex', 'ikbtfunctions.output_python',
          'ikbtleaves.assigner_leaf', 'ikbtleaves.comp_detect', 'ikbtleaves.updateL', 'ikbtleaves.algebra_solver',
          'ikbtleaves.tan_solver', 'ikbtleaves.sincos_solver', 'ikbtleaves.sinANDcos_solver', 'ikbtleaves.rank_leaf',
          'ikbtleaves.sub_transform', 'ikbtleaves.sum_id', 'ikbtleaves.two_eqn_m7', 'ikbtleaves.x2y2_transform',
          'fkOnly', 'ikSolver', 'foward_kin', 'forward_kin2', 'fk_EE543']
cname = lambda m: m.split('.')[-1]
path = lambda m: m.replace('.', '/') + '.py'
tree = {m: ast.parse(open(R + path(m)).read()) for m in list(BASE) + CLIENT}
names, exts = [], []
def N(n):
    if n not in names: names.append(n)
    return '.' + n
def E(n):
    if n not in exts: exts.append(n)
    return '.' + n
def expand(s):                      # the name patterns of sp.var
    out = []
    for k in s.replace(',', ' ').split():
        if ':' in k:
            a, b = k.split(':'); out += [a + str(i) for i in range(int(b))]
        else: out.append(k)
    return out
def loads(node):
    return [x.id for x in ast.walk(node) if isinstance(x, ast.Name) and isinstance(x.ctx, ast.Load) and not hasattr(builtins, x.id)]
def vars_(node):
    return [k for x in ast.walk(node) if isinstance(x, ast.Call) and ast.unparse(x.func) == 'sp.var'
            and isinstance(x.args[0], ast.Constant) for k in expand(x.args[0].value)]
def need(ns):
    ns = list(dict.fromkeys(ns))
    return ['.need [%s]' % ', '.join(map(N, ns))] if ns else []
def body(m):
    me, out = BASE[m], []
    def put(line, l): out.append((line, l))
    for st in tree[m].body:
        if isinstance(st, ast.Import):
            for a in st.names:
                assert a.asname or '.' not in a.name
                put(st.lineno, ['.importAs .%s %s' % (BASE[a.name], N(a.asname)) if a.name in BASE else
                                '.importExt %s %s' % (E(a.name), N(a.asname or a.name))])
        elif isinstance(st, ast.ImportFrom):
            assert [a.name for a in st.names] == ['*'] and st.module in BASE
            put(st.lineno, ['.star .%s' % BASE[st.module]])
        elif isinstance(st, (ast.FunctionDef, ast.ClassDef)):
            l, v = [], []
            if isinstance(st, ast.ClassDef):
                for b in st.bases: l += loads(b)
                fs = [q for q in st.body if isinstance(q, ast.FunctionDef)]
                assert all(isinstance(q, (ast.FunctionDef, ast.Expr, ast.Pass)) for q in st.body), (m, st.lineno)
            else: fs = [st]
            for q in fs:
                assert not q.decorator_list
                for d in q.args.defaults: l += loads(d); v += vars_(d)
            put(st.lineno, need(l) + ['.bind %s (.sym %s)' % (N(k), N(k)) for k in v] +
                ['.bind %s (.obj .%s %d)' % (N(st.name), me, st.lineno)])
        elif isinstance(st, ast.Expr):
            if isinstance(st.value, ast.Constant): continue
            put(st.lineno, need(loads(st.value)) + ['.bind %s (.sym %s)' % (N(k), N(k)) for k in vars_(st.value)])
        elif isinstance(st, ast.Assign):
            assert len(st.targets) == 1
            t = st.targets[0]
            l = need(loads(st.value) + (loads(t) if isinstance(t, ast.Subscript) else []))
            if isinstance(t, ast.Subscript): put(st.lineno, l)
            else:
                ts = [x.id for x in (t.elts if isinstance(t, ast.Tuple) else [t])]
                symbols = isinstance(st.value, ast.Call) and ast.unparse(st.value.func) == 'sp.symbols'
                if symbols:
                    assert [c.value for c in st.value.args[0].elts] == ts
                put(st.lineno, l + ['.bind %s %s' % (N(k), '(.sym %s)' % N(k) if symbols else '(.obj .%s %d)' % (me, st.lineno)) for k in ts])
        elif isinstance(st, ast.Delete):
            put(st.lineno, ['.del %s' % N(x.id) for x in st.targets])
        elif isinstance(st, ast.If):
            assert '__name__' in ast.unparse(st.test)
        else: assert False, ast.unparse(st)
    return out
def functions(m):
    me = BASE[m]
    src = open(R + path(m)).read()
    fns = {}
    for st in tree[m].body:
        if isinstance(st, ast.FunctionDef): fns[(st.name,)] = st
        elif isinstance(st, ast.ClassDef) and not any('TestCase' in ast.unparse(b) for b in st.bases):
            for q in st.body:
                if isinstance(q, ast.FunctionDef): fns[(st.name, q.name)] = q
    use = {k: set() for k in fns}
    def walk(t, p):
        for c in t.get_children():
            q = p + (c.get_name(),)
            k = q[:2] if q[:2] in fns else q[:1]
            if k in fns and c.get_type() == 'function':
                use[k] |= {s.get_name() for s in c.get_symbols() if s.is_global() and s.is_referenced()}
            walk(c, q)
    walk(symtable.symtable(src, path(m), 'exec'), ())
    aliases = {a.asname: a.name for st in tree[m].body if isinstance(st, ast.Import) for a in st.names if a.name in BASE}
    if m == 'ikbtbasics.kin_cl': aliases['kc'] = 'ikbtbasics.kin_cl'
    out = []
    for k, f in fns.items():
        ns = [n for n in sorted(use[k]) if not hasattr(builtins, n) and n not in vars_(f)]
        at = sorted({(x.value.id, x.attr) for x in ast.walk(f) if isinstance(x, ast.Attribute) and isinstance(x.value, ast.Name)
                     and x.value.id in aliases})
        if k == ('run_test',): continue
        out.append('⟨.%s, "%s", %d, [%s], [%s]⟩' % (me, '.'.join(k), f.lineno, ', '.join(map(N, ns)),
                   ', '.join('(%s, %s)' % (N(a), N(b)) for a, b in at)))
    return out
def reaches(m):
    out = []
    for st in tree[m].body:
        def one(n):
            if n in BASE: out.append((st.lineno, '.base .%s' % BASE[n]))
            elif n in CLIENT: out.append((st.lineno, '.client .%s' % cname(n)))
        if isinstance(st, ast.Import):
            for a in st.names: one(a.name)
        elif isinstance(st, ast.ImportFrom):
            if st.module == 'ikbtbasics' and st.names[0].name == '*': out.append((st.lineno, '.package'))
            elif st.module in ('ikbtbasics', 'ikbtfunctions', 'ikbtleaves'):
                for a in st.names: one(st.module + '.' + a.name)
            else: one(st.module)
    return out
bodies = {m: body(m) for m in BASE}
fnl = [x for m in BASE for x in functions(m)]
def wrap(xs, ind, w=112):
    ls, cur = [], ' ' * ind
    for i, x in enumerate(xs):
        p = x + (', ' if i < len(xs) - 1 else '')
        if len(cur) + len(p) > w and cur.strip(): ls.append(cur.rstrip()); cur = ' ' * ind
        cur += p
    return '\n'.join(ls + [cur.rstrip()])
o = []
o.append('''/-!
# What the library modules import, define and use (generated)

Written by tools/gen_imports.py from the text of the sources; the numbers in the comments are line numbers of the
module's file.  Modules: `/repo/ikbtbasics/{pykinsym,kin_cl,solutionGraphV3,matching,ik_classes}.py` and
`/repo/ikbtfunctions/{helperfunctions,graph2latex}.py`; clients: the other modules and programs that import them.
Left out: `if __name__ == "__main__":` blocks, test classes' methods, docstrings.
-/

namespace Verif.Imports

/-- The modules that the other modules of the library are built on. -/
inductive Mod where
  | %s
  deriving DecidableEq, Repr

/-- Modules of other projects (`import sympy as sp` …); `b3` does not import the library. -/
inductive Ext where
  | %s
  deriving DecidableEq, Repr

/-- The names that the modules bind or use. -/
inductive N where
%s
  deriving DecidableEq, Repr
''' % (' | '.join(BASE.values()), ' | '.join(exts), '\n'.join('  ' + l.strip() for l in wrap(['| ' + n for n in names], 2).replace(', |', ' |').replace(',\n', '\n').split('\n'))))
o.append('''/-- What a name can stand for: the object made by the statement in a line of a module (a class, a function, a value), a
library module, a foreign module, or the sympy symbol of that name (symbols of the same name are equal). -/
inductive Val where
  | obj (m : Mod) (line : Nat)
  | module (m : Mod)
  | ext (e : Ext)
  | sym (n : N)
  deriving DecidableEq, Repr

/-- A top-level statement, as far as names are concerned. -/
inductive Stmt where
  /-- `import e as n` of a foreign module -/
  | importExt (e : Ext) (n : N)
  /-- `import m as n` of a library module -/
  | importAs (m : Mod) (n : N)
  /-- `from m import *` -/
  | star (m : Mod)
  /-- names that the statement evaluates (right-hand sides, base classes, default values) -/
  | need (ns : List N)
  /-- `def`, `class`, assignment, `sp.var` -/
  | bind (n : N) (v : Val)
  /-- `del n` -/
  | del (n : N)
  deriving DecidableEq, Repr

/-- The top-level statements of the modules, in order (the files and lines in the comments). -/
def body : Mod → List Stmt''')
for m, b in bodies.items():
    o.append('  | .%s => [   -- %s' % (BASE[m], path(m)))
    for i, (ln, l) in enumerate(b):
        t = wrap(l, 6)
        o.append(t + (',' if i < len(b) - 1 else '') + '   -- %d' % ln)
    o.append('    ]')
o.append('''
/-- A function or method: the module it is defined in, its name and line, the global names its body uses (without builtins
and without the symbols it creates itself with `sp.var`), and the attributes of library modules it uses. -/
structure Fn where
  m : Mod
  name : String
  line : Nat
  names : List N
  attrs : List (N × N)
  deriving DecidableEq, Repr

/-- All functions and methods of the modules (files as in `body`). -/
def functions : List Fn := [
%s]

/-- The other modules of the library and its programs. -/
inductive Client where
  | %s
  deriving DecidableEq, Repr

/-- What a client imports. -/
inductive Target where
  | base (m : Mod)
  | client (c : Client)
  /-- `from ikbtbasics import *`: all modules of the package, in the order of `glob` (ikbtbasics/__init__.py:7-8) -/
  | package
  deriving DecidableEq, Repr

/-- The library modules that a client imports, in order (the files and lines in the comments). -/
def imports : Client → List Target''' % (',\n'.join('  ' + x for x in fnl), ' | '.join(map(cname, CLIENT))))
for m in CLIENT:
    r = reaches(m)
    o.append('  | .%s => [%s]   -- %s: %s' % (cname(m), ', '.join(x for _, x in r), path(m), ', '.join(str(l) for l, _ in r)))
o.append('\nend Verif.Imports')
open('/verif/lean/Verif/Main/ImportData.lean', 'w').write('\n'.join(o) + '\n')
print(len(names), 'names', len(fnl), 'functions')
