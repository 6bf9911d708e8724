#!/usr/bin/env python3
"""Read-set analysis of the shipped spectrum classes (property C09).

Parses the pyRSD source text (never imports it) and lists, for every parameter / cached property / interpolated
function of the shipped classes, its declared parents and the managed attributes the code computing it can read
(closed through plain methods, plain properties, decorators of PT integrals, helper functions that are passed the
model, and the angular-term objects of the power terms).  Writes lean/Verif/Model/ShippedDeps.lean.
"""
import ast, os, sys
REPO = '/repo/pyRSD/rsd'
HERE = os.path.dirname(os.path.dirname(os.path.abspath(__file__)))
FILES = ['_cache.py', 'sim_loader.py', 'pt_integrals.py', 'nonlinear_biasing.py', 'power/dm/power_dm.py',
         'power/biased/power_biased.py', 'power/biased/power_halo.py', 'power/qso/power_qso.py',
         'power/gal/power_gal.py']
MODELS = ['DarkMatterSpectrum', 'BiasedSpectrum', 'HaloSpectrum', 'QuasarSpectrum', 'GalaxySpectrum']
# cached objects that the parameter setters update in place (`_update_models`): object -> pushed parameters
PUSHED = {}
# instance attributes that are not parameters but are mutated by the public API
PSEUDO = {'_loaded_data': 'sim_loader.py:59,69'}
# dynamic getattr that is not followed (the "map to other term" branch of the nonlinear biasing)
DYNAMIC_OK = {('_get_nonlinear_biasing_function', 't')}

class Member:
    def __init__(s, kind, file, line, fn=None, parents=(), interp=False, domain=None, default=None, wraps=None):
        s.kind, s.file, s.line, s.fn, s.parents, s.interp, s.domain, s.default, s.wraps = \
            kind, file, line, fn, list(parents), interp, domain, default, wraps

mods, classes = {}, {}
def parse(f):
    if f in mods: return mods[f]
    tree = ast.parse(open(os.path.join(REPO, f)).read())
    mods[f] = tree
    return tree

def const(e, env={}):
    if isinstance(e, ast.Constant): return e.value
    if isinstance(e, ast.Name) and e.id in env: return env[e.id]
    if isinstance(e, ast.BinOp) and isinstance(e.op, ast.Add):
        a, b = const(e.left, env), const(e.right, env)
        if a is not None and b is not None: return a + b
    return None

def collect(f):
    for node in parse(f).body:
        if not isinstance(node, ast.ClassDef): continue
        mem = {}
        for b in node.body:
            if isinstance(b, ast.FunctionDef):
                m = None
                for d in b.decorator_list:
                    call = isinstance(d, ast.Call)
                    nm = d.func if call else d
                    nm = nm.id if isinstance(nm, ast.Name) else nm.attr
                    if nm == 'parameter':
                        dflt = None
                        if call:
                            for kw in d.keywords:
                                if kw.arg == 'default': dflt = kw.value.value
                        m = Member('param', f, b.lineno, b, default=dflt)
                    elif nm in ('cached_property', 'interpolated_function'):
                        ps = [a.value for a in d.args]
                        dom = 'k_interp'
                        for kw in d.keywords:
                            if kw.arg == 'interp': dom = kw.value.value
                        m = Member('cached', f, b.lineno, b, ps, nm == 'interpolated_function',
                                   dom if nm == 'interpolated_function' else None)
                    elif nm in ('property', 'classmethod', 'staticmethod'):
                        m = Member('plain', f, b.lineno, b)
                    else:
                        m = Member('decorated', f, b.lineno, b)
                mem[b.name] = m or Member('plain', f, b.lineno, b)
            elif isinstance(b, ast.Assign) and isinstance(b.targets[0], ast.Name):
                v = b.value
                if isinstance(v, ast.Call) and isinstance(v.func, ast.Name) and v.func.id.startswith('normalize_'):
                    mem[b.targets[0].id] = Member('normalized', f, b.lineno, wraps=v.args[0].id)
                else:
                    mem[b.targets[0].id] = Member('const', f, b.lineno)
        bases = [x.id for x in node.bases if isinstance(x, ast.Name) and x.id != 'object']
        classes[node.name] = (bases, mem, f)

def find_func(modfile, name):
    """module-level function or class, following `from .X import name`"""
    tree = parse(modfile)
    for n in tree.body:
        if isinstance(n, (ast.FunctionDef, ast.ClassDef)) and n.name == name: return modfile, n
    for n in ast.walk(tree):
        if isinstance(n, ast.ImportFrom) and any(a.name == name for a in n.names) and n.level == 1 and n.module:
            f2 = os.path.join(os.path.dirname(modfile), n.module.replace('.', '/') + '.py')
            if os.path.exists(os.path.join(REPO, f2)): return find_func(f2, name)
    return None

def analyse(fn, modfile, isroot, env, out, where, depth=0):
    """collect attribute names read from the model in the body of `fn`"""
    for st in fn.body: walk(st, modfile, isroot, env, out, where, fn.name, depth)

def walk(node, modfile, isroot, env, out, where, fname, depth):
    if isinstance(node, ast.Attribute) and isinstance(node.value, ast.Attribute) and isroot(node.value.value) \
            and node.value.attr == 'hzpt' and isinstance(node.ctx, ast.Load):
        out.append(('hzpt.' + node.attr, '%s:%d' % (where, node.lineno)))
        return
    if isinstance(node, ast.Attribute) and isroot(node.value):
        if isinstance(node.ctx, ast.Load): out.append((node.attr, '%s:%d' % (where, node.lineno)))
        return
    if isinstance(node, ast.Call):
        f = node.func
        if isinstance(f, ast.Name) and f.id in ('getattr', 'hasattr') and isroot(node.args[0]):
            c = const(node.args[1], env)
            if c is not None: out.append((c, '%s:%d' % (where, node.lineno)))
            elif (fname, ast.unparse(node.args[1])) in DYNAMIC_OK: pass
            else: raise SystemExit('dynamic getattr %s %s' % (fname, ast.unparse(node)))
            return
        if isinstance(f, ast.Name) and any(isroot(a) for a in node.args):
            r = find_func(modfile, f.id)
            if r is None: raise SystemExit('cannot resolve %s in %s' % (f.id, modfile))
            mf, d = r
            if isinstance(d, ast.FunctionDef):
                params = [a.arg for a in d.args.args]
                i = [isroot(a) for a in node.args].index(True)
                e2 = {params[j]: const(a, env) for j, a in enumerate(node.args) if const(a, env) is not None}
                analyse(d, mf, lambda n, p=params[i]: isinstance(n, ast.Name) and n.id == p, e2, out, mf, depth + 1)
                for j, a in enumerate(node.args):
                    if not isroot(a): walk(a, modfile, isroot, env, out, where, fname, depth)
                return
            # a power-term class: all its angular terms, all their methods
            init = [b for b in d.body if isinstance(b, ast.FunctionDef) and b.name == '__init__'][0]
            sup = [c for c in ast.walk(init) if isinstance(c, ast.Call) and c.keywords][0]
            for kw in sup.keywords:
                _, t = find_func(mf, kw.value.id)
                for meth in t.body:
                    if isinstance(meth, ast.FunctionDef):
                        analyse(meth, mf, lambda n: isinstance(n, ast.Attribute) and n.attr == 'm'
                                and isinstance(n.value, ast.Name) and n.value.id == 'self', {}, out, mf)
            return
    if isinstance(node, ast.Name) and isroot(node):
        raise SystemExit('model escapes in %s (%s:%d)' % (fname, where, node.lineno))
    for ch in ast.iter_child_nodes(node): walk(ch, modfile, isroot, env, out, where, fname, depth)

SELF = lambda n: isinstance(n, ast.Name) and n.id == 'self'

def mro(name):
    made = {}
    def mk(n):
        if n not in made:
            bs = tuple(mk(b) for b in classes[n][0] if b in classes)
            made[n] = type(n, bs or (object,), {})
        return made[n]
    return [c.__name__ for c in mk(name).__mro__ if c is not object]

class Model:
    def __init__(s, name):
        s.name = name
        s.mro = mro(name)
        s.members = {}
        for c in reversed(s.mro): s.members.update(classes[c][1])
        s.managed = {n for n, m in s.members.items() if m.kind in ('param', 'cached')}
    def expand(s, attr, out, seen, where):
        if attr in PSEUDO: out.setdefault(attr, where); return
        sub = None
        if attr.startswith('hzpt.'): attr, sub = attr.split('.')
        m = s.members.get(attr)
        if m is None: raise SystemExit('%s: unknown attribute %s (%s)' % (s.name, attr, where))
        if m.kind in ('param', 'cached'):
            out.setdefault(attr, where)
            for p in PUSHED.get(attr, []):
                # only P01 and P11 are given the growth rate (hzpt/interpolated.py:141, 207-243)
                if sub in ('P00', '_P00', 'Phm') and p == 'f': continue
                out.setdefault(p, where)
            return
        if attr in seen: return
        seen.add(attr)
        if m.kind == 'const': return
        if m.kind == 'normalized':
            s.expand('_power_norm', out, seen, where); s.expand(m.wraps, out, seen, where); return
        if m.kind == 'decorated': raise SystemExit('decorated %s read at %s' % (attr, where))
        rs = []
        analyse(m.fn, m.file, SELF, {}, rs, m.file)
        for a, w in rs: s.expand(a, out, seen, w)
    def reads(s, name):
        m = s.members[name]
        rs = []
        analyse(m.fn, m.file, SELF, {}, rs, m.file)
        out = {}
        for a, w in rs:
            if a == name: continue     # unreachable self-branch of the nonlinear biasing ('vlah' for '_a')
            s.expand(a, out, set(), w)
        if m.interp: s.expand(m.domain, out, set(), '_cache.py:367')
        for p in PUSHED.get(name, []): out.pop(p, None)     # the part that is not kept up to date by the setters
        return out

def pushes():
    """who is pushed what: the `_update_models(name, models, val)` calls inside setters"""
    for c in ['DarkMatterSpectrum', 'BiasedSpectrum']:
        for n, m in classes[c][1].items():
            if m.kind != 'param': continue
            lst = {}
            for st in ast.walk(m.fn):
                if isinstance(st, ast.Assign) and isinstance(st.value, ast.List) and isinstance(st.targets[0], ast.Name):
                    lst[st.targets[0].id] = [e.value for e in st.value.elts]
            for st in ast.walk(m.fn):
                if isinstance(st, ast.Call) and isinstance(st.func, ast.Attribute) and st.func.attr == '_update_models':
                    ms = lst[st.args[1].id] if isinstance(st.args[1], ast.Name) else [e.value for e in st.args[1].elts]
                    assert st.args[0].value == n
                    for o in ms: PUSHED.setdefault(o, set()).add(n)

def build(name):
    M = Model(name)
    names = sorted(M.managed) + sorted(PSEUDO)
    reads, parents, dflt = {}, {}, {}
    for n in names:
        m = M.members.get(n)
        if m is None or m.kind == 'param':
            reads[n] = {}
            parents[n] = None
            d = m.default if m else None
            dflt[n] = d if isinstance(d, str) and d in M.members else None
        else:
            reads[n] = M.reads(n); parents[n] = m.parents; dflt[n] = None
    # topological order
    order, state = [], {}
    def visit(n):
        if state.get(n) == 2: return
        if state.get(n) == 1: raise SystemExit('%s: cycle at %s' % (name, n))
        state[n] = 1
        for x in sorted(list(reads[n]) + (parents[n] or []) + ([dflt[n]] if dflt[n] else [])): visit(x)
        state[n] = 2; order.append(n)
    for n in names: visit(n)
    return M, order, reads, parents, dflt

def closures(order, reads, parents, dflt):
    rc, dc = {}, {}
    for n in order:
        r = {n}
        for x in list(reads[n]) + ([dflt[n]] if dflt[n] else []): r |= rc[x]
        rc[n] = r
        d = set()
        for x in (parents[n] or []): d |= {x} | dc[x]
        dc[n] = d
    return rc, dc

for f in FILES: collect(f)
pushes()


def own_classes():
    order = []
    for nm in MODELS:
        for c in mro(nm):
            if c not in order and classes[c][1]: order.append(c)
    return [c for c in order if any(m.kind in ('param', 'cached') for m in classes[c][1].values())]

def lean_list(xs): return '[' + ', '.join('A.' + ident(x) for x in xs) + ']'
def ident(n): return n.lstrip('_') + '_' if n.startswith('_') else n

def main():
    built = {nm: build(nm) for nm in MODELS}
    own = own_classes()
    # rows of the classes, read sets computed in every model that inherits them (must agree)
    rows = {c: {} for c in own}
    for nm in MODELS:
        M, order, reads, parents, dflt = built[nm]
        for n in order:
            for c in M.mro:
                if n in classes[c][1]:
                    r = (parents[n], dflt[n], sorted(reads[n]))
                    if n in rows[c]: assert rows[c][n] == r, (nm, c, n, rows[c][n], r)
                    rows[c][n] = r
                    break
    # overridden rows still need an entry
    for c in own:
        for n, m in classes[c][1].items():
            if m.kind in ('param', 'cached') and n not in rows[c]: raise SystemExit('unresolved %s.%s' % (c, n))
    rows['SimLoaderMixin']['_loaded_data'] = (None, None, [])
    # global topological order
    edges = {}
    for c in own:
        for n, (p, d, r) in rows[c].items():
            edges.setdefault(n, set()).update((p or []) + r + ([d] if d else []))
    order, state = [], {}
    def visit(n):
        if state.get(n) == 2: return
        assert state.get(n) != 1, n
        state[n] = 1
        for x in sorted(edges[n]): visit(x)
        state[n] = 2; order.append(n)
    for n in sorted(edges): visit(n)
    num = {n: i for i, n in enumerate(order)}
    K = len(order)
    o = []
    o.append('import Verif.Model.Shipped')
    o.append('/-')
    o.append('GENERATED by tools/readsets.py from the pyRSD source text; do not edit.')
    o.append('')
    o.append('For every class of the shipped spectrum models: its parameters, cached properties and interpolated functions,')
    o.append('the parents each of them declares, and the managed attributes that the code computing it can read.')
    o.append('Names beginning with an underscore are written with the underscore at the end.  Each row cites the')
    o.append('definition; `C` is a cached property, `I` an interpolated function, `P` a parameter (with its attribute-valued')
    o.append('default, if any); after the parents come the reads.')
    o.append('-/')
    o.append('namespace Verif.Shipped')
    o.append('')
    o.append('namespace A')
    for n in order: o.append('abbrev %s : Nat := %d' % (ident(n), num[n]))
    o.append('end A')
    o.append('')
    o.append('/-- The number of attribute names. -/')
    o.append('def K : Nat := %d' % K)
    o.append('')
    o.append('/-- The names, in the order of their numbers. -/')
    o.append('def names : List String := [%s]' % ', '.join('"%s"' % n for n in order))
    for c in own:
        f = classes[c][2]
        o.append('')
        o.append('/-- `%s` (`rsd/%s`). -/' % (c, f))
        o.append('def t%s : Table :=' % c)
        body = []
        for n in sorted(rows[c], key=lambda x: num[x]):
            p, d, r = rows[c][n]
            m = classes[c][1].get(n)
            cite = '%s:%d' % (m.file, m.line) if m else PSEUDO[n]
            if p is None:
                t = 'P %s' % ('(some A.%s)' % ident(d) if d else 'none')
            else:
                t = '%s %s %s' % ('I' if m.interp else 'C', lean_list(p), lean_list(r))
            body.append((t, n, cite))
        for i, (t, n, cite) in enumerate(body):
            o.append('  %s(A.%s, %s)%s  -- %s' % ('[' if i == 0 else ' ', ident(n), t, ']' if i == len(body) - 1 else ',', cite))
    mros = {nm: [c for c in mro(nm) if c in own] for nm in MODELS}
    o.append('')
    o.append('/-- Method-resolution order of the shipped models, most derived class first. -/')
    o.append('def mroOf : Cls → List Table')
    for nm in MODELS: o.append('  | .%s => [%s]' % (nm, ', '.join('t' + c for c in mros[nm])))
    # certificates
    o.append('')
    for nm in MODELS:
        def row(n):
            for c in mros[nm]:
                if n in rows[c]: return rows[c][n]
        rc, dc, bad = {}, {}, {}
        pm = 0
        for n in order:
            r = row(n)
            if r is not None and r[0] is None: pm |= 1 << num[n]
        for n in order:
            r = row(n)
            if r is None: rc[n] = dc[n] = bad[n] = 0; continue
            p, d, rd = r
            x = 1 << num[n]; b = 0; y = 0
            for m in rd + ([d] if d else []): x |= rc[m]; b |= bad[m]
            for m in (p or []): y |= (1 << num[m]) | dc[m]
            if p is not None: b |= x & pm & ~y
            rc[n], dc[n], bad[n] = x, y, b
        o.append('/-- Certificate for `%s`: which names are parameters, and per name the read closure, the declared' % nm)
        o.append('ancestors and the exceptions, as bit sets.  Checked by `check`. -/')
        o.append('def cert%s : Cert where' % nm)
        o.append('  params := 0x%x' % pm)
        for fld, dct in (('rc', rc), ('dc', dc), ('bad', bad)):
            o.append('  %s := [%s]' % (fld, ', '.join('0x%x' % dct[n] for n in order)))
        o.append('')
        if '--show' in sys.argv:
            print('==', nm)
            for n in order:
                if bad[n] and row(n)[0] is not None:
                    print('  ', n, [q for q in order if bad[n] >> num[q] & 1])
    o.append('def certOf : Cls → Cert')
    for nm in MODELS: o.append('  | .%s => cert%s' % (nm, nm))
    o.append('')
    o.append('end Verif.Shipped')
    open(os.path.join(HERE, 'lean/Verif/Model/ShippedTables.lean'), 'w').write('\n'.join(o) + '\n')

if __name__ == '__main__': main()
