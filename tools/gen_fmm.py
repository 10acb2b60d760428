#!/usr/bin/env python3
"""Transcribe the C++ FMM operators of /repo into lean/Verif/Model/FmmTensors.lean and FmmOps.lean.

The arithmetic is copied expression by expression; only the C++ syntax is rewritten.  Every emitted
definition cites the file and the lines it was read from."""
import re, sys
R = '/repo/'
SYM = 'src/shammath/include/shammath/symtensors.hpp'
COL = 'src/shammath/include/shammath/symtensor_collections.hpp'
F = 'src/shamphys/include/shamphys/fmm/'

def load(p):
    """text with // comments blanked (same offsets)"""
    t = open(R + p).read()
    t = re.sub(r'//[^\n]*', lambda m: ' ' * len(m.group(0)), t)
    t = re.sub(r'/\*.*?\*/', lambda m: re.sub(r'[^\n]', ' ', m.group(0)), t, flags=re.S)
    return t

def line(t, i): return t.count('\n', 0, i) + 1

def braces(t, i):
    """i at '{' -> index after matching '}'"""
    d = 0
    while True:
        if t[i] == '{': d += 1
        if t[i] == '}':
            d -= 1
            if d == 0: return i + 1
        i += 1

def split_commas(s):
    out, d, cur = [], 0, ''
    for c in s:
        if c in '({[<' and not (c == '<'): d += 1
        if c in ')}]': d -= 1
        if c == ',' and d == 0:
            out.append(cur); cur = ''
        else: cur += c
    if cur.strip(): out.append(cur)
    return [' '.join(x.split()) for x in out]

def expr(e):
    e = ' '.join(e.split())
    e = re.sub(r'\bT\((-?\s*[0-9./ ]+)\)', lambda m: '(' + num(m.group(1)) + ' : ℝ)', e)
    e = re.sub(r'\(1\. ?/ ?2\.\)', '((1/2) : ℝ)', e)
    e = re.sub(r'\b(\w+)\.([xyz])\(\)', r'\1.\2', e)
    e = e.replace('sycl::sqrt(rsq)', 'Real.sqrt rsq')
    e = e.replace('MM', 'MM')
    return e

def num(s):
    s = s.replace(' ', '')
    s = re.sub(r'(\d)\.(?!\d)', r'\1', s)
    return s

LINES = 0
def emit(out, doc, txt):
    out.append(f'/-- {doc} -/\n{txt}\n')

def wrap(s, ind='    '):
    """wrap a long expression"""
    words, cur, res = s.split(' '), '', []
    for w in words:
        if len(cur) + len(w) > 88:
            res.append(cur); cur = ind + w
        else:
            cur = cur + ' ' + w if cur else w
    res.append(cur)
    return '\n'.join(res)

# ---------------------------------------------------------------- tensors
def tensors():
    t = load(SYM); out = []
    comps = {}
    ops = []
    for n in range(1, 6):
        m = re.search(r'struct SymTensor3d_%d \{' % n, t)
        b = t.index('{', m.start()); e = braces(t, b); body = t[b:e]
        fs = re.findall(r'^\s*T (v_\d+);', body, flags=re.M)
        comps[n] = fs
        l0 = line(t, m.start())
        emit(out, f'`SymTensor3d_{n}`: the independent components of a symmetric tensor of order {n} of\n3-space, indices in increasing order.  Models `{SYM}:{l0}-{l0+3+len(fs)}` ; real numbers for\nthe floating-point `T`.',
             f'@[ext] structure SymT{n} where\n' + '\n'.join(f'  {f} : ℝ' for f in fs))
        q = lambda x: re.sub(r'(?<![\w.])(v_\d+)', r's.\1', x)
        for mm in re.finditer(r'(inner|operator[-+*]=?)\(([^()]*)\)\s*(const)?\s*\{', body):
            name, arg = mm.group(1), ' '.join(mm.group(2).split())
            fb = body.index('{', mm.end() - 1); fe = braces(body, fb)
            src = body[fb + 1:fe - 1]
            la, lb = line(t, b + mm.start()), line(t, b + fe - 1)
            doc = f'Models `{SYM}:{la}-{lb}`.'
            am = re.match(r'const (T|SymTensor3d_(\d)(?:<T>)?) ?&?(\w+)$', arg)
            ty = 'ℝ' if am.group(1) == 'T' else f'SymT{am.group(2)}'
            an = am.group(3)
            k = 0 if am.group(1) == 'T' else int(am.group(2))
            if name.endswith('='):
                op = name[-2]
                asg = dict(); 
                for a in re.finditer(r'(v_\d+) ([-+*])= ([^;]+);', src):
                    asg[a.group(1)] = f's.{a.group(1)} {a.group(2)} {expr(a.group(3))}'
                flds = [asg.get(f, f's.{f}') for f in fs]
                nm = {'*': 'mulAssign', '+': 'addAssign'}[op]
                ret = f'SymT{n}'
                val = '⟨' + ',\n    '.join(flds) + '⟩'
            else:
                rm = re.search(r'return\s+(.*?);\s*$', src.strip(), flags=re.S)
                rv = rm.group(1)
                sm = re.match(r'SymTensor3d_(\d)(?:<T>)?\{(.*)\}$', rv, flags=re.S)
                nm = {'inner': f'inner{k}', 'operator*': 'smul', 'operator+': 'plus', 'operator-': 'minus'}[name]
                if sm:
                    ret = f'SymT{sm.group(1)}'
                    flds = [wrap(q(expr(x)), '      ') for x in split_commas(sm.group(2))]
                    val = '⟨' + ',\n    '.join(flds) + '⟩'
                else:
                    ret = 'ℝ'; val = wrap(q(expr(rv)))
            emit(out, doc, f'def SymT{n}.{nm} (s : SymT{n}) ({an} : {ty}) : {ret} :=\n    {val}')
            if nm in ('smul', 'plus', 'minus'): ops.append((n, nm, ty))
    # free operators
    emit(out, f'The member operators `*`, `+`, `-` of the tensor classes under their C++ notation.',
         '\n'.join({'smul': f'instance : HMul SymT{n} ℝ SymT{n} := ⟨SymT{n}.smul⟩',
                    'plus': f'instance : HAdd SymT{n} SymT{n} SymT{n} := ⟨SymT{n}.plus⟩',
                    'minus': f'instance : HSub SymT{n} SymT{n} SymT{n} := ⟨SymT{n}.minus⟩'}[nm] for n, nm, ty in ops)
         .replace('instance', 'instance', 1))
    out[-1] = out[-1].split('-/\n', 1)
    doc, rest = out[-1]
    out[-1] = '/-! ' + doc[4:] + '-/\n' + rest
    free = []
    for mm in re.finditer(r'(T|SymTensor3d_\d<T>) operator\*\(\s*const (T|SymTensor3d_(\d)<T>) &a, const (T|SymTensor3d_(\d)<T>) &b\) \{\s*return ([^;]+);', t):
        ret = 'ℝ' if mm.group(1) == 'T' else 'SymT' + mm.group(1)[12]
        ta = 'ℝ' if mm.group(2) == 'T' else 'SymT' + mm.group(3)
        tb = 'ℝ' if mm.group(4) == 'T' else 'SymT' + mm.group(5)
        ka = mm.group(3) or '0'; kb = mm.group(5) or '0'
        la = line(t, mm.start()); lb = line(t, mm.end())
        body = mm.group(6)
        body = re.sub(r'a\.inner\(b\)', f'a.inner{kb} b', body)
        body = re.sub(r'b\.inner\(a\)', f'b.inner{ka} a', body)
        free.append((ka, kb))
        emit(out, f'Models `{SYM}:{la}-{lb+1}`.', f'def mul{ka}{kb} (a : {ta}) (b : {tb}) : {ret} := {body}\ninstance : HMul {ta} {tb} {ret} := ⟨mul{ka}{kb}⟩')
    return comps, out, free, ops

# ---------------------------------------------------------------- collections
def collections(comps):
    t = load(COL); out = []
    for m in re.finditer(r'struct SymTensorCollection<T, (\d), (\d)> \{', t):
        lo, hi = int(m.group(1)), int(m.group(2))
        b = t.index('{', m.start()); e = braces(t, b); body = t[b:e]
        nm = f'Coll{lo}{hi}'
        fs = re.findall(r'^\s*(?:T|SymTensor3d_\d<T>) (t\d);', body, flags=re.M)
        ty = lambda f: 'ℝ' if f == 't0' else 'SymT' + f[1]
        l0 = line(t, m.start())
        emit(out, f'`SymTensorCollection<T, {lo}, {hi}>`: tensors of the orders {lo}..{hi}.  Models `{COL}:{l0}-{l0+1+len(fs)}`.',
             f'@[ext] structure {nm} where\n' + '\n'.join(f'  {f} : {ty(f)}' for f in fs))
        for fn, lean, par in [('from_vec', 'from_vec', '(v : V3 ℝ)'), ('zeros', 'zeros', '')]:
            mm = re.search(r'inline static SymTensorCollection %s\(([^()]*)\)\s*\{' % fn, body)
            fb = body.index('{', mm.start()); fe = braces(body, fb); src = body[fb+1:fe-1]
            la, lb = line(t, b + mm.start()), line(t, b + fe - 1)
            lets = []
            for a in re.finditer(r'auto (A\d)\s*=\s*SymTensor3d_(\d)<T>\{(.*?)\};', src, flags=re.S):
                flds = [expr(x) for x in split_commas(a.group(3))]
                lets.append(f'  let {a.group(1)} : SymT{a.group(2)} := ⟨' + wrap(', '.join(flds), '      ') + '⟩')
            rv = split_commas(re.search(r'return \{(.*?)\};', src, flags=re.S).group(1))
            # aggregate initialisation: members without an initialiser are value-initialised (zero)
            extra = [('0' if f == 't0' else '⟨' + ', '.join(['0'] * len(comps[int(f[1])])) + '⟩') for f in fs[len(rv):]]
            note = '' if not extra else '\n(The last members have no initialiser in the braces: value-initialised, zero.)'
            emit(out, f'Models `{COL}:{la}-{lb}`.{note}', f'def {nm}.{lean} {par}: {nm} :=\n'.replace(' :', ' :') + '\n'.join(lets) + ('\n' if lets else '') + '  ⟨' + ', '.join(rv + extra) + '⟩')
        for op, lean in [('*=', 'mulAssign'), ('+=', 'addAssign'), ('-', 'minus')]:
            mm = re.search(r'operator%s\(\s*const (T|SymTensorCollection<T, \d, \d>) ?&?(\w+)\)\s*(?:const)?\s*\{' % re.escape(op), body)
            if not mm: continue
            fb = body.index('{', mm.end() - 1); fe = braces(body, fb); src = body[fb+1:fe-1]
            la, lb = line(t, b + mm.start()), line(t, b + fe - 1)
            aty = 'ℝ' if mm.group(1) == 'T' else nm
            if op == '-':
                rv = split_commas(re.search(r'return \{(.*?)\};', src, flags=re.S).group(1))
                vals = [re.sub(r'(?<![\w.])(t\d)\b', r's.\1', x) for x in rv]
            else:
                asg = {}
                for a in re.finditer(r'(t\d) ([*+])= (\w+(?:\.t\d)?);', src):
                    f = a.group(1)
                    if f == 't0': asg[f] = f's.t0 {a.group(2)} {a.group(3)}'
                    else: asg[f] = f's.{f}.{lean} {a.group(3)}'
                vals = [asg.get(f, f's.{f}') for f in fs]
            emit(out, f'Models `{COL}:{la}-{lb}`.', f'def {nm}.{lean} (s : {nm}) ({mm.group(2)} : {aty}) : {nm} :=\n  ⟨' + ',\n    '.join(vals) + '⟩')
    return out

def norm(s): return ' '.join(s.split())

def stmts_to_lean(src, ret_default=None):
    """straight-line C++ body -> list of lets and the result expression"""
    lets, alias = [], {}
    res = None
    src = re.sub(r'using namespace [^;]+;', '', src)
    for st in [norm(x) for x in src.split(';')]:
        if not st: continue
        m = re.match(r'return (?:shammath::)?SymTensorCollection<T, (\d), (\d)>\{(.*)\}$', st)
        if m: res = ('new', m.group(1) + m.group(2), split_commas(m.group(3))); continue
        m = re.match(r'return \{(.*)\}$', st)
        if m: res = ('new', None, split_commas(m.group(1))); continue
        m = re.match(r'return (?:shammath::)?(SymTensor3d_\d)<T>\{(.*)\}$', st)
        if m: res = ('ten', m.group(1)[-1], [expr(x) for x in split_commas(m.group(2))]); continue
        m = re.match(r'return (\w+)$', st)
        if m: res = ('var', m.group(1), sorted(v for v in alias if alias[v].startswith(m.group(1) + '.'))); continue
        m = re.match(r'return (.*)$', st)
        if m: res = ('expr', None, expr(m.group(1))); continue
        m = re.match(r'(?:shammath::)?SymTensorCollection<T, \d, \d> (\w+)$', st)
        if m: continue                                   # uninitialised dM_ret
        m = re.match(r'auto &(dM_ret_\d) = (dM_ret\.t\d)$', st)
        if m: alias[m.group(1)] = m.group(2); continue    # reference into dM_ret
        m = re.match(r'SymTensorCollection<T, (\d), (\d)> (\w+) = SymTensorCollection<T, (\d), (\d)>::from_vec\((\w+)\)$', st)
        if m:
            assert m.group(1, 2) == m.group(4, 5)
            lets.append((m.group(3), f'Coll{m.group(1)}{m.group(2)}', f'Coll{m.group(1)}{m.group(2)}.from_vec {m.group(6)}')); continue
        m = re.match(r'auto (D\d) = SymTensor3d_(\d)<T>\{(.*)\}$', st)
        if m:
            lets.append((m.group(1), 'SymT' + m.group(2), '⟨' + ',\n      '.join(wrap(expr(x), '        ') for x in split_commas(m.group(3))) + '⟩')); continue
        m = re.match(r'const (T|SymTensor3d_(\d)<T>) ?& ?(\w+) = (.*)$', st)
        if m: lets.append((m.group(3), 'ℝ' if m.group(1) == 'T' else 'SymT' + m.group(2), m.group(4))); continue
        m = re.match(r'(?:static )?constexpr T (\w+) = (.*)$', st)
        if m:
            v = re.sub(r'^T\((.*)\)$', r'\1', m.group(2))
            lets.append((m.group(1), 'ℝ', num(v))); continue
        m = re.match(r'auto (Qn\d) = (offset_multipole_\d)\((.*)\)$', st)
        if m: lets.append((m.group(1), 'SymT' + m.group(1)[2], m.group(2) + ' ' + ' '.join(split_commas(m.group(3))))); continue
        m = re.match(r'auto ([MD]_?(\d)) = (.*)$', st)
        if m: lets.append((m.group(1), 'ℝ' if m.group(2) == '0' else 'SymT' + m.group(2), expr(m.group(3)))); continue
        m = re.match(r'auto &(\w+_(\d)) = (\w+\.t(\d))$', st)
        if m: lets.append((m.group(1), 'ℝ' if m.group(4) == '0' else 'SymT' + m.group(4), m.group(3))); continue
        m = re.match(r'(dM_ret_(\d)) = (.*)$', st)
        if m: lets.append((m.group(1), 'ℝ' if m.group(2) == '0' else 'SymT' + m.group(2), expr(m.group(3)))); continue
        m = re.match(r'T (\w+) = (.*)$', st)
        if m: lets.append((m.group(1), 'ℝ', expr(m.group(2)))); continue
        raise Exception('statement? ' + st)
    return lets, res

def lean_body(lets, res, only=None):
    o = []
    for n, ty, v in lets:
        o.append(f'  let {n} : {ty} := ' + (v if '\n' in v else wrap(v, '      ')))
    k, a, b = res
    if k == 'new': o.append('  ⟨' + ', '.join(b) + '⟩')
    elif k == 'ten': o.append('  ⟨' + ',\n    '.join(wrap(x, '      ') for x in b) + '⟩')
    elif k == 'var': o.append('  ⟨' + ', '.join(b) + '⟩')
    else: o.append('  ' + b)
    return '\n'.join(o)

def prune(lets, res):
    """drop lets that nothing uses (C++ unused locals), to keep terms small"""
    used = ' '.join(b if isinstance(b, str) else ' '.join(b) for b in [res[2]])
    keep = []
    for n, ty, v in reversed(lets):
        if re.search(r'(?<![\w.])' + n + r'\b', used + ' ' + ' '.join(x[2] for x in keep)):
            keep.append((n, ty, v))
    return keep[::-1]

def ops(comps):
    out = []
    # details::offset_multipole_n
    p = F + 'offset_multipole.hpp'; t = load(p)
    for m in re.finditer(r'inline shammath::SymTensor3d_(\d)<T> (offset_multipole_\d)\(([^()]*)\)\s*\{', t):
        fb = m.end() - 1; fe = braces(t, fb)
        params = []
        for a in split_commas(m.group(3)):
            am = re.match(r'const (T|shammath::SymTensor3d_(\d)<T>) &(\w+)$', a)
            params.append(f"({am.group(3)} : {'ℝ' if am.group(1) == 'T' else 'SymT' + am.group(2)})")
        lets, res = stmts_to_lean(t[fb+1:fe-1])
        emit(out, f'Models `{p}:{line(t, m.start())}-{line(t, fe)}`.',
             f'def {m.group(2)} ' + wrap(' '.join(params)) + f' :\n    SymT{m.group(1)} :=\n' + lean_body(lets, res))
    def branches(p, fname, mk):
        t = load(p)
        m = re.search(r'\b' + fname + r'\(', t); fb = t.index('{', m.start()); fe = braces(t, fb)
        pre = t[fb+1:t.index('if constexpr', fb)]
        for bm in re.finditer(r'if constexpr \((?:low_order == (\d) && )?high_order == (\d)\) \{', t[fb:fe]):
            b0 = fb + bm.end() - 1; b1 = braces(t, b0)
            lets, res = stmts_to_lean(pre + ';' + t[b0+1:b1-1])
            lets = prune(lets, res)
            mk(p, bm.group(1), bm.group(2), lets, res, line(t, fb + bm.start()), line(t, b1))
    def mk(p, lo, hi, lets, res, la, lb):
        emit(out, f'`offset_multipole_delta<T, {lo}, {hi}>`.  Models `{p}:{la}-{lb}`.',
             f'def offset_multipole_delta{lo}{hi} (Q : Coll{lo}{hi}) (offset : V3 ℝ) : Coll{lo}{hi} :=\n' + lean_body(lets, res))
        emit(out, f'`offset_multipole<T, {lo}, {hi}>`: the offset is `from - to`.  Models `{p}:463-470`.',
             f'def offset_multipole{lo}{hi} (Q_old : Coll{lo}{hi}) (src dst : V3 ℝ) : Coll{lo}{hi} :=\n  offset_multipole_delta{lo}{hi} Q_old (src - dst)')
    branches(p, 'offset_multipole_delta', mk)
    p = F + 'grav_moment_offset.hpp'
    def mk(p, lo, hi, lets, res, la, lb):
        emit(out, f'`offset_dM_mat_delta<T, {lo}, {hi}>`.  Models `{p}:{la}-{lb}` (and the constants at 29-34).',
             f'def offset_dM_mat_delta{lo}{hi} (dM : Coll{lo}{hi}) (offset : V3 ℝ) : Coll{lo}{hi} :=\n' + lean_body(lets, res).replace('offset :=','offset :='))
        emit(out, f'`offset_dM_mat<T, {lo}, {hi}>`: the offset is `to - from`.  Models `{p}:233-240`.',
             f'def offset_dM_mat{lo}{hi} (dM : Coll{lo}{hi}) (src dst : V3 ℝ) : Coll{lo}{hi} :=\n  offset_dM_mat_delta{lo}{hi} dM (dst - src)')
    branches(p, 'offset_dM_mat_delta', mk)
    p = F + 'grav_moments.hpp'
    def mk(p, lo, hi, lets, res, la, lb):
        emit(out, f'`get_M_mat<T, {lo}, {hi}>`.  Models `{p}:{la}-{lb}`.',
             f'def get_M_mat{lo}{hi} (D Q : Coll{lo}{hi}) : Coll{lo}{hi} :=\n' + lean_body(lets, res))
    branches(p, 'get_M_mat', mk)
    def mk(p, lo, hi, lets, res, la, lb):
        emit(out, f'`get_dM_mat<T, {hi}>`.  Models `{p}:{la}-{lb}`.',
             f'def get_dM_mat{hi} (D : Coll1{int(hi)+1}) (Q : Coll0{hi}) : Coll1{int(hi)+1} :=\n' + lean_body(lets, res))
    branches(p, 'get_dM_mat', mk)
    # contract
    p = F + 'contract_grav_moment.hpp'; t = load(p)
    base = re.search(r'auto force_val = tensor_to_sycl\((.*?)\);', t)
    adds = re.findall(r'if constexpr \(order >= (\d)\) \{\s*force_val \+= tensor_to_sycl\(([^()]*)\) / (\d+);\s*\}', t)
    assert len(adds) == 4
    for o in range(1, 6):
        terms = [f'tensor_to_sycl ({base.group(1)})']
        for k, e, d in adds:
            if o >= int(k): terms.append(f'V3.divBy (tensor_to_sycl ({e})) {d}')
        emit(out, f'`contract_grav_moment_to_force<T, {o}>`.  Models `{p}:{line(t, t.index("inline sycl::vec"))}-{line(t, t.index("return force_val"))+1}`.',
             f'def contract_grav_moment_to_force{o} (a_k : Coll0{o-1}) (dM_k : Coll1{o}) : V3 ℝ :=\n  ' + '\n    + '.join(terms))
    # Green
    p = F + 'GreenFuncGravCartesian.hpp'; t = load(p)
    greens = {}
    for m in re.finditer(r'class GreenFuncGravCartesian<T, (\d), (\d)> \{', t):
        lo, hi = m.group(1), m.group(2)
        f0 = t.index('get_der_tensors', m.start()); fb = t.index('{', t.index(')', f0)); fe = braces(t, fb)
        lets, res = stmts_to_lean(t[fb+1:fe-1])
        lets = prune(lets, res)
        greens[lo + hi] = (lets, res)
        emit(out, f'`GreenFuncGravCartesian<T, {lo}, {hi}>::get_der_tensors` (locals that the result does not use are\nleft out).  Models `{p}:{line(t, m.start())}-{line(t, fe)}`.',
             f'noncomputable def green{lo}{hi} (r : V3 ℝ) : Coll{lo}{hi} :=\n' + lean_body(lets, res))
    return out, greens

HEAD = '''/-
Generated by tools/gen_fmm.py from /repo (arithmetic copied expression by expression).
-/
'''
if __name__ == '__main__':
    comps, o1, free, opsl = tensors()
    o2 = collections(comps)
    o3, greens = ops(comps)
    base = '/verif/lean/Verif/Model/'
    open(base + 'FmmTensors.lean', 'w').write(HEAD + 'import Mathlib.Data.Real.Basic\nimport Verif.Model.Patch\n\n/-!\nSymmetric tensors of 3-space and their collections (shammath).\n-/\n\nnamespace Shamrock.Fmm\n\nopen Shamrock (V3)\n\nnoncomputable section\n\n' + '\n'.join(o1) + '\n' + '\n'.join(o2) + '\nend\n\nend Shamrock.Fmm\n')
    open(base + 'FmmOps.lean', 'w').write(HEAD + 'import Mathlib.Analysis.SpecialFunctions.Pow.Real\nimport Verif.Model.FmmTensors\n\n/-!\nThe operators of the fast multipole method (shamphys/fmm).\n-/\n\nnamespace Shamrock.Fmm\n\nopen Shamrock (V3)\n\nnoncomputable section\n\n'
      + '''/-- Difference of two `sycl::vec<T, 3>`. -/
instance : HSub (V3 ℝ) (V3 ℝ) (V3 ℝ) := ⟨fun a b => ⟨a.x - b.x, a.y - b.y, a.z - b.z⟩⟩
/-- Sum of two `sycl::vec<T, 3>`. -/
instance : HAdd (V3 ℝ) (V3 ℝ) (V3 ℝ) := ⟨fun a b => ⟨a.x + b.x, a.y + b.y, a.z + b.z⟩⟩
/-- `sycl::vec<T, 3> / scalar`. -/
def V3.divBy (a : V3 ℝ) (d : ℝ) : V3 ℝ := ⟨a.x / d, a.y / d, a.z / d⟩
/-- Models `src/shamphys/include/shamphys/fmm/contract_grav_moment.hpp:37-39`. -/
def tensor_to_sycl (a : SymT1) : V3 ℝ := ⟨a.v_0, a.v_1, a.v_2⟩

''' + '\n'.join(o3).replace('noncomputable def', 'def') + '\nend\n\nend Shamrock.Fmm\n')
