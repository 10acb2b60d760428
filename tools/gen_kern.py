#!/usr/bin/env python3
"""Transcribes the kernel classes of src/shammath/include/shammath/sphkernels.hpp into
lean/Verif/Model/SphKernel.lean, statement by statement (the output is committed; this script is
only a convenience, nothing trusts it: the theorems are about the committed Lean text)."""
import re
PATH='/repo/src/shammath/include/shammath/sphkernels.hpp'
src=open(PATH).read()
NAMES='M4 M5 M6 M7 M8 M9 M10 C2 C4 C6 M4DoubleHump M4DoubleHump3 M4DoubleHump5 M4DoubleHump7 M4Shift2 M4Shift4 M4Shift8 M4Shift16'.split()
def line(pos): return src.count('\n',0,pos)+1
def num(m):
    s=m.group(1)
    if '.' in s:
        a,b=s.split('.')
        b=b.rstrip('0')
        if b=='': return a
        return '(%d / %d)'%(int(a+b),10**len(b))
    return s
def expr(e):
    e=' '.join(e.split())
    e=e.replace('shambase::constants::pi<Tscal>','Real.pi')
    def powr(e):
        while True:
            m=re.search(r'sham::pow_constexpr<(\d+)>\(',e)
            if not m: return e
            i=m.end(); d=1
            while d:
                d+= {'(':1,')':-1}.get(e[i],0); i+=1
            e=e[:m.start()]+'('+e[m.end():i-1]+') ^ '+m.group(1)+e[i:]
    e=powr(e)
    e=re.sub(r'KernelDefM4<Tscal>::(\w+)\(',r'M4.\1 (',e)
    e=re.sub(r'(?<![\w.])(\d+\.\d*|\d+)(?![\w.])',num,e)
    return e
def body(b):
    b=re.sub(r'//.*','',b)
    toks=re.findall(r'if \(.*?\) \{|\} else if \(.*?\) \{|\} else \{|\} else\b|return .*?;|\}|[^;{}]+;',b,re.S)
    out=[]
    for t in toks:
        t=' '.join(t.split())
        if t.startswith('if ('): out.append('if '+expr(t[4:-3])+' then')
        elif t.startswith('} else if ('): out.append('else if '+expr(t[11:-3])+' then')
        elif t.startswith('} else'): out.append('else')
        elif t.startswith('return'): out.append(('  ' if out and (out[-1].startswith('if') or out[-1].startswith('else')) else '')+expr(t[7:-1]))
        elif t=='}': pass
        else:
            t=t[:-1]
            m=re.match(r'^(?:constexpr )?(?:Tscal )?(\w+) (\*?)= (.*)$',t)
            assert m,t
            x,op,e=m.groups()
            out.append('let %s : ℝ := %s'%(x, ('%s * (%s)'%(x,expr(e)) if op else expr(e))))
    return out
out=[]
for n in NAMES:
    m=re.search(r'class KernelDef%s \{(.*?)\n    \};'%n,src,re.S)
    b=m.group(1)+'\n'; o=m.start(1)
    out.append('namespace %s\n'%n)
    for c in ('Rkern','hfactd','norm_1d','norm_2d','norm_3d'):
        mm=re.search(r'inline static constexpr Tscal %s\s*=\s*(.*?);'%c,b,re.S)
        out.append('/-- sphkernels.hpp:%d. -/\nnoncomputable def %s : ℝ := %s\n'%(line(o+mm.start()),c,expr(mm.group(1))))
    for fn in ('f','df','ddf','phi_tilde_3d','phi_tilde_3d_prime'):
        mm=re.search(r'inline static Tscal %s\(Tscal q\) \{(.*?)(\n        \}\n| \}\n)'%fn,b,re.S)
        l0,l1=line(o+mm.start()),line(o+mm.end()-1)
        rng='%d'%l0 if l0==l1 else '%d-%d'%(l0,l1)
        ls=body(mm.group(1))
        t='/-- sphkernels.hpp:%s. -/\nnoncomputable def %s (q : ℝ) : ℝ :=\n'%(rng,fn)
        t+='\n'.join('  '+l for l in ls)+'\n'
        # wrap long lines
        out.append(t)
    out.append('/-- sphkernels.hpp:%d-%d: class `KernelDef%s`. -/'%(line(m.start())-1,line(m.end()),n))
    out.append('noncomputable def kernel : KernelDef :=\n  { Rkern := Rkern, hfactd := hfactd, norm_1d := norm_1d, norm_2d := norm_2d, norm_3d := norm_3d, f := f,\n    df := df, ddf := ddf, phi_tilde_3d := phi_tilde_3d, phi_tilde_3d_prime := phi_tilde_3d_prime }\n')
    out.append('end %s\n'%n)
def wrap(s):
    r=[]
    for l in s.split('\n'):
        ind=len(l)-len(l.lstrip())
        while len(l)>98:
            k=l.rfind(' ',0,98)
            r.append(l[:k]); l=' '*(ind+4)+l[k+1:]
        r.append(l)
    return '\n'.join(r)
HEAD='''import Mathlib.Analysis.SpecialFunctions.Trigonometric.Basic

/-!
# SPH kernels (`src/shammath/include/shammath/sphkernels.hpp`)

The eighteen piecewise polynomial kernels of the code and the wrapper `SPHKernelGen`.  Every function
is transcribed statement by statement: a C++ local that is assigned again becomes a new `let` of the
same name.  Simplification: the floating point type `Tscal` is the field of real numbers, so decimal
constants are exact quotients and `shambase::constants::pi` is `Real.pi`; `sham::pow_constexpr<n>(x)`
is `x ^ n`.  The truncated Gaussians `TGauss3` and `TGauss5` (lines 1472-1604) are not modelled.
-/

namespace Shamrock.Kern

/-- The static members of a kernel class used by `SPHKernelGen` (sphkernels.hpp:2285-2385):
radius of the support, default number of smoothing lengths, normalisations, the shape `f`, its derivatives, the softened potential and its
derivative. -/
structure KernelDef where
  Rkern : ℝ
  hfactd : ℝ
  norm_1d : ℝ
  norm_2d : ℝ
  norm_3d : ℝ
  f : ℝ → ℝ
  df : ℝ → ℝ
  ddf : ℝ → ℝ
  phi_tilde_3d : ℝ → ℝ
  phi_tilde_3d_prime : ℝ → ℝ

'''
def w(name,args,cpp):
    m=re.search(r'inline static Tscal %s\(Tscal r, Tscal h\) \{(.*?)\}'%name,src,re.S)
    l0,l1=line(m.start()),line(m.end())
    e=' '.join(m.group(1).split())
    e=e[len('return '):-1]
    e=e.replace('BaseKernel::','K.')
    e=re.sub(r'(?<![\w.])(f|df|ddf|phi_tilde_3d|phi_tilde_3d_prime)\(',r'K.\1 (',e)
    return '/-- sphkernels.hpp:%s: `SPHKernelGen::%s`. -/\nnoncomputable def %s (K : KernelDef) (r h : ℝ) : ℝ :=\n  %s\n'%('%d-%d'%(l0,l1) if l0!=l1 else str(l0),name,name,e)
W=[w(x,0,0) for x in ('W_1d','W_2d','W_3d','dW_3d','ddW_3d','dhW_3d','phi_3D','phi_3D_prime')]
open('/verif/lean/Verif/Model/SphKernel.lean','w').write(wrap(HEAD+'\n'.join(out)+'\n'+'\n'.join(W)+'\nend Shamrock.Kern\n'))
