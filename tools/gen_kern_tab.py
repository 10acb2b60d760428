import sys
sys.argv=['x']
exec(open('/tmp/kern/chk.py').read().split("if __name__")[0])
import re
# single line functions
for n,k in kern.items():
    m=re.search(r'class %s \{(.*?)\n    \};'%n,src,re.S); b=m.group(1)
    for fn in ('f','df','ddf'):
        mm=re.search(r'inline static Tscal %s\(Tscal q\) \{(.*?)(\n        \}\n| \}\n)'%fn,b,re.S)
        k[fn]=mm.group(1)+'\n'
def z(x,q): return x if isinstance(x,L) else L({0:F(x)},q.x)
def lq(x):
    x=F(x); return str(x.numerator) if x.denominator==1 else '%d/%d'%(x.numerator,x.denominator)
def cl(p):
    n=max(p.d) if p.d else -1
    assert not p.d or min(p.d)>=0
    return '['+', '.join(lq(p.d.get(i,0)) for i in range(n+1))+']'
def wrap(s,w=98):
    r=[]
    for l in s.split('\n'):
        ind=len(l)-len(l.lstrip())
        while len(l)>w:
            k=l.rfind(' ',0,w); r.append(l[:k]); l=' '*(ind+4)+l[k+1:]
        r.append(l)
    return '\n'.join(r)
NAMES='M4 M5 M6 M7 M8 M9 M10 C2 C4 C6 M4DoubleHump M4DoubleHump3 M4DoubleHump5 M4DoubleHump7 M4Shift2 M4Shift4 M4Shift8 M4Shift16'.split()
def tab(n):
    k=kern['KernelDef'+n]
    R=eval(fix(k['Rkern']),ns)
    f=getf(k,'f'); phi=getf(k,'phi_tilde_3d')
    g=[F(i,64) for i in range(0,64*6) if F(i,64)<=R]
    def pieces(fn,mul):
        out=[]
        for a,b in zip(g,g[1:]):
            q=L({1:F(1)},(a+b)/2); p=z(fn(q),q)
            if mul: p=p*q
            if out and out[-1][1].d==p.d: out[-1]=(b,p)
            else: out.append((b,p))
        return out
    t=pieces(f,False); ph=pieces(phi,True)
    q=L({1:F(1)},R+1); last=z(phi(q),q)*q
    assert set(last.d)<= {0}; c=-last.d[0]
    n1,n2,n3=[eval(fix(k['norm_%dd'%i]),ns) for i in (1,2,3)]
    def st(t): return '['+',\n      '.join('(%s, %s)'%(lq(a),cl(p)) for a,p in t)+']'
    return wrap('def tab : Tab :=\n  { R := %s, n1 := %s, n2 := %s, n3 := %s,\n    t := %s,\n    ph := %s,\n    c := %s }\n'%(lq(R),lq(n1),lq(n2),lq(n3),st(t),st(ph),lq(c)))
def block(n):
    s='namespace %s\n\n/-- Tables of the kernel `%s` (checked against the model below). -/\n'%(n,n)+tab(n)
    m4=', M4.f, M4.df, M4.ddf' if n!='M4' and n.startswith('M4') else ''
    s+='''
theorem tab_ok : tab.Ok := by constructor <;> decide +kernel

theorem repr_f (q : ℝ) : kernel.f q = evPW tab.t [] q := by
  simp only [kernel, f, tab, evPW, ev%s]
  push_cast
  split_ifs <;> first | ring1 | (exfalso; linarith)

theorem repr_df (q : ℝ) : kernel.df q = evPW (dPW tab.t) [] q := by
  simp only [kernel, df, tab, dPW, List.map, pD, padd, pX, evPW, ev%s]
  push_cast
  split_ifs <;> first | ring1 | (exfalso; linarith)

theorem repr_ddf (q : ℝ) : kernel.ddf q = evPW (dPW (dPW tab.t)) [] q := by
  simp only [kernel, ddf, tab, dPW, List.map, pD, padd, pX, evPW, ev%s]
  push_cast
  split_ifs <;> first | ring1 | (exfalso; linarith)

theorem repr_phi (q : ℝ) (hq : 0 < q) :
    kernel.phi_tilde_3d q = Real.pi * evPW tab.ph [-tab.c] q / q := by
  simp only [kernel, phi_tilde_3d, tab, evPW, ev]
  push_cast
  split_ifs <;> first | (field_simp; ring1) | (exfalso; linarith)

theorem repr_phi' (q : ℝ) (hq : 0 < q) :
    kernel.phi_tilde_3d_prime q = Real.pi * evPW (mapPW qp tab.ph) [tab.c] q / q ^ 2 := by
  simp only [kernel, phi_tilde_3d_prime, tab, mapPW, List.map, qp, psc, pD, padd, pX, evPW, ev]
  push_cast
  split_ifs <;> first | (field_simp; ring1) | (exfalso; linarith)

theorem repr : Repr kernel tab where
  hR := by norm_num [kernel, Rkern, tab]
  h1 := by norm_num [kernel, norm_1d, tab]
  h2 := by
    have := Real.pi_ne_zero
    simp only [kernel, norm_2d, tab]; push_cast; field_simp; try norm_num
  h3 := by
    have := Real.pi_ne_zero
    simp only [kernel, norm_3d, tab]; push_cast; field_simp; try norm_num
  hf := repr_f
  hdf := repr_df
  hddf := repr_ddf
  hphi := repr_phi
  hphi' := repr_phi'
  hphi0 := by norm_num [kernel, phi_tilde_3d_prime]

end %s
'''%(m4,m4,m4,n)
    return s
if __name__=='__main__':
    groups={'A':['M4','M5','M6','M7'],'B':['M8','M9','M10'],'C':['C2','C4','C6']+[x for x in NAMES if 'Hump' in x],'D':[x for x in NAMES if 'Shift' in x]}
    for g,ns_ in groups.items():
        open('/verif/lean/Verif/Proof/SphKernelTab%s.lean'%g,'w').write('import Verif.Proof.SphKernel\nimport Mathlib.Tactic.NormNum\n\n/-!\n# Tables of the kernels (generated by tools/gen_kern_tab.py, checked by the kernel)\n-/\n\nnamespace Shamrock.Kern\n\n'+'\n'.join(block(n) for n in ns_)+'\nend Shamrock.Kern\n')
