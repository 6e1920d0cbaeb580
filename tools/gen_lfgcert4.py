"""Generates lean/Verif/Proofs/LfgCert4.lean: the factor of degree 187 of X^335 + X^334 + 1 modulo 2, and that it is primitive.
Nothing here is trusted: the kernel checks every number."""
import os
W=16
def pdiv(a,b):
    q=0;db=b.bit_length()
    while a.bit_length()>=db:
        s=a.bit_length()-db
        q|=1<<s; a^=b<<s
    return q,a
def pmul(a,b):
    r=0
    while b:
        if b&1: r^=a
        a<<=1;b>>=1
    return r
def pmod(a,b): return pdiv(a,b)[1]
def pgcd(a,b):
    while b: a,b=b,pmod(a,b)
    return a
def ppow(N,c):
    r=1
    for ch in bin(N)[2:]: r=pmod(pmul(r,r)<<int(ch),c)
    return r
def pinv(a,c):
    r0,r1=c,a; t0,t1=0,1
    while r1:
        q,r=pdiv(r0,r1)
        r0,r1=r1,r
        t0,t1=t1,t0^pmul(q,t1)
    assert r0==1
    return pmod(t0,c)
def spread(p):
    r=0
    for i,ch in enumerate(bin(p)[2:][::-1]):
        if ch=='1': r|=1<<(W*i)
    return r
f=(1<<335)|(1<<334)|1
rem=f;t=2
for k in range(1,188):
    t=pmod(pmul(t,t),rem)
    g=pgcd(rem,t^2)
    if k==187: break
    if g!=1:
        rem=pdiv(rem,g)[0]; t=pmod(t,rem)
assert g.bit_length()==188
h,r=pdiv(f,g); assert r==0
B=2**187-1
Q=(2**108-1)//65*2047
assert ppow(B,g)==1 and ppow(Q,h)==1
V=pinv(h,g)                      # V h = 1 mod g
U,r=pdiv(pmul(V,h)^1,g); assert r==0   # U g + V h = 1
assert pmul(U,g)^pmul(V,h)==1
out=['''/-
Generated by `tools/gen_lfgcert4.py`: certificates, checked by evaluation in the kernel, that `X^335 + X^334 + 1` has modulo 2 a primitive
factor of degree 187.
-/
import Verif.Proofs.Gf2
namespace Crazy.Kron
open Polynomial

''']
def ctx(name,c,d,doc):
    mu,_=pdiv(1<<(2*d),c)
    mask=lambda L: spread((1<<L)-1)
    out.append(f'''/-- {doc} Bit `i` is the coefficient of `X^i`. -/
def {name}F : Nat := 0x{c:x}

/-- Arithmetic modulo that polynomial. -/
def {name}C : Ctx where
  e := 1
  w := {W}
  d := {d}
  nf := 0x{spread(c):x}
  mu := 0x{spread(mu):x}
  m1 := 0x{mask(d):x}
  m2 := 0x{mask(2*d):x}

theorem {name}C_ok : {name}C.ok2 {name}F = true := by decide +kernel

''')
ctx('lfgG',g,187,'The factor of degree 187.')
ctx('lfgH',h,148,'The other factors together.')
out.append(f'''theorem lfgG_pow : lfgGC.powIs (2 ^ 187 - 1) 187 1 = true := by decide +kernel

theorem lfgH_pow : lfgHC.powIs ((2 ^ 108 - 1) / 65 * 2047) {Q.bit_length()} 1 = true := by decide +kernel

''')
for q in (23,89,131071,707983,1032670816743843860998850056278950666491537):
    N=B//q; assert B%q==0
    u=pinv(ppow(N,g)^1,g)
    out.append(f'''theorem lfgG_inv_{q} : lfgGC.invCheck ((2 ^ 187 - 1) / {q}) 187 0x{u:x} = true := by decide +kernel

''')
out.append(f'''/-- `lfgU g + lfgV h = 1`. -/
def lfgU : Nat := 0x{U:x}
def lfgV : Nat := 0x{V:x}

theorem lfg_factors : Nat.beq (Nat.land (Nat.mul (spread 16 188 lfgGF) (spread 16 149 lfgHF)) (mask 1 16 336))
    (spread 16 336 (2 ^ 335 + 2 ^ 334 + 1)) = true := by decide +kernel

theorem lfg_bezout : Nat.beq (Nat.land (Nat.add (Nat.mul (spread 16 188 lfgU) (spread 16 188 lfgGF))
    (Nat.mul (spread 16 188 lfgV) (spread 16 188 lfgHF))) (mask 1 16 375)) 1 = true := by decide +kernel

end Crazy.Kron
''')
open(os.path.join(os.path.dirname(os.path.abspath(__file__)),'..','lean','Verif','Proofs','LfgCert4.lean'),'w').write(''.join(out))
