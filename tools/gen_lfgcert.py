"""Generates lean/Verif/Proofs/LfgCert.lean: evaluated certificates about X^335 - X^334 - 1 modulo 2^64.
Nothing here is trusted: the kernel checks every number."""
import sys
M=1<<64
w=144
d=335
sm=(1<<w)-1
def enc(c): return sum(v<<(w*i) for i,v in enumerate(c))
def dec(n,L): return [((n>>(w*i))&sm)%M for i in range(L)]
def red(c):
    c=c[:]
    for i in range(len(c)-1,d-1,-1):
        v=c[i]%M
        if v:
            c[i]=0
            c[i-1]=(c[i-1]+v)%M; c[i-d]=(c[i-d]+v)%M
    return ([v%M for v in c[:d]]+[0]*d)[:d]
def mul(a,b): return red(dec(enc(a)*enc(b),2*d))
def powx(N):
    r=[1]+[0]*(d-1)
    for ch in bin(N)[2:]:
        r=mul(r,r)
        if ch=='1': r=red([0]+r)
    return r
exec(open('/verif/tools/gen_xocert.py').read().split("out=[]")[0].split("cx=charpoly")[0])
exec("def spread"+open('/verif/tools/gen_xocert.py').read().split("out=[]")[0].split("def spread")[1])
M=1<<64
P2=(1<<335)|(1<<334)|1
def inv(a):
    a2=sum((v&1)<<i for i,v in enumerate(a))
    u=pinv(a2,P2)
    v=[(u>>i)&1 for i in range(d)]
    for _ in range(7):
        t=mul(a,v)
        t=[(-x)%M for x in t]; t[0]=(t[0]+2)%M
        v=mul(v,t)
    assert mul(a,v)==[1]+[0]*(d-1)
    return v
def sub(a,b): return [(x-y)%M for x,y in zip(a,b)]
one=[1]+[0]*(d-1)
# mu = X^(2d) div P
num=[0]*(2*d)+[1]; q=[0]*(d+1)
for i in range(2*d,d-1,-1):
    v=num[i]%M
    q[i-d]=v
    num[i]=0; num[i-1]=(num[i-1]+v)%M; num[i-d]=(num[i-d]+v)%M
mask=lambda L: enc([M-1]*L)
nf=enc([1]+[0]*333+[1,M-1])
N1=(2**108-1)*(2**187-1)*2**63
assert powx(N1)==one
vdoc=inv(sub(powx(2**670-2**63),one))
vtri=inv(sub(sub(powx(607),powx(334)),one))
vrev=inv(sub([(x+y)%M for x,y in zip(powx(607),powx(273))],one))
open(sys.argv[1],'w').write(f'''/-
Generated by `tools/gen_lfgcert.py`: certificates, checked by evaluation in the kernel, about the recurrence of `LFG`.
-/
import Verif.Proofs.SeqPoly
import Verif.Model.LfgTable
namespace Crazy.Kron
open Polynomial

/-- Arithmetic modulo `X^335 - X^334 - 1` over the integers modulo 2^64. -/
def lfgC : Ctx where
  e := 64
  w := {w}
  d := {d}
  nf := 0x{nf:x}
  mu := 0x{enc(q):x}
  m1 := 0x{mask(d):x}
  m2 := 0x{mask(2*d):x}

theorem lfgC_ok : lfgC.ok = true := by decide +kernel

theorem lfgC_nf : lfgC.nf = (2 ^ 64 - 1) * (2 ^ 144) ^ 335 + (2 ^ 144) ^ 334 + 1 := by decide +kernel

theorem lfg_period_cert : Option.any (Nat.beq 1) (lfgC.pw ((2 ^ 108 - 1) * (2 ^ 187 - 1) * 2 ^ 63) 358 1) = true := by
  decide +kernel

theorem lfg_doc_period_cert : lfgC.invE (2 ^ 670 - 2 ^ 63) 670 0x{enc(vdoc):x} = true := by decide +kernel

theorem lfg_doc_rec_cert : lfgC.invTri 607 334 10 0x{enc(vtri):x} = true := by decide +kernel

theorem lfg_rev_rec_cert : lfgC.invTri' 607 273 10 0x{enc(vrev):x} = true := by decide +kernel

/-- The state table, from the word that is oldest when `t` is 386. -/
def lfgRot : List Nat := lfgS0Nat.drop 114 ++ lfgS0Nat.take 114

theorem lfg_table_cert : Option.any (fun r => lfgC.walk r lfgRot) (lfgC.pw (2 ^ 34 - 272) 34 1) = true := by
  decide +kernel

end Crazy.Kron
''')
