"""Generates lean/Verif/Proofs/MtCert{1,2,3,4}.lean: 19937 squarings modulo the characteristic polynomial of MT19937-64.
Needs the checkpoints of tools/mtsq.c (`./mtsq 100 > chk.txt`, in a directory with phi.hex).
Nothing here is trusted: the kernel checks every step."""
import sys
W=15; BL=1330; D=19937
d=sys.argv[1]
def spread(n): return int(''.join('0'*(W-1)+c for c in bin(n)[2:]),2)
def packed(n):
    p=0; m=(1<<BL)-1
    for j in range(W):
        b=(n>>(BL*j))&m
        if b: p|=spread(b)<<j
    return p
chk={}
for l in open(d+'/chk.txt'):
    k,h=l.split(); chk[int(k)]=packed(int(h,16))
assert chk[0]==chk[D]==32768
ks=sorted(chk)
parts=[ks[0:51],ks[50:101],ks[100:151],ks[150:]]
def nm(k): return '32768' if k in(0,D) else 'mtP%d'%k
for i,p in enumerate(parts,1):
    o=['/-','Generated by `tools/gen_mtcert.py`: squarings modulo the characteristic polynomial of MT19937-64, part %d of 4.'%i,'-/',
       'import Verif.Proofs.'+('MtCtx' if i==1 else 'MtCert%d'%(i-1)),'set_option exponentiation.threshold 700000','namespace Crazy.Kron','open Polynomial','']
    if i>1: o[3]='import Verif.Proofs.MtCtx'
    for k in p:
        if nm(k)!='32768' : o.append('/-- Packed `X^(2^%d)`. -/\ndef mtP%d%s : Nat := 0x%x'%(k,k,'' if k!=p[0] else "'",chk[k]))
    loc=lambda k: nm(k)+("'" if k==p[0] and i>1 else '')
    for a,b in zip(p,p[1:]):
        o.append('theorem mt_step_%d : mtStep %d %s %s = true := by decide +kernel'%(a,b-a,loc(a),loc(b)))
    o.append('')
    o.append('theorem mt_part_%d {f : (ZMod 2)[X]} (h : mtC.For f) (h%d : MtPow f %d %s) : MtPow f %d %s := by'%(i,p[0],p[0],loc(p[0]),p[-1],loc(p[-1])))
    for a,b in zip(p,p[1:]):
        o.append('  have h%d : MtPow f %d %s := MtPow.step (N := %d) (n := %d) h h%d mt_step_%d'%(b,b,loc(b),a,b-a,a,a))
    o.append('  exact h%d'%p[-1]); o.append(''); o.append('end Crazy.Kron'); o.append('')
    open('/verif/lean/Verif/Proofs/MtCert%d.lean'%i,'w').write('\n'.join(o))
