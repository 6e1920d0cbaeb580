"""Generates lean/Verif/Proofs/LfgCert2.lean: evaluated certificates for the exact period of LFG.
Nothing here is trusted: the kernel checks every number."""
import sys, re, os
sys.set_int_max_str_digits(0)
here=os.path.dirname(os.path.abspath(__file__))
src=open(here+'/gen_lfgcert.py').read().split("mask=lambda")[0]
exec(src)
src=open(here+'/gen_xocert.py').read()
exec("def isprime"+src.split("def isprime")[1].split("out=[]")[0])
# a better rho
def rho(n):
    while True:
        c=random.randrange(1,n);y=random.randrange(n);m=256;g=r=q=1
        while g==1:
            x=y
            for _ in range(r): y=(y*y+c)%n
            k=0
            while k<r and g==1:
                ys=y
                for _ in range(min(m,r-k)):
                    y=(y*y+c)%n;q=q*abs(x-y)%n
                g=math.gcd(q,n);k+=m
            r*=2
        if g==n:
            g=1
            while g==1:
                ys=(ys*ys+c)%n;g=math.gcd(abs(x-ys),n)
        if g!=n: return g
BIG=1032670816743843860998850056278950666491537
known={BIG-1:[2,2,2,2,3,11,17,433,28681761413,9263718402269234227321909]}
def fac(n): return known[n] if n in known else factor(n)
M=1<<64
# polynomials over Z/2^64 as lists
def trim(a):
    a=a[:]
    while a and a[-1]%M==0: a.pop()
    return a
def pmulZ(a,b):
    if not a or not b: return []
    n=max(len(a),len(b)); r=dec(enc(a)*enc(b),len(a)+len(b)-1)
    return [v%M for v in r]
def padd(a,b):
    n=max(len(a),len(b)); return [((a[i] if i<len(a) else 0)+(b[i] if i<len(b) else 0))%M for i in range(n)]
def pneg(a): return [(-v)%M for v in a]
def pdivmodZ(a,f):
    a=[v%M for v in a]; df=len(f)-1; assert f[-1]==1
    q=[0]*max(0,len(a)-df)
    for i in range(len(a)-1,df-1,-1):
        v=a[i]
        if v:
            q[i-df]=v
            for j in range(df+1): a[i-df+j]=(a[i-df+j]-v*f[j])%M
    return q,a[:df]
def bits(p): return [(p>>i)&1 for i in range(p.bit_length())]
def egcd2(a,b):
    r0,r1=a,b; s0,s1=1,0; t0,t1=0,1
    while r1:
        q,r=pdiv(r0,r1); r0,r1=r1,r
        s0,s1=s1,s0^pmul(q,s1); t0,t1=t1,t0^pmul(q,t1)
    assert r0==1
    return s0,t0
PZ=[(-1)%M]+[0]*333+[(-1)%M,1]
def hensel(g2,h2):
    """PZ = g h with g,h monic lifting g2,h2 (coprime mod 2)"""
    s2,t2=egcd2(g2,h2)
    g,h,s,t=bits(g2),bits(h2),bits(s2),bits(t2)
    for _ in range(7):
        e=padd(PZ,pneg(pmulZ(g,h)))
        q,r=pdivmodZ(pmulZ(s,e),h)
        g=padd(g,padd(pmulZ(t,e),pmulZ(q,g))); h=padd(h,r)
        g=trim(g);h=trim(h)
        b=padd(padd(pmulZ(s,g),pmulZ(t,h)),[(-1)%M])
        c,dd=pdivmodZ(pmulZ(s,b),h)
        s=padd(s,pneg(dd)); t=padd(t,pneg(padd(pmulZ(t,b),pmulZ(c,g))))
        s=trim(s);t=trim(t)
    assert trim(padd(PZ,pneg(pmulZ(g,h))))==[]
    assert g[-1]==1 and h[-1]==1
    return g,h
f2,f11,f27=0x7,0xd2d,0xbdc9187
f108=0x1e66be54eca75dfa19c63743858f
f187=0x9c4e0fea9d00d7d6398eaeb848e7209a916a2abfbd431ab
assert pmul(pmul(pmul(pmul(f2,f11),f27),f108),f187)==P2
def invmodZ(a,f,f_2):
    """inverse of a modulo the monic f over Z/2^64"""
    a2=sum((v&1)<<i for i,v in enumerate(a)); a2=pmod(a2,f_2)
    v=bits(pinv(a2,f_2))
    for _ in range(7):
        t=pdivmodZ(pmulZ(a,v),f)[1]
        t=pneg(t); t[0]=(t[0]+2)%M
        v=pdivmodZ(pmulZ(v,t),f)[1]
    assert trim(padd(pdivmodZ(pmulZ(a,v),f)[1],[(-1)%M]))==[]
    return v
MM=(2**108-1)//65; NN=2**187-1; PP=MM*NN*2**63
assert powx(PP)==one
primesM=[3,7,19,37,73,109,87211,246241,262657,279073]
primesN=[23,89,131071,707983,BIG]
factM=[3,3,3,3,7,19,37,73,109,87211,246241,262657,279073]
assert math.prod(factM)==MM and math.prod(primesN)==NN
certs=[]
def mk(F,F2,qs,name):
    G2=pdiv(P2,F2)[0]
    G,F=hensel(G2,F2)
    for q in qs:
        a=sub(powx(PP//q),one)
        w_=invmodZ(trim(a) or [0],F,F2)
        v=red(pmulZ(G,w_)+[0])
        lhs=mul(a,v)
        assert trim(padd(lhs,pneg(G)))==[],q
        certs.append((q,name,v))
    return G
G227=mk(None,f108,primesM,'lfgG227')
G148=mk(None,f187,primesN,'lfgG148')
assert len(G227)==228 and len(G148)==149
# q = 2
a=sub(powx(PP//2),one)
u2=sum(1<<i for i,v in enumerate(a) if v); assert all(v in(0,1<<63) for v in a)
H2=pdiv(P2,f2)[0]
uu=pmod(u2,H2)
# v u = f2 mod P2, u divisible by f2: v = (u/f2)^-1 mod H2
q_,r_=pdiv(u2,f2); assert r_==0
v2=pinv(pmod(q_,H2),H2)
assert pmod(pmul(v2,u2),P2)==f2
certs.append((2,'lfgG2',bits(v2)))
G2p=[1<<63,1<<63,1<<63]
assert trim(padd(mul(a,(bits(v2)+[0]*d)[:d]),pneg(G2p)))==[]
# ---- primes
out=[];done={}
def prime(p):
    if p in done: return done[p]
    if p<1000:
        nm=f'(by norm_num : Nat.Prime {p})'; done[p]=nm; return nm
    qs=fac(p-1)
    assert math.prod(qs)==p-1
    for q in sorted(set(qs)): prime(q)
    a=2
    while any(pow(a,(p-1)//q,p)==1 for q in set(qs)): a+=1
    nm=f'lprime_{p}'
    out.append(f'''theorem {nm} : Nat.Prime {p} := by
  refine lucas_prime (a := {a}) (k := {p.bit_length()}) (qs := {qs}) ?_ (by decide +kernel)
  intro r hr
  simp only [List.mem_cons, List.not_mem_nil, or_false] at hr
  rcases hr with {' | '.join(['rfl']*len(qs))}
'''+''.join(f'  · exact {prime(q)}\n' for q in qs)+'\n')
    done[p]=nm
    return nm
allq=[2]+factM+primesN
allp='\n'.join(f'  · exact {prime(q)}' for q in allq)
# ---- low bits of the table
tab=[int(x,16) if x.startswith('0x') else int(x) for x in re.findall(r'0x[0-9a-fA-F]+|\b\d{6,}\b',open(here+'/../lean/Verif/Model/LfgTable.lean').read().split('lfgS0Nat')[1])]
tab=tab[:607]; assert len(tab)==607
def lowseq(e):
    b=[t&1 for t in tab[:334]]+[e]
    while len(b)<335+228: b.append(b[-1]^b[-335])
    return b
def leftinv(b):
    # rows n<335 : row_n = sum_j b[n+j] 2^j, j<228 ; find masks K_i with xor of rows = 2^i
    rows=[(sum(b[n+j]<<j for j in range(228)),1<<n) for n in range(335)]
    piv=[]
    rows=rows[:]
    for j in range(228):
        k=next((k for k in range(len(rows)) if rows[k][0]>>j&1),None)
        assert k is not None,j
        p=rows.pop(k)
        rows=[(r^p[0],m^p[1]) if r>>j&1 else (r,m) for r,m in rows]
        piv=[((r^p[0],m^p[1]) if r>>j&1 else (r,m)) for r,m in piv]
        piv.append(p)
    for j,(r,m) in enumerate(piv): assert r==1<<j
    return [m for r,m in piv]
low=[]
for e in (0,1):
    b=lowseq(e); K=leftinv(b)
    B=sum(v<<i for i,v in enumerate(b))
    low.append((B,K))
P=sys.argv[1]
def lst(K):
    return '['+',\n  '.join('0x%x'%k for k in K)+']'
open(P,'w').write(f'''/-
Generated by `tools/gen_lfgcert2.py`: certificates, checked by evaluation in the kernel, about the period of `LFG`.
-/
import Verif.Proofs.LfgCert
import Verif.Proofs.Gf2
import Mathlib.Tactic.NormNum.Prime
namespace Crazy.Kron
open Polynomial

/-- `v (X^N - 1) = t` modulo the polynomial. -/
def Ctx.invTo (c : Ctx) (N k v t : Nat) : Bool :=
  decide (N < 2 ^ k) && (Nat.beq (Nat.land v c.m1) v && (Nat.beq (Nat.land t c.m1) t && match c.pw N k 1 with
    | some a => Nat.beq (c.mulmod v a) (Nat.land (Nat.add v t) c.m2)
    | none => false))

/-- The polynomial of the recurrence divided by its factor of degree 108. -/
def lfgG227 : Nat := 0x{enc(G227):x}

/-- The polynomial of the recurrence divided by its factor of degree 187. -/
def lfgG148 : Nat := 0x{enc(G148):x}

/-- `2^63 (X^2 + X + 1)`. -/
def lfgG2 : Nat := 0x{enc(G2p):x}

/-- The period. -/
def lfgPer : Nat := (2 ^ 108 - 1) / 65 * (2 ^ 187 - 1) * 2 ^ 63

theorem lfgG227_top : Nat.shiftRight lfgG227 (144 * 227) = 1 := by decide +kernel

theorem lfgG148_top : Nat.shiftRight lfgG148 (144 * 148) = 1 := by decide +kernel

theorem lfg_per_cert : Option.any (Nat.beq 1) (lfgC.pw lfgPer 352 1) = true := by decide +kernel

'''+''.join(f'''theorem lfg_cert_{q} : lfgC.invTo (lfgPer / {q}) 352 0x{enc(v):x} {nm} = true := by decide +kernel

''' for q,nm,v in certs)+''.join(out)+f'''/-- The prime factors of the period, the many 2s only once. -/
def lfgPrimes : List Nat := {allq}

theorem lfgPrimes_prime : ∀ r ∈ lfgPrimes, r.Prime := by
  intro r hr
  simp only [lfgPrimes, List.mem_cons, List.not_mem_nil, or_false] at hr
  rcases hr with {' | '.join(['rfl']*len(allq))}
{allp}

theorem lfgPer_eq : lfgPer = 2 ^ 62 * lfgPrimes.foldl Nat.mul 1 := by decide +kernel

/-- The low bits of the words a generator is seeded with, and as many of the ones that follow, where the word that the first byte of
the iv goes into has the low bit `e`. -/
def lfgLow : Bool → Nat
  | false => 0x{low[0][0]:x}
  | true => 0x{low[1][0]:x}

/-- For each `d < 228` a set of places. -/
def lfgSel : Bool → List Nat
  | false => {lst(low[0][1])}
  | true => {lst(low[1][1])}

/-- The bits of the table. -/
def lowOf : List Nat → Nat
  | [] => 0
  | x :: l => Nat.add (Nat.mod x 2) (Nat.mul 2 (lowOf l))

theorem lfgLow_table : (Nat.beq (Nat.mod (lfgLow false) (2 ^ 334)) (lowOf (lfgS0Nat.take 334)) &&
    Nat.beq (Nat.mod (lfgLow true) (2 ^ 334)) (lowOf (lfgS0Nat.take 334))) = true := by decide +kernel

theorem lfgLow_bit : (Nat.testBit (lfgLow false) 334 = false) ∧ (Nat.testBit (lfgLow true) 334 = true) := by decide +kernel

theorem lfgLow_rec : ∀ e, Nat.mod (Nat.xor (Nat.xor (Nat.shiftRight (lfgLow e) 335) (Nat.shiftRight (lfgLow e) 334)) (lfgLow e)) (2 ^ 228) = 0 := by
  decide +kernel

/-- The sum modulo 2, bit by bit, of `b` shifted by each of the first `n` places that are in the set `k`. -/
def xorSel (b k : Nat) : Nat → Nat
  | 0 => 0
  | n + 1 => Nat.xor (xorSel b k n) (bif Nat.testBit k n then Nat.shiftRight b n else 0)

/-- The sums are the powers of 2, as far as the first 228 bits are concerned. -/
def selOk (b : Nat) : Nat → List Nat → Bool
  | _, [] => true
  | d, k :: l => Nat.beq (Nat.mod (xorSel b k 335) (2 ^ 228)) (2 ^ d) && selOk b (d + 1) l

theorem lfgSel_ok : ∀ e, (selOk (lfgLow e) 0 (lfgSel e) && Nat.beq (lfgSel e).length 228) = true := by decide +kernel

end Crazy.Kron
''')
