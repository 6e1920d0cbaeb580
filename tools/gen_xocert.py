"""Generates lean/Verif/Proofs/XoCert.lean: the evaluated certificates behind the periods of the xo* generators.
Nothing here is trusted: the kernel checks every number."""
import sys, math, random
M=(1<<64)-1
def rotl(x,k): return ((x<<k)|(x>>(64-k)))&M
def xstep(s):
    w,x,y,z=s
    t=(x<<17)&M
    y^=w; z^=x; x^=y; w^=z; y^=t; z=rotl(z,45)
    return (w,x,y,z)
def rstep(s):
    s0,s1=s
    s1^=s0
    return (rotl(s0,55)^s1^((s1<<14)&M), rotl(s1,36))
def bm(bits):
    C=1;B=1;L=0;m=1;S=0
    for n,b in enumerate(bits):
        S=(S<<1)|b
        d=bin(S & C & ((1<<(L+1))-1)).count('1')&1
        if d:
            T=C; C^=B<<m
            if 2*L<=n: L=n+1-L;B=T;m=1
            else: m+=1
        else: m+=1
    return C,L
def charpoly(step,s,f,n):
    bits=[]
    for _ in range(2*n+10):
        bits.append(f(s)&1); s=step(s)
    C,L=bm(bits); assert L==n
    r=0
    for i in range(L+1):
        if C>>i&1: r|=1<<(L-i)
    return r
cx=charpoly(xstep,(1,0,0,0),lambda s:s[0],256)
cr=charpoly(rstep,(1,0),lambda s:s[0],128)
def spread(p,w):
    r=0
    for i,ch in enumerate(bin(p)[2:][::-1]):
        if ch=='1': r|=1<<(w*i)
    return r
def pdiv(a,b):
    q=0;db=b.bit_length()
    while a.bit_length()>=db:
        s=a.bit_length()-db
        q|=1<<s; a^=b<<s
    return q,a
def pmul(a,b):
    r=0
    while b:
        if b&1: r^=a
        a<<=1;b>>=1
    return r
def pmod(a,b): return pdiv(a,b)[1]
def ppow(N,c):
    r=1
    for ch in bin(N)[2:]:
        r=pmod(pmul(r,r)<<int(ch),c)
    return r
def pinv(a,c):
    r0,r1=c,a; t0,t1=0,1
    while r1:
        q,r=pdiv(r0,r1)
        r0,r1=r1,r
        t0,t1=t1,t0^pmul(q,t1)
    assert r0==1
    return pmod(t0,c)
def isprime(n):
    if n<2: return False
    for p in (2,3,5,7,11,13,17,19,23,29,31,37):
        if n%p==0: return n==p
    d=n-1;s=0
    while d%2==0: d//=2;s+=1
    for a in (2,3,5,7,11,13,17,19,23,29,31,37):
        x=pow(a,d,n)
        if x in (1,n-1): continue
        for _ in range(s-1):
            x=x*x%n
            if x==n-1: break
        else: return False
    return True
def rho(n):
    while True:
        c=random.randrange(1,n);x=y=random.randrange(n);d=1
        while d==1:
            x=(x*x+c)%n;y=(y*y+c)%n;y=(y*y+c)%n;d=math.gcd(x-y,n)
        if d!=n: return d
def factor(n):
    if n==1: return []
    for p in range(2,2000):
        if n%p==0: return [p]+factor(n//p)
    if isprime(n): return [n]
    d=rho(n)
    return sorted(factor(d)+factor(n//d))
out=[]
done={}
def prime(p):
    """emit a proof that p is prime, return its name"""
    if p in done: return done[p]
    if p<1000:
        nm=f'(by norm_num : Nat.Prime {p})'
        done[p]=nm
        return nm
    qs=factor(p-1)
    for q in sorted(set(qs)): prime(q)
    a=2
    while any(pow(a,(p-1)//q,p)==1 for q in set(qs)): a+=1
    nm=f'prime_{p}'
    k=p.bit_length()
    out.append(f'''theorem {nm} : Nat.Prime {p} := by
  refine lucas_prime (a := {a}) (k := {k}) (qs := {qs}) ?_ (by decide +kernel)
  intro r hr
  simp only [List.mem_cons, List.not_mem_nil, or_false] at hr
  rcases hr with {' | '.join(['rfl']*len(qs))}
''')
    for q in qs: out.append(f'  · exact {prime(q)}\n')
    out.append('\n')
    done[p]=nm
    return nm
def gen(name,c,d,doc):
    w=16
    N=(1<<d)-1
    F=factors[:]
    if d==128: F=[p for p in F if N%p==0]
    pr=1
    for p in F: pr*=p
    assert pr==N
    mu,_=pdiv(1<<(2*d),c)
    mask=lambda L: spread((1<<L)-1,w)
    out.append(f'''/-- {doc} -/
def {name}F : Nat := 0x{c:x}

/-- Arithmetic modulo that polynomial. -/
def {name}C : Ctx where
  e := 1
  w := {w}
  d := {d}
  nf := 0x{spread(c,w):x}
  mu := 0x{spread(mu,w):x}
  m1 := 0x{mask(d):x}
  m2 := 0x{mask(2*d):x}

theorem {name}C_ok : {name}C.ok2 {name}F = true := by decide +kernel

theorem {name}_pow : {name}C.powIs (2 ^ {d} - 1) {d} 1 = true := by decide +kernel

''')
    assert ppow(N,c)==1
    for p in F: prime(p)
    for p in F:
        u=pinv(ppow(N//p,c)^1,c)
        out.append(f'''theorem {name}_inv_{p} : {name}C.invCheck ((2 ^ {d} - 1) / {p}) {d} 0x{u:x} = true := by decide +kernel

''')
    out.append(f'''theorem {name}_primes (q : Nat) (hq : q.Prime) (h : q ∣ 2 ^ {d} - 1) :
    q ∈ ({F} : List Nat) := by
  have e : 2 ^ {d} - 1 = ({F} : List Nat).foldl Nat.mul 1 := by decide +kernel
  rw [e] at h
  refine (prime_dvd_foldl q hq _ ?_ 1 h).resolve_right fun h1 => absurd (Nat.dvd_one.mp h1) hq.one_lt.ne'
  · intro r hr
    simp only [List.mem_cons, List.not_mem_nil, or_false] at hr
    rcases hr with {' | '.join(['rfl']*len(F))}
''')
    for p in F: out.append(f'    · exact {prime(p)}\n')
    out.append(f'''
theorem {name}_inv (q : Nat) (hq : q.Prime) (h : q ∣ 2 ^ {d} - 1) :
    ∃ U : (ZMod 2)[X], bp ({name}C.d + 1) {name}F ∣ U * (X ^ ((2 ^ {d} - 1) / q) - 1) - 1 := by
  have hm := {name}_primes q hq h
  simp only [List.mem_cons, List.not_mem_nil, or_false] at hm
  rcases hm with {' | '.join(['rfl']*len(F))}
''')
    for p in F: out.append(f'  · exact Ctx.invCheck_dvd {name}C_ok {name}_inv_{p}\n')
    out.append('\n')
factors=[3,5,17,257,65537,641,6700417,274177,67280421310721,59649589127497217,5704689200685129054721]
out.append('''/-
Generated by `tools/gen_xocert.py`: certificates, checked by evaluation in the kernel, that the characteristic
polynomials of the xo* state updates are primitive.
-/
import Verif.Proofs.Gf2
import Mathlib.Tactic.NormNum.Prime
namespace Crazy.Kron
open Polynomial

''')
gen('xoro',cr,128,'The characteristic polynomial of the state update of Xoroshiro, bit `i` being the coefficient of `X^i`.')
gen('xoshi',cx,256,'The characteristic polynomial of the state update of Xoshiro, bit `i` being the coefficient of `X^i`.')
# jump polynomial
J=ppow(1<<192,cx)
print([hex((J>>(64*i))&M) for i in range(4)])
out.append(f'''theorem xoshi_jump : xoshiC.powIs (2 ^ 192) 193 0x{J:x} = true := by decide +kernel

end Crazy.Kron
''')
open(sys.argv[1],'w').write(''.join(out))
