"""Generates lean/Verif/Proofs/LfgCert3.lean: evaluated certificates for the periods of the bits of LFG.
Nothing here is trusted: the kernel checks every number."""
import sys, os
here=os.path.dirname(os.path.abspath(__file__))
src=open(here+'/gen_lfgcert2.py').read().split("# ---- primes")[0]
exec(src)
W3=[1,1,1]
def wcert(F2,G):
    G_,F=hensel(pdiv(P2,F2)[0],F2)
    assert trim(padd(G,pneg(G_)))==[]
    A=invmodZ(W3,F,F2); A=(A+[0]*d)[:d]
    assert trim(padd(mul(mul(A,(W3+[0]*d)[:d]),(G+[0]*d)[:d]),pneg(G)))==[]
    return A
A108=wcert(f108,G227); A187=wcert(f187,G148)
a=powx(MM*NN)
assert [v&1 for v in a]==[1]+[0]*(d-1)
open(sys.argv[1],'w').write(f'''/-
Generated by `tools/gen_lfgcert3.py`: certificates, checked by evaluation in the kernel, about the periods of the bits of `LFG`.
-/
import Verif.Proofs.LfgCert2
namespace Crazy.Kron

/-- `X^N = 1 + 2 u` modulo the polynomial, for some `u`. -/
def Ctx.oddOne (c : Ctx) (N k : Nat) : Bool :=
  decide (N < 2 ^ k) && match c.pw N k 1 with
    | some a => Nat.beq a (Nat.add (Nat.add (Nat.div a 2) (Nat.div a 2)) 1) && Nat.beq (Nat.land (Nat.div a 2) c.m1) (Nat.div a 2)
    | none => false

/-- `v w t = t` modulo the polynomial. -/
def Ctx.unitOn (c : Ctx) (v w t : Nat) : Bool :=
  Nat.beq (Nat.land v c.m1) v && (Nat.beq (Nat.land w c.m1) w && (Nat.beq (Nat.land t c.m1) t && (Nat.ble (c.mulmod v w) c.m1 &&
    Nat.beq (c.mulmod (c.mulmod v w) t) t)))

/-- The odd part of the period. -/
def lfgM : Nat := (2 ^ 108 - 1) / 65 * (2 ^ 187 - 1)

theorem lfg_oddone_cert : lfgC.oddOne lfgM 289 = true := by decide +kernel

/-- `X^2 + X + 1`. -/
def lfgW : Nat := 0x{enc(W3):x}

theorem lfg_unit_227 : lfgC.unitOn 0x{enc(A108):x} lfgW lfgG227 = true := by decide +kernel

theorem lfg_unit_148 : lfgC.unitOn 0x{enc(A187):x} lfgW lfgG148 = true := by decide +kernel

end Crazy.Kron
''')
