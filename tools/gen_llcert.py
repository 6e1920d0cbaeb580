"""Generates lean/Verif/Proofs/MersenneCert.lean: the Lucas-Lehmer test for 2^19937 - 1, checked by the kernel."""
p=19937; q=(1<<p)-1
s=4; chk={}
for k in range(p-1):
    if k%500==0 or k==p-2: chk[k]=s
    s=(s*s+q-2)%q
assert chk[p-2]==0
ks=sorted(chk)
nm=lambda k: '4' if k==0 else '0' if k==p-2 else 'll%d'%k
o=['''/-
Generated by `tools/gen_llcert.py`: 2^19937 - 1 is a prime number, by the Lucas-Lehmer test.
-/
import Mathlib.NumberTheory.LucasLehmer
set_option exponentiation.threshold 20000
namespace Crazy.Mersenne
open LucasLehmer

/-- `n` steps of the test modulo `q`, every number computed before the next. -/
def go (q : Nat) : Nat → Nat → Option Nat
  | 0, a => some a
  | n + 1, a => bif Nat.ble a q then go q n (Nat.mod (Nat.add (Nat.mul a a) (Nat.sub q 2)) q) else none

theorem go_step {q k : Nat} : ∀ (n : Nat) {a b : Nat}, (norm_num_ext.sModNat q k = a) → go q n a = some b →
    norm_num_ext.sModNat q (k + n) = b := by
  intro n
  induction n generalizing k with
  | zero => intro a b h1 h2; rw [go, Option.some.injEq] at h2; rw [← h2]; exact h1
  | succ n ih =>
    intro a b h1 h2
    rw [go] at h2
    cases hc : Nat.ble a q with
    | false => rw [hc] at h2; exact absurd h2 (by simp)
    | true =>
      rw [hc, cond_true] at h2
      rw [show k + (n + 1) = k + 1 + n by omega]
      refine ih ?_ h2
      rw [norm_num_ext.sModNat, h1, pow_two]
      rfl

/-- `2^19937 - 1`. -/
def q0 : Nat := Nat.sub (Nat.pow 2 19937) 1

/-- `n` steps lead from `a` to `b`. -/
def chk (n a b : Nat) : Bool := Option.any (Nat.beq b) (go q0 n a)

theorem chk_step {q k n a b : Nat} (h1 : norm_num_ext.sModNat q k = a) (h2 : Option.any (Nat.beq b) (go q n a) = true) :
    norm_num_ext.sModNat q (k + n) = b := by
  cases hr : go q n a with
  | none => rw [hr] at h2; exact absurd h2 (by simp)
  | some r =>
    rw [hr] at h2
    have hq : b = r := Nat.eq_of_beq_eq_true h2
    rw [hq]
    exact go_step n h1 hr
''']
for k in ks:
    if nm(k).startswith('ll'): o.append('/-- Term %d. -/\ndef ll%d : Nat := 0x%x'%(k,k,chk[k]))
for a,b in zip(ks,ks[1:]):
    o.append('theorem step_%d : chk %d %s %s = true := by decide +kernel'%(a,b-a,nm(a),nm(b)))
o.append('''
theorem first (q : Nat) (h : 4 < q) : norm_num_ext.sModNat q 0 = 4 := by
  rw [norm_num_ext.sModNat, Nat.mod_eq_of_lt h]

theorem first_lt : 4 < q0 := Nat.le_of_ble_eq_true (by decide +kernel : Nat.ble 5 q0 = true)

theorem last : norm_num_ext.sModNat q0 19935 = 0 := by
  have h0 : norm_num_ext.sModNat q0 0 = 4 := first q0 first_lt''')
for a,b in zip(ks,ks[1:]):
    o.append('  have h%d : norm_num_ext.sModNat q0 %d = %s := chk_step (k := %d) (n := %d) h%d step_%d'%(b,b,nm(b),a,b-a,a,a))
o.append('''  exact h19935

theorem test (p : Nat) (hp : 1 < p) (h : norm_num_ext.sModNat (2 ^ p - 1) (p - 2) = 0) : (2 ^ p - 1).Prime := by
  refine lucas_lehmer_sufficiency p hp ?_
  rw [LucasLehmerTest, residue_eq_zero_iff_sMod_eq_zero p hp, ← norm_num_ext.sModNat_eq_sMod p _ hp, h]
  rfl

/-- `2^19937 - 1` is a prime number. -/
theorem prime : (2 ^ 19937 - 1).Prime := test 19937 (by decide) last

end Crazy.Mersenne
''')
open('/verif/lean/Verif/Proofs/MersenneCert.lean','w').write('\n'.join(o))
