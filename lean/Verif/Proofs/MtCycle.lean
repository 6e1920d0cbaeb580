/-
The period of the word sequence of `MT64`.
-/
import Verif.Proofs.MtCert1
import Verif.Proofs.MtCert2
import Verif.Proofs.MtCert3
import Verif.Proofs.MtCert4
import Verif.Proofs.MersenneCert
import Mathlib.Data.Nat.Prime.Basic
import Mathlib.Data.Nat.ModEq
namespace Crazy
open Polynomial

theorem Kron.mtP5000_eq : mtP5000 = mtP5000' := Nat.eq_of_beq_eq_true (by decide +kernel)
theorem Kron.mtP10000_eq : mtP10000 = mtP10000' := Nat.eq_of_beq_eq_true (by decide +kernel)
theorem Kron.mtP15000_eq : mtP15000 = mtP15000' := Nat.eq_of_beq_eq_true (by decide +kernel)

theorem Kron.mt_all {f : (ZMod 2)[X]} (h : mtC.For f) : MtPow f 19937 32768 := by
  have h1 := mt_part_1 h (MtPow.zero f)
  rw [mtP5000_eq] at h1
  have h2 := mt_part_2 h h1
  rw [mtP10000_eq] at h2
  have h3 := mt_part_3 h h2
  rw [mtP15000_eq] at h3
  exact mt_part_4 h h3

theorem Kron.Ctx.Pw2.dvd {c : Ctx} {f : (ZMod 2)[X]} (h : c.For f) {N a : Nat} (hp : c.Pw2 f N a) (hx : c.Red a (X : (ZMod 2)[X])) :
    ∀ K, K = 2 ^ N → f ∣ X ^ K - X := by
  intro K hK
  obtain ⟨P, h1, h2⟩ := hp
  rw [h.unique h1.dbl hx.dbl] at h2
  rwa [hK]

/-- `X^(2^19937) = X` modulo the characteristic polynomial. -/
theorem Kron.mt_frob : ∃ f : (ZMod 2)[X], MT64.qP 64 = f * X ^ 31 ∧ ∀ N, N = 2 ^ 19937 → f ∣ X ^ N - X := by
  obtain ⟨f, h, hq⟩ := mtC_for
  exact ⟨f, hq, Ctx.Pw2.dvd h (mt_all h) mtX_red⟩

namespace MT64
open Kron

/-- The words come again, once enough of them have gone by. -/
theorem seq_late (s : Vector U64 312) (p : Nat) (hp : p + 1 = 2 ^ 19937) (n : Nat) : seq s (n + 62 + p) = seq s (n + 62) := by
  obtain ⟨f, hq, hf⟩ := mt_frob
  have hf := hf _ hp
  refine bit_inj fun j _ => ?_
  have h1 := qP_bits s j
  have e : qP 64 * X ^ 30 = f * X ^ 61 := by rw [hq, mul_assoc, ← pow_add]
  rw [e, map_mul, Module.End.mul_apply] at h1
  have h2 := congrFun (act_of_dvd h1 hf) n
  have h3 := congrFun (congrArg (aeval (shift (ZMod 2)) · (aeval (shift (ZMod 2)) (X ^ 61 : (ZMod 2)[X]) (bits s j)))
    (pow_one (X : (ZMod 2)[X]))) n
  rw [aeval_X_pow_shift, aeval_X_pow_shift] at h2
  have h4 : aeval (shift (ZMod 2)) (X : (ZMod 2)[X]) (aeval (shift (ZMod 2)) (X ^ 61 : (ZMod 2)[X]) (bits s j)) n =
      bits s j (n + 1 + 61) := by
    rw [aeval_X]
    exact aeval_X_pow_shift 61 (bits s j) (n + 1)
  rw [h4, show n + (p + 1) + 61 = n + 62 + p by omega, show n + 1 + 61 = n + 62 by omega] at h2
  exact h2

theorem join_inj {a b a' b' : U64} (h : twist a b = twist a' b') : join a b = join a' b' := by
  have hb := fun j => congrArg (bit · j) h
  simp only [bit_twist] at hb
  have h63 : bit mt64A 63 = 1 := by decide
  have h0 : bit b 0 = bit b' 0 := by
    have := hb 63
    rwa [bit_ge _ le_rfl, bit_ge _ le_rfl, h63, one_mul, one_mul, zero_add, zero_add] at this
  refine bit_inj fun j _ => ?_
  cases j with
  | zero => rwa [bit_join_lo _ _ (by decide), bit_join_lo _ _ (by decide)]
  | succ j =>
    have := hb j
    rw [h0] at this
    exact add_right_cancel this

/-- The upper 33 bits. -/
def top (a : U64) : BitVec 33 := a.extractLsb' 31 33

theorem top_eq_iff (a a' : U64) : top a = top a' ↔ ∀ j, 31 ≤ j → bit a j = bit a' j := by
  constructor
  · intro h j hj
    have h1 := congrArg (BitVec.getLsbD · (j - 31)) h
    simp only [top, BitVec.getLsbD_extractLsb'] at h1
    by_cases hj64 : 64 ≤ j
    · rw [bit_ge _ hj64, bit_ge _ hj64]
    · rw [decide_eq_true (by omega : j - 31 < 33), Bool.true_and, Bool.true_and, show 31 + (j - 31) = j by omega] at h1
      unfold bit
      rw [h1]
  · intro h
    apply BitVec.eq_of_getLsbD_eq
    intro i hi
    simp only [top, BitVec.getLsbD_extractLsb']
    have := h (31 + i) (by omega)
    unfold bit at this
    revert this
    cases a.getLsbD (31 + i) <;> cases a'.getLsbD (31 + i) <;> simp

theorem join_top (a b a' b' : U64) (h : join a b = join a' b') : top a = top a' := by
  rw [top_eq_iff]
  intro j hj
  rw [← bit_join_hi a b hj, ← bit_join_hi a' b' hj, h]

theorem join_low (a b a' b' : U64) (h : join a b = join a' b') {j : Nat} (hj : j < 31) : bit b j = bit b' j := by
  rw [← bit_join_lo a b hj, ← bit_join_lo a' b' hj, h]

theorem twist_seq (s : Vector U64 312) (n : Nat) :
    twist (seq s n) (seq s (n + 1)) = seq s (n + 312) ^^^ seq s (n + 156) := by
  rw [seq_ge, BitVec.xor_comm, ← BitVec.xor_assoc, BitVec.xor_self, BitVec.zero_xor]

/-- Equality of two runs extends to the past. -/
theorem seq_back (s t : Vector U64 312) (a b : Nat) (h : ∀ n, seq s (n + a + 1) = seq t (n + b + 1)) :
    top (seq s a) = top (seq t b) ∧ (0 < a → 0 < b → seq s a = seq t b) := by
  have h1 : top (seq s a) = top (seq t b) := by
    refine join_top _ (seq s (a + 1)) _ (seq t (b + 1)) (join_inj ?_)
    have h2 := h 311
    have h3 := h 155
    rw [twist_seq, twist_seq]
    rw [show 311 + a + 1 = a + 312 by omega, show 311 + b + 1 = b + 312 by omega] at h2
    rw [show 155 + a + 1 = a + 156 by omega, show 155 + b + 1 = b + 156 by omega] at h3
    rw [h2, h3]
  refine ⟨h1, fun ha hb => ?_⟩
  obtain ⟨a, rfl⟩ : ∃ a', a = a' + 1 := ⟨a - 1, by omega⟩
  obtain ⟨b, rfl⟩ : ∃ b', b = b' + 1 := ⟨b - 1, by omega⟩
  refine bit_inj fun j _ => ?_
  by_cases hj : 31 ≤ j
  · exact (top_eq_iff _ _).mp h1 j hj
  · refine join_low (seq s a) _ (seq t b) _ (join_inj ?_) (by omega)
    have h2 := h 310
    have h3 := h 154
    rw [twist_seq, twist_seq]
    rw [show 310 + (a + 1) + 1 = a + 312 by omega, show 310 + (b + 1) + 1 = b + 312 by omega] at h2
    rw [show 154 + (a + 1) + 1 = a + 156 by omega, show 154 + (b + 1) + 1 = b + 156 by omega] at h3
    rw [h2, h3]

theorem seq_back_all (s t : Vector U64 312) (d m : Nat) (h : ∀ n, m ≤ n → seq s (n + d) = seq t n) :
    ∀ n, 1 ≤ n → seq s (n + d) = seq t n := by
  induction m with
  | zero => exact fun n _ => h n (Nat.zero_le n)
  | succ m ih =>
    intro n hn
    by_cases hm : m = 0
    · subst hm; exact h n hn
    refine ih (fun n hn => ?_) n hn
    by_cases he : n = m
    · subst he
      refine (seq_back s t (n + d) n fun k => ?_).2 (by omega) (by omega)
      rw [show k + (n + d) + 1 = k + n + 1 + d by omega]
      exact h _ (by omega)
    · exact h n (by omega)

/-- The words have period 2^19937 - 1. -/
theorem seq_period (s : Vector U64 312) (p : Nat) (hp : p + 1 = 2 ^ 19937) (n : Nat) (hn : 1 ≤ n) :
    seq s (n + p) = seq s n :=
  seq_back_all s s p 62 (fun n hn => by
    obtain ⟨k, rfl⟩ : ∃ k, n = k + 62 := ⟨n - 62, by omega⟩
    exact seq_late s p hp k) n hn

theorem top_period (s : Vector U64 312) (p : Nat) (hp : p + 1 = 2 ^ 19937) : top (seq s p) = top (seq s 0) := by
  refine (seq_back s s p 0 fun k => ?_).1
  rw [show k + p + 1 = k + 1 + p by omega]
  exact seq_period s p hp _ (by omega)

theorem seq_period_mul (s : Vector U64 312) (p : Nat) (hp : p + 1 = 2 ^ 19937) (m n : Nat) (hn : 1 ≤ n) :
    seq s (n + p * m) = seq s n := by
  induction m with
  | zero => rw [Nat.mul_zero, Nat.add_zero]
  | succ m ih =>
    rw [Nat.mul_succ, ← Nat.add_assoc, seq_period s p hp _ (by omega), ih]

theorem twist_zero_iff (a b : U64) : twist a b = 0#64 → join a b = 0#64 := by
  intro h
  have h1 : twist a b = twist 0#64 0#64 := by rw [h]; decide
  rw [join_inj h1]
  decide

/-- A period that is not a multiple of 2^19937 - 1 is possible for the zero sequence only. -/
theorem seq_zero_of (s : Vector U64 312) (p : Nat) (hp : p + 1 = 2 ^ 19937) (hpr : p.Prime) (q m : Nat)
    (h : ∀ n, m ≤ n → seq s (n + q) = seq s n) (hq : ¬ p ∣ q) : ∀ n, 1 ≤ n → seq s n = 0#64 := by
  have h1 : ∀ n, 1 ≤ n → seq s (n + q) = seq s n := by
    intro n hn
    rw [← seq_period_mul s p hp m n hn, ← seq_period_mul s p hp m (n + q) (by omega),
      show n + q + p * m = n + p * m + q by omega]
    refine h _ ?_
    have : 1 * m ≤ p * m := Nat.mul_le_mul_right _ hpr.one_lt.le
    omega
  have h2 : ∀ k n, 1 ≤ n → seq s (n + q * k) = seq s n := by
    intro k n hn
    induction k with
    | zero => rw [Nat.mul_zero, Nat.add_zero]
    | succ k ih => rw [Nat.mul_succ, ← Nat.add_assoc, h1 _ (by omega), ih]
  have hc : Nat.Coprime q p := ((Nat.Prime.coprime_iff_not_dvd hpr).mpr hq).symm
  obtain ⟨k, -, hk⟩ := Nat.exists_mul_mod_eq_one_of_coprime hc hpr.one_lt
  have h3 : ∀ n, 1 ≤ n → seq s (n + 1) = seq s n := by
    intro n hn
    have e := Nat.mod_add_div (q * k) p
    rw [hk] at e
    rw [← h2 k n hn, ← e, ← Nat.add_assoc, seq_period_mul s p hp _ _ (by omega)]
  have h4 : ∀ n, 1 ≤ n → seq s n = seq s 1 := by
    intro n hn
    induction n, hn using Nat.le_induction with
    | base => rfl
    | succ n hn ih => rw [h3 n hn, ih]
  have h5 : join (seq s 1) (seq s 1) = 0#64 := by
    refine twist_zero_iff _ _ ?_
    have := twist_seq s 1
    rwa [h4 (1 + 1) (by omega), h4 (1 + 312) (by omega), h4 (1 + 156) (by omega), BitVec.xor_self] at this
  have h6 : seq s 1 = 0#64 := by
    refine bit_inj fun j _ => ?_
    have hb := congrArg (bit · j) h5
    by_cases hj : 31 ≤ j
    · exact (bit_join_hi _ _ hj).symm.trans hb
    · exact (bit_join_lo _ _ (by omega)).symm.trans hb
  intro n hn
  rw [h4 n hn, h6]

theorem prime_of (p : Nat) (hp : p + 1 = 2 ^ 19937) : p.Prime := by
  have : p = 2 ^ 19937 - 1 := by rw [← hp]; rfl
  rw [this]
  exact Mersenne.prime

end MT64
end Crazy
