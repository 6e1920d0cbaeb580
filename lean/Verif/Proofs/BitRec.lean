/-
Linear recurrences over the integers modulo 2, and the periods of the sequences that obey them.
-/
import Verif.Spec.LowBits
import Verif.Proofs.MtLin
import Verif.Proofs.Gf2
import Mathlib.Algebra.Polynomial.AlgebraMap
import Mathlib.Data.Fintype.Pigeonhole
import Mathlib.Tactic.ByContra
namespace Crazy
open Polynomial Kron

theorem bitAt_cast (x : U64) (b : Nat) : ((bitAt x b : Nat) : ZMod 2) = MT64.bit x b := by
  unfold bitAt MT64.bit
  rw [BitVec.getLsbD, Nat.testBit_eq_decide_div_mod_eq]
  rcases Nat.mod_two_eq_zero_or_one (x.toNat / 2 ^ b) with h | h <;> simp [h]

/-- `BitRec` for a run whose outputs are known. -/
theorem bitRec_iff {σ : Type} (next : σ → Go (U64 × σ)) (s : σ) (x : Nat → U64) (hx : ∀ n w, Emits next s n [w] ↔ x n = w)
    (b d : Nat) (c : Nat → Nat) : BitRec next s b d c ↔
      ∀ n, MT64.bit (x (n + d)) b = ∑ i ∈ Finset.range d, (c i : ZMod 2) * MT64.bit (x (n + i)) b := by
  have h1 : ∀ n, (bitAt (x (n + d)) b = (∑ i ∈ Finset.range d, c i * bitAt (x (n + i)) b) % 2) ↔
      MT64.bit (x (n + d)) b = ∑ i ∈ Finset.range d, (c i : ZMod 2) * MT64.bit (x (n + i)) b := fun n => by
    have h2 : bitAt (x (n + d)) b = bitAt (x (n + d)) b % 2 := by unfold bitAt; rw [Nat.mod_mod]
    rw [h2, ← ZMod.natCast_eq_natCast_iff', Nat.cast_sum, bitAt_cast]
    simp only [Nat.cast_mul, bitAt_cast]
  constructor
  · intro h n
    exact (h1 n).mp (h x (fun n => (hx n _).mpr rfl) n)
  · intro h y hy n
    obtain rfl : y = x := funext fun n => ((hx n _).mp (hy n)).symm
    exact (h1 n).mpr (h n)

/-- The recurrence a polynomial stands for. -/
theorem rec_of_aeval {f : (ZMod 2)[X]} {d : Nat} (hm : f.coeff d = 1) (hd : f.natDegree ≤ d) {y : ℕ → ZMod 2}
    (h : aeval (shift (ZMod 2)) f y = 0) (n : Nat) : y (n + d) = ∑ i ∈ Finset.range d, f.coeff i * y (n + i) := by
  have h1 := congrFun h n
  rw [aeval_eq_sum_range' (Nat.lt_succ_of_le hd), LinearMap.sum_apply, Finset.sum_apply, Finset.sum_range_succ] at h1
  simp only [LinearMap.smul_apply, Pi.smul_apply, shift_pow, hm, smul_eq_mul, one_mul, Pi.zero_apply] at h1
  exact (eq_neg_of_add_eq_zero_right h1).trans (CharTwo.neg_eq _)

theorem aeval_linear {V : Type} [AddCommGroup V] [Module (ZMod 2) V] (T : Module.End (ZMod 2) V) (l : V →ₗ[ZMod 2] ZMod 2)
    (f : (ZMod 2)[X]) (hf : aeval T f = 0) (g : V) : aeval (shift (ZMod 2)) f (fun n => l ((T ^ n) g)) = 0 := by
  funext n
  have h1 : l ((T ^ n) (aeval T f g)) = 0 := by rw [hf]; simp
  rw [aeval_eq_sum_range, LinearMap.sum_apply, Finset.sum_apply]
  rw [aeval_eq_sum_range, LinearMap.sum_apply, map_sum, map_sum] at h1
  rw [Pi.zero_apply, ← h1]
  refine Finset.sum_congr rfl fun i _ => ?_
  rw [LinearMap.smul_apply, LinearMap.smul_apply, map_smul, map_smul, Pi.smul_apply, shift_pow, pow_add, Module.End.mul_apply]

/-- A recurrence of order `d` carries equality of `d` places on. -/
theorem rec_eq {d : Nat} {c : Nat → ZMod 2} {y : ℕ → ZMod 2} (h : ∀ n, y (n + d) = ∑ i ∈ Finset.range d, c i * y (n + i))
    {a b : Nat} (hab : ∀ i < d, y (a + i) = y (b + i)) (n : Nat) : y (a + n) = y (b + n) := by
  induction n using Nat.strong_induction_on with
  | _ n ih =>
    rcases Nat.lt_or_ge n d with hn | hn
    · exact hab n hn
    · rw [show a + n = a + (n - d) + d by omega, show b + n = b + (n - d) + d by omega, h, h]
      refine Finset.sum_congr rfl fun i hi => ?_
      rw [Finset.mem_range] at hi
      rw [Nat.add_assoc, Nat.add_assoc, ih (n - d + i) (by omega)]

/-- A sequence of exact period `2^N - 1` obeys no recurrence of order less than `N`. -/
theorem order_ge {N : Nat} (hN : 2 ≤ N) {y : ℕ → ZMod 2} (hp : ∀ q, (∀ n, y (n + q) = y n) ↔ 2 ^ N - 1 ∣ q)
    {d : Nat} {c : Nat → ZMod 2} (h : ∀ n, y (n + d) = ∑ i ∈ Finset.range d, c i * y (n + i)) : N ≤ d := by
  -- equality from some place on is equality everywhere
  have hP := (hp (2 ^ N - 1)).mpr dvd_rfl
  have h3 : 3 ≤ 2 ^ N - 1 := by
    have : 2 ^ 2 ≤ 2 ^ N := Nat.pow_le_pow_right (by decide) hN
    omega
  have hPm : ∀ k n, y (n + (2 ^ N - 1) * k) = y n := by
    intro k
    exact (hp _).mpr (dvd_mul_right _ _)
  have hback : ∀ a q, (∀ n, y (a + n) = y (a + q + n)) → 2 ^ N - 1 ∣ q := by
    intro a q h1
    rw [← hp]
    intro n
    have ha : a ≤ (2 ^ N - 1) * a := Nat.le_mul_of_pos_left _ (by omega)
    have h2 := h1 (n + ((2 ^ N - 1) * a - a))
    rw [show a + (n + ((2 ^ N - 1) * a - a)) = n + (2 ^ N - 1) * a by omega,
      show a + q + (n + ((2 ^ N - 1) * a - a)) = n + q + (2 ^ N - 1) * a by omega, hPm, hPm] at h2
    exact h2.symm
  by_contra hlt
  have hlt : d < N := Nat.lt_of_not_le hlt
  -- no window of `d` places is zero
  have hnz : ∀ a, (fun i : Fin d => y (a + i)) ≠ 0 := by
    intro a h0
    have h1 : ∀ n, y (a + n) = 0 := by
      intro n
      induction n using Nat.strong_induction_on with
      | _ n ih =>
        rcases Nat.lt_or_ge n d with hn | hn
        · exact congrFun h0 ⟨n, hn⟩
        · rw [show a + n = a + (n - d) + d by omega, h]
          refine Finset.sum_eq_zero fun i hi => ?_
          rw [Finset.mem_range] at hi
          rw [Nat.add_assoc, ih (n - d + i) (by omega), mul_zero]
    have h2 := hback a 1 (fun n => by rw [h1, Nat.add_assoc, h1])
    exact absurd (Nat.le_of_dvd (by decide) h2) (by omega)
  have hcard : Fintype.card {v : Fin d → ZMod 2 // v ≠ 0} < Fintype.card (Fin (2 ^ d)) := by
    rw [Fintype.card_fin]
    have h1 : Fintype.card (Fin d → ZMod 2) = 2 ^ d := by rw [Fintype.card_fun, ZMod.card, Fintype.card_fin]
    have h2 : Fintype.card {v : Fin d → ZMod 2 // v ≠ 0} < Fintype.card (Fin d → ZMod 2) :=
      Fintype.card_subtype_lt (x := 0) (by simp)
    omega
  obtain ⟨i, j, hij, he⟩ := Fintype.exists_ne_map_eq_of_card_lt
    (fun a : Fin (2 ^ d) => (⟨fun i : Fin d => y (a.1 + i), hnz a⟩ : {v : Fin d → ZMod 2 // v ≠ 0})) hcard
  have he' : ∀ k < d, y (i.1 + k) = y (j.1 + k) := fun k hk => congrFun (congrArg Subtype.val he) ⟨k, hk⟩
  have hdN : 2 ^ d < 2 ^ N := Nat.pow_lt_pow_right (by decide) hlt
  have key : ∀ a b : Nat, a < b → b < 2 ^ d → (∀ k < d, y (a + k) = y (b + k)) → False := by
    intro a b hab hb hk
    have h1 := hback a (b - a) (fun n => by rw [show a + (b - a) = b by omega]; exact rec_eq h hk n)
    have := Nat.le_of_dvd (by omega) h1
    omega
  rcases Nat.lt_or_gt_of_ne (fun h => hij (Fin.ext h)) with h1 | h1
  · exact key _ _ h1 j.2 he'
  · exact key _ _ h1 i.2 (fun k hk => (he' k hk).symm)

theorem bp_coeff (D c i : Nat) : (bp D c).coeff i = if i < D then ((c / 2 ^ i % 2 : Nat) : ZMod 2) else 0 := by
  induction D generalizing c i with
  | zero => simp [bp]
  | succ D ih =>
    rw [bp, coeff_add, coeff_C]
    cases i with
    | zero => simp
    | succ i =>
      rw [coeff_X_mul, ih, if_neg (by omega), zero_add, Nat.div_div_eq_div_mul, ← Nat.pow_succ']
      simp

theorem bp_natDegree (D c : Nat) : (bp (D + 1) c).natDegree ≤ D := by
  rw [natDegree_le_iff_coeff_eq_zero]
  intro i hi
  rw [bp_coeff, if_neg (by omega)]

namespace MT64

theorem qP_monic (j : Nat) : (qP j).Monic ∧ (qP j).natDegree = 312 * j := by
  induction j with
  | zero => exact ⟨by rw [qP]; exact monic_one, by rw [qP]; simp⟩
  | succ j ih =>
    have hu : uP.Monic ∧ uP.natDegree = 312 := by
      unfold uP
      have hlt : (X ^ 156 : (ZMod 2)[X]).degree < (X ^ 312 : (ZMod 2)[X]).degree := by
        rw [degree_X_pow, degree_X_pow]; exact_mod_cast (by decide : 156 < 312)
      refine ⟨(monic_X_pow 312).add_of_left hlt, ?_⟩
      rw [natDegree_add_eq_left_of_degree_lt hlt, natDegree_X_pow]
    have h1 : (uP * qP j).Monic := hu.1.mul ih.1
    have h2 : (uP * qP j).natDegree = 312 * (j + 1) := by rw [hu.1.natDegree_mul ih.1, hu.2, ih.2]; ring
    have hlt : (C (bit mt64A j) * X ^ min (j + 1) 31 : (ZMod 2)[X]).degree < (uP * qP j).degree := by
      refine lt_of_le_of_lt (degree_C_mul_X_pow_le _ _) ?_
      rw [degree_eq_natDegree h1.ne_zero, h2]
      exact_mod_cast (by omega : min (j + 1) 31 < 312 * (j + 1))
    rw [qP_succ]
    exact ⟨h1.add_of_left hlt, by rw [natDegree_add_eq_left_of_degree_lt hlt, h2]⟩

end MT64
end Crazy
