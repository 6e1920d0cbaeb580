/-
The low bits of `LFG`: the part of them that comes from the primitive factor of degree 187 of the recurrence, and what follows for patterns.
-/
import Verif.Proofs.LfgBits
import Verif.Proofs.LfgCert4
import Verif.Proofs.MSeq
import Verif.Proofs.BitRec
set_option exponentiation.threshold 400
namespace Crazy
open Polynomial Kron

namespace LFG

/-- The factor of degree 187. -/
noncomputable def gP : (ZMod 2)[X] := bp (lfgGC.d + 1) lfgGF

/-- The product of the others. -/
noncomputable def hP : (ZMod 2)[X] := bp (lfgHC.d + 1) lfgHF

theorem gP_eq : gP = bp 188 lfgGF := by
  have : lfgGC.d = 187 := rfl
  rw [gP, this]

theorem hP_eq : hP = bp 149 lfgHF := by
  have : lfgHC.d = 148 := rfl
  rw [hP, this]

theorem land_mul_eq {a b m c : Nat} (h : Nat.beq (Nat.land (Nat.mul a b) m) c = true) : a * b &&& m = c := Nat.eq_of_beq_eq_true h

theorem land_add_eq {a b a' b' m c : Nat} (h : Nat.beq (Nat.land (Nat.add (Nat.mul a b) (Nat.mul a' b')) m) c = true) : a * b + a' * b' &&& m = c :=
  Nat.eq_of_beq_eq_true h

theorem per_of_dvd {f : (ZMod 2)[X]} {b : ℕ → ZMod 2} {Q : Nat} (hb : aeval (shift (ZMod 2)) f b = 0) (hd : f ∣ X ^ Q - 1) (n : Nat) : b (n + Q) = b n := by
  have := congrFun (act_of_dvd hb hd) n
  rwa [aeval_X_pow_shift, map_one, Module.End.one_apply] at this

theorem bp_one (D : Nat) : bp (D + 1) 1 = 1 := by
  have z : ∀ D, bp D 0 = 0 := fun D => by
    induction D with
    | zero => rfl
    | succ D ih => rw [bp, Nat.zero_div, ih]; simp
  rw [bp, show 1 / 2 = 0 from rfl, z]
  simp

theorem two_cast : ((2 ^ 1 : Nat) : ZMod 2) = 0 := by decide

theorem gh_eq : gP * hP = lfgF.map par := by
  have h1 := Cd.land 1 two_cast (by decide) (by decide) (Cd.mul (spread_cd 16 188 lfgGF) (spread_cd 16 149 lfgHF))
  have h2 := spread_cd 16 336 (2 ^ 335 + 2 ^ 334 + 1)
  rw [show 188 + 149 - 1 = 336 from rfl, land_mul_eq lfg_factors] at h1
  rw [gP_eq, hP_eq, Cd.unique (by decide) h1 h2]
  have hc : ∀ i < 336, (2 ^ 335 + 2 ^ 334 + 1) / 2 ^ i % 2 = if i = 335 then 1 else if i = 334 then 1 else if i = 0 then 1 else 0 := by decide +kernel
  ext i
  rw [bp_coeff, lfgF, lagPoly, Polynomial.map_sub, Polynomial.map_sub, Polynomial.map_pow, Polynomial.map_pow, map_X, Polynomial.map_one, coeff_sub, coeff_sub, coeff_X_pow,
    coeff_X_pow, coeff_one]
  by_cases hi : i < 336
  · rw [if_pos hi, hc i hi]
    by_cases h1 : i = 335
    · subst h1; decide
    · by_cases h2 : i = 334
      · subst h2; decide
      · by_cases h3 : i = 0
        · subst h3; decide
        · simp [h1, h2, h3]
  · rw [if_neg hi, if_neg (by omega), if_neg (by omega), if_neg (by omega)]
    decide

theorem bezout : ∃ U V : (ZMod 2)[X], U * gP + V * hP = 1 := by
  have a1 := Cd.mul (spread_cd 16 188 lfgU) (spread_cd 16 188 lfgGF)
  have a2 := Cd.mul (spread_cd 16 188 lfgV) (spread_cd 16 188 lfgHF)
  have h1 := Cd.land 1 two_cast (by decide) (by decide) (Cd.add a1 a2)
  rw [show 188 + 188 - 1 = 375 from rfl, land_add_eq lfg_bezout] at h1
  refine ⟨bp 188 lfgU, bp 188 lfgV, ?_⟩
  have e : hP = bp 188 lfgHF := by
    have hc : ∀ i < 188, 149 ≤ i → lfgHF / 2 ^ i % 2 = 0 := by decide +kernel
    ext i
    rw [hP_eq, bp_coeff, bp_coeff]
    by_cases hi : i < 149
    · rw [if_pos hi, if_pos (by omega)]
    · rw [if_neg hi]
      split
      · rename_i h
        rw [hc i h (by omega)]
        rfl
      · rfl
  rw [e, gP_eq]
  have h4 : Cd 16 375 (2 ^ 1 - 1) 1 (1 : (ZMod 2)[X]) := Cd.one (by decide) (by decide)
  have h5 := Cd.unique (by decide) h1 h4
  rw [h5]

theorem gP_monic : gP.Monic ∧ gP.natDegree = 187 := by
  have hd : gP.natDegree ≤ 187 := by rw [gP_eq]; exact bp_natDegree 187 lfgGF
  have hc : gP.coeff 187 = 1 := by
    rw [gP_eq, bp_coeff, if_pos (by decide), show lfgGF / 2 ^ 187 % 2 = 1 by decide +kernel]
    rfl
  exact ⟨monic_of_natDegree_le_of_coeff_eq_one 187 hd hc, natDegree_eq_of_le_of_coeff_ne_zero hd (by rw [hc]; exact one_ne_zero)⟩

/-- The period of the part that belongs to the other factors. -/
def lfgQ : Nat := (2 ^ 108 - 1) / 65 * 2047

theorem gP_dvd : gP ∣ X ^ (2 ^ 187 - 1) - 1 := by
  have := Ctx.powIs_dvd lfgGC_ok lfgG_pow
  rwa [show bp lfgGC.d 1 = 1 from bp_one 186] at this

theorem hP_dvd : hP ∣ X ^ lfgQ - 1 := by
  rw [lfgQ]
  have := Ctx.powIs_dvd lfgHC_ok lfgH_pow
  rwa [show bp lfgHC.d 1 = 1 from bp_one 147] at this

theorem gP_inv (q : Nat) (hq : q.Prime) (hd : q ∣ 2 ^ 187 - 1) : ∃ U : (ZMod 2)[X], gP ∣ U * (X ^ ((2 ^ 187 - 1) / q) - 1) - 1 := by
  have hf : 2 ^ 187 - 1 = [23, 89, 131071, 707983, 1032670816743843860998850056278950666491537].foldl Nat.mul 1 := by decide +kernel
  have hm : ∀ r ∈ [23, 89, 131071, 707983, 1032670816743843860998850056278950666491537], r ∈ lfgPrimes := by decide +kernel
  rw [hf] at hd
  have h5 := prime_dvd_foldl q hq _ (fun r hr => lfgPrimes_prime r (hm r hr)) 1 hd
  rcases h5 with h5 | h5
  · simp only [List.mem_cons, List.not_mem_nil, or_false] at h5
    rcases h5 with rfl | rfl | rfl | rfl | rfl
    · exact Ctx.invCheck_dvd lfgGC_ok lfgG_inv_23
    · exact Ctx.invCheck_dvd lfgGC_ok lfgG_inv_89
    · exact Ctx.invCheck_dvd lfgGC_ok lfgG_inv_131071
    · exact Ctx.invCheck_dvd lfgGC_ok lfgG_inv_707983
    · exact Ctx.invCheck_dvd lfgGC_ok lfgG_inv_1032670816743843860998850056278950666491537
  · exact absurd h5 hq.not_dvd_one

theorem mseq {a : ℕ → ZMod 2} (ha : aeval (shift (ZMod 2)) gP a = 0) (hne : a ≠ 0) : MSeq gP 187 a where
  monic := gP_monic.1
  deg := gP_monic.2
  pos := by decide
  ne := hne
  annih := ha
  period := seq_period ha hne (by decide) gP_dvd gP_inv

theorem lfgJ (j : Nat) (h0 : 0 < j) (hj : j < (2 ^ 187 - 1) / 2047) : ¬ 2 ^ 187 - 1 ∣ lfgQ * j := by
  intro h
  have e1 : 2 ^ 187 - 1 = 2047 * ((2 ^ 187 - 1) / 2047) := by decide +kernel
  have e2 : Nat.Coprime ((2 ^ 187 - 1) / 2047) ((2 ^ 108 - 1) / 65) := by decide +kernel
  rw [e1, lfgQ] at h
  generalize (2 ^ 187 - 1) / 2047 = J at *
  generalize (2 ^ 108 - 1) / 65 = A at *
  rw [Nat.mul_comm A, Nat.mul_assoc] at h
  have h2 := e2.dvd_of_dvd_mul_left (Nat.dvd_of_mul_dvd_mul_left (by decide) h)
  exact absurd (Nat.le_of_dvd h0 h2) (by omega)

/-- What is left of a sequence with the recurrence when the part that belongs to the short factors is taken away. -/
def Main (p : ℕ → ZMod 2) : Prop := aeval (shift (ZMod 2)) hP p ≠ 0

theorem chi_sum {t : Finset Nat} (f g : Nat → ZMod 2) : chi (∑ i ∈ t, (f i + g i)) = chi (∑ i ∈ t, f i) * chi (∑ i ∈ t, g i) := by
  rw [Finset.sum_add_distrib, chi_add]

theorem main_sum {p : ℕ → ZMod 2} (hp : aeval (shift (ZMod 2)) (lfgF.map par) p = 0) (hm : Main p) (t : Finset Nat) (ht : t.Nonempty)
    (hl : ∀ i ∈ t, i < 187) : |((∑ n ∈ Finset.range lfgM, chi (∑ i ∈ t, p (n + i)) : ℤ) : ℝ)| ≤ (lfgM : ℝ) / 2 ^ 88 := by
  obtain ⟨U, V, hUV⟩ := bezout
  let a := aeval (shift (ZMod 2)) (V * hP) p
  let b := aeval (shift (ZMod 2)) (U * gP) p
  have hab : ∀ n, p n = a n + b n := fun n => by
    have : aeval (shift (ZMod 2)) (U * gP + V * hP) p = p := by rw [hUV, map_one, Module.End.one_apply]
    rw [map_add, LinearMap.add_apply, add_comm] at this
    exact (congrFun this n).symm
  have ha : aeval (shift (ZMod 2)) gP a = 0 := by
    show aeval (shift (ZMod 2)) gP (aeval (shift (ZMod 2)) (V * hP) p) = 0
    rw [← Module.End.mul_apply, ← map_mul, show gP * (V * hP) = V * (gP * hP) by ring, gh_eq, map_mul, Module.End.mul_apply, hp, map_zero]
  have hb : aeval (shift (ZMod 2)) hP b = 0 := by
    show aeval (shift (ZMod 2)) hP (aeval (shift (ZMod 2)) (U * gP) p) = 0
    rw [← Module.End.mul_apply, ← map_mul, show hP * (U * gP) = U * (gP * hP) by ring, gh_eq, map_mul, Module.End.mul_apply, hp, map_zero]
  have hbQ : ∀ n, b (n + lfgQ) = b n := per_of_dvd hb hP_dvd
  have hne : a ≠ 0 := fun e => hm (by
    have : p = b := funext fun n => by rw [hab n, e, Pi.zero_apply, zero_add]
    rw [this]
    exact hb)
  have h1 := ((mseq ha hne).parity t ht hl).corr (fun n => chi (∑ i ∈ t, b (n + i))) (fun n => chi_sq _) lfgQ
    (fun n => by simp only [Nat.add_right_comm n lfgQ, hbQ]) ((2 ^ 108 - 1) / 65) lfgM (by decide +kernel)
    (by decide +kernel) ((2 ^ 187 - 1) / 2047) lfgJ
  have e : ∀ n, chi (∑ i ∈ t, p (n + i)) = chi (∑ i ∈ t, a (n + i)) * chi (∑ i ∈ t, b (n + i)) := fun n => by
    rw [← chi_sum]
    simp only [hab]
  simp only [e]
  generalize hS : ∑ n ∈ Finset.range lfgM, chi (∑ i ∈ t, a (n + i)) * chi (∑ i ∈ t, b (n + i)) = S at *
  have hJ : 2 ^ 176 ≤ (2 ^ 187 - 1) / 2047 := by decide +kernel
  generalize (2 ^ 187 - 1) / 2047 = J at *
  generalize lfgM = M at *
  have hJ' : ((2 ^ 88 : ℤ)) ^ 2 ≤ J := by
    have : ((2 ^ 176 : Nat) : ℤ) ≤ J := by exact_mod_cast hJ
    rw [← pow_mul]
    push_cast at this
    exact this
  have h2 : ((2 : ℤ) ^ 88 * S) ^ 2 ≤ (M : ℤ) ^ 2 := by
    rw [mul_pow]
    exact (mul_le_mul_of_nonneg_right hJ' (sq_nonneg S)).trans h1
  have h3 : |(2 : ℤ) ^ 88 * S| ≤ M := abs_le_of_sq_le_sq h2 (Int.natCast_nonneg _)
  have h4 : ((|(2 : ℤ) ^ 88 * S| : ℤ) : ℝ) ≤ ((M : ℤ) : ℝ) := by exact_mod_cast h3
  rw [le_div_iff₀ (by positivity)]
  rw [Int.cast_abs, Int.cast_mul, Int.cast_pow, abs_mul, Int.cast_ofNat, abs_of_pos (by positivity : (0 : ℝ) < 2 ^ 88), Int.cast_natCast] at h4
  rw [mul_comm]
  exact h4

theorem main_pattern {p : ℕ → ZMod 2} (hp : aeval (shift (ZMod 2)) (lfgF.map par) p = 0) (hm : Main p) (l : Nat) (hl : l ≤ 187) (v : ℕ → ZMod 2) :
    |(((Finset.range lfgM).filter fun n => ∀ i < l, p (n + i) = v i).card : ℝ) - (lfgM : ℝ) / 2 ^ l| ≤ (lfgM : ℝ) / 2 ^ 88 :=
  pattern p v lfgM l _ (by positivity) fun t ht hi => main_sum hp hm t ht fun i h => (hi i h).trans_le hl

section
variable {o : ℕ → U64} (hs : aeval (shift Z64) lfgF (fun n => toZ (o n)) = 0)
include hs

theorem p_main (hH : ∀ d ≤ 227, ∀ c : Nat → Nat, ¬ ∀ n, par (toZ (o (n + d))) = ∑ i ∈ Finset.range d, (c i : ZMod 2) * par (toZ (o (n + i)))) :
    Main (fun n => par (toZ (o n))) := fun h => by
  have h1 : ∀ n, bitz 0 (o (n + lfgQ)) = bitz 0 (o n) := fun n => by
    rw [bitz_zero, bitz_zero]
    exact per_of_dvd h hP_dvd n
  have h2 := (bits_exact hs hH 0 (by decide) lfgQ).1 h1
  exact absurd h2 (by decide +kernel)

/-- The sequence that tells the two halves of the period of bit `j + 1` apart. -/
theorem half_main (hH : ∀ d ≤ 227, ∀ c : Nat → Nat, ¬ ∀ n, par (toZ (o (n + d))) = ∑ i ∈ Finset.range d, (c i : ZMod 2) * par (toZ (o (n + i))))
    (j : Nat) (hj : j + 1 < 64) : ∃ e : ℕ → ZMod 2, aeval (shift (ZMod 2)) (lfgF.map par) e = 0 ∧ Main e ∧
      ∀ n, bitz (j + 1) (o (n + lfgM * 2 ^ j)) = bitz (j + 1) (o n) + e n := by
  obtain ⟨u, hu⟩ := lfgC_for.oddOne lfgC_bounds lfg_oddone_cert
  obtain ⟨B, hB⟩ := w_via hs hu
  have hp := p_annih hs
  refine ⟨_, ?_, ?_, bit_half hs hu j hj⟩
  · rw [← Module.End.mul_apply, ← map_mul, mul_comm, map_mul, Module.End.mul_apply, hp, map_zero]
  · intro h
    obtain ⟨C, hC⟩ : ∃ C, aeval (shift (ZMod 2)) (C * (vv u j).map par) (fun n => par (toZ (o n))) =
        aeval (shift (ZMod 2)) (wPoly (ZMod 2)) (fun n => par (toZ (o n))) := by
      cases j with
      | zero =>
        refine ⟨B * (1 + u.map par), ?_⟩
        rw [← hB, vv]
        refine congrFun (congrArg _ (congrArg _ ?_)) _
        ring
      | succ j =>
        refine ⟨B, ?_⟩
        rw [vv_map, hB]
    have h1 : aeval (shift (ZMod 2)) (hP * wPoly (ZMod 2)) (fun n => par (toZ (o n))) = 0 := by
      rw [map_mul, Module.End.mul_apply, ← hC, map_mul, Module.End.mul_apply, ← Module.End.mul_apply, ← map_mul, mul_comm, map_mul, Module.End.mul_apply, h, map_zero]
    have h2 : aeval (shift (ZMod 2)) (wPoly (ZMod 2)) (aeval (shift (ZMod 2)) hP (fun n => par (toZ (o n)))) = 0 := by
      rw [← Module.End.mul_apply, ← map_mul, mul_comm, h1]
    have ha : aeval (shift (ZMod 2)) gP (aeval (shift (ZMod 2)) hP (fun n => par (toZ (o n)))) = 0 := by
      rw [← Module.End.mul_apply, ← map_mul, gh_eq, hp]
    have hq := ((mseq ha (p_main hs hH)).parity {0, 1, 2} ⟨0, by decide⟩ (by decide)).ne
    refine hq ?_
    rw [← h2]
    funext n
    rw [wPoly, map_add, map_add, LinearMap.add_apply, LinearMap.add_apply, Pi.add_apply, Pi.add_apply, aeval_X_pow_shift, map_one, Module.End.one_apply]
    have h3 := aeval_X_pow_shift 1 (aeval (shift (ZMod 2)) hP (fun n => par (toZ (o n)))) n
    rw [pow_one] at h3
    rw [h3]
    simp only [Finset.sum_insert (show (0 : Nat) ∉ ({1, 2} : Finset Nat) by decide), Finset.sum_insert (show (1 : Nat) ∉ ({2} : Finset Nat) by decide), Finset.sum_singleton,
      Nat.add_zero]
    ring

end

end LFG
end Crazy
