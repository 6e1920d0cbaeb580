/-
The tail of the ziggurat of the normal distribution: the real numbers.
-/
import Verif.Proofs.NormTail
import Mathlib.Analysis.SpecialFunctions.Integrals.Basic
set_option exponentiation.threshold 2200
set_option maxRecDepth 4000
namespace Crazy
open MeasureTheory Set intervalIntegral

/-- The average of a monotone function. -/
theorem mono_riemann (g : ℝ → ℝ) (hg : MonotoneOn g (Icc 0 1)) (hb : ∀ x, 0 ≤ x → x ≤ 1 → 0 ≤ g x ∧ g x ≤ 1) (N : Nat) (hN : 0 < N) :
    |avg N (fun m => g ((m : ℝ) / N)) - ∫ s in (0 : ℝ)..1, g s| ≤ 1 / N := by
  have hN' : (0 : ℝ) < N := Nat.cast_pos.mpr hN
  have hW : (0 : ℝ) < 1 / N := by positivity
  have hclamp : ∀ x : ℝ, 0 ≤ x → 0 ≤ min x 1 ∧ min x 1 ≤ 1 := fun x h => ⟨le_min h zero_le_one, min_le_right _ _⟩
  have h := riemann (fun s => 1 - g (min s 1)) (fun x hx y hy hxy => by
    have h1 := hclamp x hx
    have h2 := hclamp y hy
    have := hg ⟨h1.1, h1.2⟩ ⟨h2.1, h2.2⟩ (min_le_min_right 1 hxy)
    show 1 - _ ≤ 1 - _
    linarith) 1 (1 / N) (fun x hx => by
    have h1 := hclamp x hx
    have := hb _ h1.1 h1.2
    constructor <;> linarith [this.1, this.2]) hW N
  rw [mul_one_div_cancel hN'.ne', one_mul] at h
  have e1 : (∑ j ∈ Finset.range N, (1 - g (min ((j : ℝ) * (1 / N)) 1))) * (1 / N) = 1 - avg N fun m => g ((m : ℝ) / N) := by
    have h1 : (1 - avg N fun m => g ((m : ℝ) / N)) = avg N fun m => 1 - g ((m : ℝ) / N) := by rw [avg_sub, avg_const hN]
    rw [h1]
    unfold avg
    rw [mul_one_div]
    refine congrArg (· / (N : ℝ)) (Finset.sum_congr rfl fun j hj => ?_)
    rw [Finset.mem_range] at hj
    rw [min_eq_left (by rw [mul_one_div, div_le_one hN']; exact_mod_cast hj.le), mul_one_div]
  have hint : IntervalIntegrable g volume 0 1 := by
    refine MonotoneOn.intervalIntegrable ?_
    rwa [uIcc_of_le zero_le_one]
  have e2 : ∫ s in (0 : ℝ)..1, (1 - g (min s 1)) = 1 - ∫ s in (0 : ℝ)..1, g s := by
    have : ∫ s in (0 : ℝ)..1, (1 - g (min s 1)) = ∫ s in (0 : ℝ)..1, (1 - g s) := by
      refine intervalIntegral.integral_congr fun x hx => ?_
      rw [uIcc_of_le zero_le_one] at hx
      show 1 - g (min x 1) = 1 - g x
      rw [min_eq_left hx.2]
    rw [this, intervalIntegral.integral_sub (by simp) hint, intervalIntegral.integral_const]
    simp
  rw [e1, e2] at h
  rw [abs_le] at h ⊢
  constructor <;> linarith [h.1, h.2]

/-- The density. -/
noncomputable def gauss (x : ℝ) : ℝ := Real.exp (-x ^ 2 / 2)

theorem gauss_cont : Continuous gauss := by unfold gauss; fun_prop
theorem gauss_pos (x : ℝ) : 0 < gauss x := Real.exp_pos _
theorem gauss_le_one (x : ℝ) : gauss x ≤ 1 := Real.exp_le_one_iff.mpr (by nlinarith [sq_nonneg x])
theorem gauss_ii (a b : ℝ) : IntervalIntegrable gauss volume a b := gauss_cont.intervalIntegrable a b

/-- The probability that the candidate of the tail for the uniform variate `u` is accepted. -/
noncomputable def psi (R u : ℝ) : ℝ := Real.exp (-(-Real.log u / R) ^ 2 / 2)

theorem psi_pos (R u : ℝ) : 0 < psi R u := Real.exp_pos _
theorem psi_le_one (R u : ℝ) : psi R u ≤ 1 := Real.exp_le_one_iff.mpr (by nlinarith [sq_nonneg (-Real.log u / R)])

theorem psi_mono (R : ℝ) (hR : 0 < R) (u v : ℝ) (hu : 0 < u) (hv : v ≤ 1) (h : u ≤ v) : psi R u ≤ psi R v := by
  unfold psi
  refine Real.exp_le_exp.mpr ?_
  have h1 := Real.log_le_log hu h
  have h2 : Real.log v ≤ 0 := Real.log_nonpos (hu.le.trans h) hv
  have h3 : (-Real.log v / R) ^ 2 ≤ (-Real.log u / R) ^ 2 :=
    pow_le_pow_left₀ (div_nonneg (by linarith) hR.le) (div_le_div_of_nonneg_right (by linarith) hR.le) 2
  linarith

/-- The factor that relates the density to what the tail does. -/
noncomputable def alpha (R : ℝ) : ℝ := R * Real.exp (R ^ 2 / 2)

theorem psi_eq (R u : ℝ) (hR : 0 < R) (hu : 0 < u) : psi R u = alpha R * gauss (R + -Real.log u / R) / (R * u) := by
  unfold psi alpha gauss
  have hlog : u = Real.exp (Real.log u) := (Real.exp_log hu).symm
  generalize Real.log u = l at *
  rw [hlog, eq_div_iff (by positivity)]
  have : Real.exp (-(-l / R) ^ 2 / 2) * (R * Real.exp l) = R * (Real.exp (-(-l / R) ^ 2 / 2) * Real.exp l) := by ring
  rw [this, ← Real.exp_add, mul_assoc, ← Real.exp_add]
  refine congrArg (fun t => R * Real.exp t) ?_
  field_simp
  ring

theorem gauss_primitive (R y : ℝ) : HasDerivAt (fun y => ∫ s in R..y, gauss s) (gauss y) y :=
  (gauss_cont.integral_hasStrictDerivAt R y).hasDerivAt

theorem psi_integral (R Y : ℝ) (hR : 0 < R) (hY : 0 ≤ Y) :
    ∫ u in Real.exp (-(R * Y))..1, psi R u = alpha R * ∫ s in R..R + Y, gauss s := by
  have hc1 : Real.exp (-(R * Y)) ≤ 1 := Real.exp_le_one_iff.mpr (by have := mul_nonneg hR.le hY; linarith)
  have hc0 := Real.exp_pos (-(R * Y))
  have hd : ∀ u ∈ uIcc (Real.exp (-(R * Y))) 1, HasDerivAt (fun u => -(alpha R * ∫ s in R..R + -Real.log u / R, gauss s)) (psi R u) u := by
    intro u hu
    rw [uIcc_of_le hc1] at hu
    have hu0 : 0 < u := hc0.trans_le hu.1
    have h1 : HasDerivAt (fun u => R + -Real.log u / R) (-u⁻¹ / R) u :=
      (((Real.hasDerivAt_log hu0.ne').neg).div_const R).const_add R
    have h2 := (((gauss_primitive R (R + -Real.log u / R)).comp u h1).const_mul (alpha R)).neg
    refine h2.congr_deriv ?_
    rw [psi_eq R u hR hu0]
    field_simp
  have hcont : ContinuousOn (psi R) (uIcc (Real.exp (-(R * Y))) 1) := by
    intro u hu
    rw [uIcc_of_le hc1] at hu
    have hu0 : 0 < u := hc0.trans_le hu.1
    unfold psi
    have : ContinuousAt (fun u => Real.log u) u := Real.continuousAt_log hu0.ne'
    exact (Real.continuous_exp.continuousAt.comp (((this.neg.div_const R).pow 2).neg.div_const 2)).continuousWithinAt
  rw [integral_eq_sub_of_hasDerivAt hd hcont.intervalIntegrable, Real.log_one, neg_zero, zero_div, add_zero, integral_same, Real.log_exp,
    neg_neg, mul_div_cancel_left₀ _ hR.ne']
  ring

open Classical in
/-- The same, cut off below `c`. -/
noncomputable def psiCut (R c u : ℝ) : ℝ := if c ≤ u then psi R u else 0

theorem psiCut_bounds (R c u : ℝ) : 0 ≤ psiCut R c u ∧ psiCut R c u ≤ 1 := by
  unfold psiCut
  split
  · exact ⟨(psi_pos R u).le, psi_le_one R u⟩
  · exact ⟨le_rfl, zero_le_one⟩

theorem psiCut_integral (R Y : ℝ) (hR : 0 < R) :
    |avg (2 ^ 53) (fun m => psiCut R (Real.exp (-(R * Y))) ((m : ℝ) / 2 ^ 53)) - alpha R * ∫ s in R..R + max Y 0, gauss s| ≤ 1 / 2 ^ 53 := by
  have hc0 := Real.exp_pos (-(R * Y))
  have cs : (((2 : Nat) ^ 53 : Nat) : ℝ) = 2 ^ 53 := by rw [Nat.cast_pow, Nat.cast_ofNat]
  rcases le_total 0 Y with hY | hY
  · have hc1 : Real.exp (-(R * Y)) ≤ 1 := Real.exp_le_one_iff.mpr (by have := mul_nonneg hR.le hY; linarith)
    have hmono : MonotoneOn (psiCut R (Real.exp (-(R * Y)))) (Icc 0 1) := by
      intro u hu v hv huv
      unfold psiCut
      by_cases h : Real.exp (-(R * Y)) ≤ u
      · rw [if_pos h, if_pos (h.trans huv)]
        exact psi_mono R hR u v (hc0.trans_le h) hv.2 huv
      · rw [if_neg h]
        split
        · exact (psi_pos R v).le
        · exact le_rfl
    have h := mono_riemann _ hmono (fun x _ _ => psiCut_bounds R _ x) (2 ^ 53) (by positivity)
    rw [cs] at h
    have hi : ∀ a b, 0 ≤ a → a ≤ b → b ≤ 1 → IntervalIntegrable (psiCut R (Real.exp (-(R * Y)))) volume a b := by
      intro a b ha hab hb
      refine MonotoneOn.intervalIntegrable (hmono.mono ?_)
      rw [uIcc_of_le hab]
      exact Icc_subset_Icc ha hb
    have e1 : ∫ s in (0 : ℝ)..1, psiCut R (Real.exp (-(R * Y))) s = alpha R * ∫ s in R..R + max Y 0, gauss s := by
      rw [max_eq_left hY, ← psi_integral R Y hR hY, ← integral_add_adjacent_intervals (hi 0 _ le_rfl hc0.le hc1) (hi _ 1 hc0.le hc1 le_rfl)]
      have z : ∫ s in (0 : ℝ)..Real.exp (-(R * Y)), psiCut R (Real.exp (-(R * Y))) s = 0 := by
        refine integral_zero_ae ?_
        have hne : ∀ᵐ s : ℝ, s ≠ Real.exp (-(R * Y)) := by
          rw [ae_iff]
          simp
        filter_upwards [hne] with s hs hmem
        rw [uIoc_of_le hc0.le] at hmem
        exact if_neg (not_le.mpr (lt_of_le_of_ne hmem.2 hs))
      rw [z, zero_add]
      refine intervalIntegral.integral_congr fun x hx => ?_
      rw [uIcc_of_le hc1] at hx
      exact if_pos hx.1
    rwa [e1] at h
  · rw [max_eq_right hY, add_zero, integral_same, mul_zero, sub_zero]
    have hc1 : 1 ≤ Real.exp (-(R * Y)) := Real.one_le_exp (by have := mul_nonneg hR.le (neg_nonneg.mpr hY); linarith)
    have : ∀ m : Nat, m < 2 ^ 53 → psiCut R (Real.exp (-(R * Y))) ((m : ℝ) / 2 ^ 53) = 0 := by
      intro m hm
      refine if_neg (not_le.mpr (lt_of_lt_of_le ?_ hc1))
      rw [div_lt_one two_pow_53]
      exact_mod_cast hm
    rw [avg_congr this, avg_const (by positivity), abs_zero]
    positivity

theorem alpha_gauss (R s : ℝ) (hR : 0 < R) (h : R ≤ s) : alpha R * gauss s ≤ R := by
  unfold alpha gauss
  rw [mul_assoc, ← Real.exp_add]
  refine mul_le_of_le_one_right hR.le (Real.exp_le_one_iff.mpr ?_)
  nlinarith

/-- The dependency on the cut. -/
theorem alpha_lip (R Y Y' : ℝ) (hR : 0 < R) :
    |(alpha R * ∫ s in R..R + max Y 0, gauss s) - alpha R * ∫ s in R..R + max Y' 0, gauss s| ≤ R * |Y - Y'| := by
  rw [← mul_sub, integral_interval_sub_left (gauss_ii _ _) (gauss_ii _ _), ← intervalIntegral.integral_const_mul]
  have h := norm_integral_le_of_norm_le_const (f := fun s => alpha R * gauss s) (a := R + max Y' 0) (b := R + max Y 0) (C := R) (fun s hs => by
    have hs1 : R ≤ s := by
      have h1 := hs.1
      have : R ≤ min (R + max Y' 0) (R + max Y 0) := le_min (by linarith [le_max_right Y' 0]) (by linarith [le_max_right Y 0])
      exact this.trans h1.le
    have ha : 0 < alpha R := by unfold alpha; positivity
    rw [Real.norm_eq_abs, abs_of_pos (mul_pos ha (gauss_pos s))]
    exact alpha_gauss R s hR hs1)
  rw [Real.norm_eq_abs] at h
  refine h.trans (mul_le_mul_of_nonneg_left ?_ hR.le)
  have := abs_max_sub_max_le_max Y 0 Y' 0
  rw [sub_self, abs_zero, max_eq_left (abs_nonneg (Y - Y'))] at this
  rwa [add_sub_add_left_eq_sub]

end Crazy
