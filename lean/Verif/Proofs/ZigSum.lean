/-
Sums over the offsets of a ziggurat layer, as integrals. Used for the distribution of `Exponential` and `Normal`.
-/
import Verif.Spec.Zig
import Mathlib.Analysis.SumIntegralComparisons
import Mathlib.MeasureTheory.Integral.IntervalIntegral.Basic
import Mathlib.Tactic.Linarith
import Mathlib.Tactic.Positivity
import Mathlib.Tactic.FieldSimp
import Mathlib.Tactic.Ring
namespace Crazy
open MeasureTheory Set intervalIntegral

/-- What is needed of a density. -/
structure Dens (f : ℝ → ℝ) : Prop where
  cont : Continuous f
  anti : AntitoneOn f (Ici 0)
  pos : ∀ x, 0 < f x
  le_one : ∀ x, 0 ≤ x → f x ≤ 1
  lip : ∀ a b, 0 ≤ a → 0 ≤ b → |f a - f b| ≤ |a - b|

/-- The part of the value `v` that lies between the heights `b` and `a`. -/
noncomputable def slab (a b v : ℝ) : ℝ := min v a - min v b

theorem slab_nonneg {a b : ℝ} (h : b ≤ a) (v : ℝ) : 0 ≤ slab a b v := by
  unfold slab
  have := min_le_min_left v h
  linarith

theorem slab_le {a b : ℝ} (h : b ≤ a) (v : ℝ) : slab a b v ≤ a - b := by
  unfold slab
  rcases le_total v b with h1 | h1
  · rw [min_eq_left h1, min_eq_left (h1.trans h)]; linarith
  · rw [min_eq_right h1]; linarith [min_le_right v a]

theorem slab_mono {a b : ℝ} (h : b ≤ a) {v w : ℝ} (hv : v ≤ w) : slab a b v ≤ slab a b w := by
  unfold slab
  rcases le_total v b with h1 | h1
  · rw [min_eq_left h1, min_eq_left (h1.trans h)]
    have := slab_nonneg h w
    unfold slab at this
    linarith
  · rw [min_eq_right h1, min_eq_right (h1.trans hv)]
    linarith [min_le_min_right a hv]

theorem slab_lip {a b : ℝ} (h : b ≤ a) (v w : ℝ) : |slab a b v - slab a b w| ≤ |v - w| := by
  wlog hv : w ≤ v generalizing v w
  · rw [abs_sub_comm, abs_sub_comm v w]; exact this w v (le_of_not_ge hv)
  rw [abs_of_nonneg (by linarith [slab_mono h hv]), abs_of_nonneg (by linarith)]
  unfold slab
  have h1 := min_le_min_right b hv
  have h2 : min v a ≤ min w a + (v - w) := by
    rcases le_total w a with h3 | h3
    · rw [min_eq_left h3]; linarith [min_le_left v a]
    · rw [min_eq_right h3]; linarith [min_le_right v a]
  linarith

/-- A Riemann sum of an antitone function. -/
theorem riemann (φ : ℝ → ℝ) (hφ : AntitoneOn φ (Ici 0)) (B W : ℝ) (hB : ∀ x, 0 ≤ x → 0 ≤ φ x ∧ φ x ≤ B) (hW : 0 < W) (J : ℕ) :
    |(∑ j ∈ Finset.range J, φ (j * W)) * W - ∫ s in (0 : ℝ)..J * W, φ s| ≤ B * W := by
  have ha : AntitoneOn (fun s => φ (s * W)) (Icc (0 : ℝ) (0 + (J : ℕ))) := by
    intro x hx y hy hxy
    refine hφ ?_ ?_ ?_
    · exact mul_nonneg hx.1 hW.le
    · exact mul_nonneg hy.1 hW.le
    · exact mul_le_mul_of_nonneg_right hxy hW.le
  have h1 := ha.integral_le_sum
  have h2 := ha.sum_le_integral
  have h3 : (∑ j ∈ Finset.range J, φ (j * W)) =
      (∑ j ∈ Finset.range J, φ ((j + 1 : ℕ) * W)) + φ 0 - φ (J * W) := by
    have e1 := Finset.sum_range_succ (fun j : ℕ => φ (j * W)) J
    have e2 := Finset.sum_range_succ' (fun j : ℕ => φ (j * W)) J
    rw [e1] at e2
    simp only [Nat.cast_zero, zero_mul] at e2
    linarith
  have h4 : ∫ s in (0 : ℝ)..J * W, φ s = (∫ s in (0 : ℝ)..0 + (J : ℕ), φ (s * W)) * W := by
    rw [integral_comp_mul_right _ hW.ne', zero_mul, zero_add, smul_eq_mul, mul_right_comm, inv_mul_cancel₀ hW.ne', one_mul]
  simp only [zero_add] at h1 h2 h4
  rw [h4, ← sub_mul, abs_mul, abs_of_pos hW]
  refine mul_le_mul_of_nonneg_right ?_ hW.le
  have b0 := hB 0 le_rfl
  have bJ := hB (J * W) (mul_nonneg (Nat.cast_nonneg _) hW.le)
  rw [abs_le]
  constructor <;> linarith

/-- One layer: the accepted share of the first `J` offsets, as an integral. -/
theorem layer_sum {f : ℝ → ℝ} (hf : Dens f) (a b W η δ T : ℝ) (hab : b ≤ a) (hW : 0 < W) (hT : 0 ≤ T) (J : ℕ) (c : ℕ → ℝ)
    (hJ : |J * W - T| ≤ δ) (hc : ∀ j < J, |c j * (a - b) - slab a b (f (j * W))| ≤ η) :
    |(∑ j ∈ Finset.range J, c j) * (W * (a - b)) - ∫ s in (0 : ℝ)..T, slab a b (f s)| ≤ J * W * η + (a - b) * (W + δ) := by
  have hcont : Continuous (fun s => slab a b (f s)) := by
    unfold slab
    exact (hf.cont.min continuous_const).sub (hf.cont.min continuous_const)
  have hanti : AntitoneOn (fun s => slab a b (f s)) (Ici 0) := fun x hx y hy hxy => slab_mono hab (hf.anti hx hy hxy)
  have h1 := riemann (fun s => slab a b (f s)) hanti (a - b) W (fun x _ => ⟨slab_nonneg hab _, slab_le hab _⟩) hW J
  have h2 : |(∑ j ∈ Finset.range J, c j) * (W * (a - b)) - (∑ j ∈ Finset.range J, slab a b (f (j * W))) * W| ≤ J * W * η := by
    have e : (∑ j ∈ Finset.range J, c j) * (W * (a - b)) - (∑ j ∈ Finset.range J, slab a b (f (j * W))) * W =
        (∑ j ∈ Finset.range J, (c j * (a - b) - slab a b (f (j * W)))) * W := by
      rw [Finset.sum_sub_distrib, sub_mul, ← Finset.sum_mul]
      ring
    rw [e, abs_mul, abs_of_pos hW, mul_right_comm]
    refine mul_le_mul_of_nonneg_right ?_ hW.le
    refine (Finset.abs_sum_le_sum_abs _ _).trans ?_
    refine (Finset.sum_le_sum fun j hj => hc j (Finset.mem_range.mp hj)).trans ?_
    rw [Finset.sum_const, Finset.card_range, nsmul_eq_mul]
  have h3 : |(∫ s in (0 : ℝ)..J * W, slab a b (f s)) - ∫ s in (0 : ℝ)..T, slab a b (f s)| ≤ (a - b) * δ := by
    rw [integral_interval_sub_left (hcont.intervalIntegrable _ _) (hcont.intervalIntegrable _ _)]
    have := norm_integral_le_of_norm_le_const (a := T) (b := J * W) (f := fun s => slab a b (f s)) (C := a - b)
      (fun x _ => by rw [Real.norm_eq_abs, abs_of_nonneg (slab_nonneg hab _)]; exact slab_le hab _)
    rw [Real.norm_eq_abs] at this
    exact this.trans (mul_le_mul_of_nonneg_left hJ (by linarith))
  have := abs_sub_le ((∑ j ∈ Finset.range J, c j) * (W * (a - b))) ((∑ j ∈ Finset.range J, slab a b (f (j * W))) * W)
    (∫ s in (0 : ℝ)..T, slab a b (f s))
  have := abs_sub_le ((∑ j ∈ Finset.range J, slab a b (f (j * W))) * W) (∫ s in (0 : ℝ)..J * W, slab a b (f s))
    (∫ s in (0 : ℝ)..T, slab a b (f s))
  linarith

theorem slab_cont {f : ℝ → ℝ} (hf : Dens f) (a b : ℝ) : Continuous (fun s => slab a b (f s)) := by
  unfold slab
  exact (hf.cont.min continuous_const).sub (hf.cont.min continuous_const)

/-- All layers above the base layer. -/
theorem layers_sum {f : ℝ → ℝ} (hf : Dens f) (x g a e : ℕ → ℝ) (n : ℕ) (V α β R T : ℝ) (hg : ∀ i < n, g (i + 1) ≤ g i)
    (g0 : g 0 = 1) (hT : 0 ≤ T) (hTR : T ≤ R) (hx : ∀ i < n, 0 ≤ x (i + 1) ∧ x (i + 1) ≤ R) (hβ : 0 ≤ β)
    (hpdf : ∀ i < n, f (x (i + 1)) - g (i + 1) ≤ β) (ha : ∀ i < n, 0 ≤ a i ∧ a i ≤ 1)
    (harea : ∀ i < n, |x (i + 1) * (g i - g (i + 1)) - V| ≤ α)
    (hl : ∀ i < n, |a i * (x (i + 1) * (g i - g (i + 1))) - ∫ s in (0 : ℝ)..min T (x (i + 1)), slab (g i) (g (i + 1)) (f s)| ≤ e i) :
    |(∑ i ∈ Finset.range n, a i) * V - ∫ s in (0 : ℝ)..T, (f s - min (f s) (g n))| ≤
      (∑ i ∈ Finset.range n, e i) + n * (α + R * β) := by
  have h1 : ∫ s in (0 : ℝ)..T, (f s - min (f s) (g n)) =
      ∑ i ∈ Finset.range n, ∫ s in (0 : ℝ)..T, slab (g i) (g (i + 1)) (f s) := by
    rw [← intervalIntegral.integral_finset_sum fun i _ => (slab_cont hf _ _).intervalIntegrable _ _]
    refine intervalIntegral.integral_congr fun s hs => ?_
    rw [uIcc_of_le hT] at hs
    simp only [slab]
    rw [Finset.sum_range_sub', g0, min_eq_left (hf.le_one s hs.1)]
  rw [h1, Finset.sum_mul, ← Finset.sum_sub_distrib]
  refine (Finset.abs_sum_le_sum_abs _ _).trans ?_
  have h2 : ∀ i ∈ Finset.range n, |a i * V - ∫ s in (0 : ℝ)..T, slab (g i) (g (i + 1)) (f s)| ≤ e i + (α + R * β) := by
    intro i hi
    rw [Finset.mem_range] at hi
    have k1 := hl i hi
    have k2 : |a i * V - a i * (x (i + 1) * (g i - g (i + 1)))| ≤ α := by
      rw [← mul_sub, abs_mul, abs_of_nonneg (ha i hi).1, abs_sub_comm]
      exact (mul_le_of_le_one_left (abs_nonneg _) (ha i hi).2).trans (harea i hi)
    have k3 : |(∫ s in (0 : ℝ)..min T (x (i + 1)), slab (g i) (g (i + 1)) (f s)) -
        ∫ s in (0 : ℝ)..T, slab (g i) (g (i + 1)) (f s)| ≤ R * β := by
      rw [abs_sub_comm, integral_interval_sub_left ((slab_cont hf _ _).intervalIntegrable _ _)
        ((slab_cont hf _ _).intervalIntegrable _ _)]
      have := norm_integral_le_of_norm_le_const (a := min T (x (i + 1))) (b := T)
        (f := fun s => slab (g i) (g (i + 1)) (f s)) (C := β) (fun s hs => by
          rw [Real.norm_eq_abs, abs_of_nonneg (slab_nonneg (hg i hi) _)]
          rw [uIoc_of_le (min_le_left _ _)] at hs
          have hxs : x (i + 1) ≤ s := by
            rcases min_lt_iff.mp hs.1 with h | h
            · exact absurd hs.2 (not_le.mpr h)
            · exact h.le
          have m1 := hf.anti (mem_Ici.mpr (hx i hi).1) (mem_Ici.mpr ((hx i hi).1.trans hxs)) hxs
          refine (slab_mono (hg i hi) m1).trans ?_
          unfold slab
          have := hpdf i hi
          rcases le_total (f (x (i + 1))) (g (i + 1)) with h | h
          · rw [min_eq_left h, min_eq_left (h.trans (hg i hi))]; linarith
          · rw [min_eq_right h]; linarith [min_le_left (f (x (i + 1))) (g i)])
      rw [Real.norm_eq_abs] at this
      refine this.trans ?_
      rw [mul_comm]
      refine mul_le_mul_of_nonneg_right ?_ hβ
      rw [abs_of_nonneg (by linarith [min_le_left T (x (i + 1))])]
      have : 0 ≤ min T (x (i + 1)) := le_min hT (hx i hi).1
      linarith
    have t1 := abs_sub_le (a i * V) (a i * (x (i + 1) * (g i - g (i + 1)))) (∫ s in (0 : ℝ)..T, slab (g i) (g (i + 1)) (f s))
    have t2 := abs_sub_le (a i * (x (i + 1) * (g i - g (i + 1)))) (∫ s in (0 : ℝ)..min T (x (i + 1)), slab (g i) (g (i + 1)) (f s))
      (∫ s in (0 : ℝ)..T, slab (g i) (g (i + 1)) (f s))
    linarith
  refine (Finset.sum_le_sum h2).trans ?_
  rw [Finset.sum_add_distrib, Finset.sum_const, Finset.card_range, nsmul_eq_mul]

/-- The rectangle of the base layer. -/
theorem base_rect {f : ℝ → ℝ} (hf : Dens f) (gn β R T : ℝ) (hT : 0 ≤ T) (hTR : T ≤ R) (hβ : 0 ≤ β) (hb : gn - f R ≤ β) :
    |gn * T - ∫ s in (0 : ℝ)..T, min (f s) gn| ≤ R * β := by
  have e : gn * T = ∫ _ in (0 : ℝ)..T, gn := by rw [intervalIntegral.integral_const, sub_zero, smul_eq_mul, mul_comm]
  rw [e, ← intervalIntegral.integral_sub (by simp) ((hf.cont.min continuous_const).intervalIntegrable _ _)]
  have := norm_integral_le_of_norm_le_const (a := 0) (b := T) (f := fun s => gn - min (f s) gn) (C := β) (fun s hs => by
    rw [uIoc_of_le hT] at hs
    have m1 := hf.anti (mem_Ici.mpr hs.1.le) (mem_Ici.mpr (hT.trans hTR)) (hs.2.trans hTR)
    rw [Real.norm_eq_abs, abs_of_nonneg (by linarith [min_le_right (f s) gn])]
    rcases le_total (f s) gn with h | h
    · rw [min_eq_left h]; linarith
    · rw [min_eq_right h]; linarith)
  rw [Real.norm_eq_abs, sub_zero, abs_of_nonneg hT, mul_comm] at this
  exact this.trans (mul_le_mul_of_nonneg_right hTR hβ)

end Crazy
