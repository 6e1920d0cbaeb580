/-
Checking approximations of the exponential function with natural numbers.
-/
import Mathlib.Analysis.Complex.Exponential
namespace Crazy

/-- `n! / n * b^(n-1)` times the sum of the first `n` terms of the series of `exp (a/b)`. -/
def expNum (a b : Nat) : Nat → Nat
  | 0 => 0
  | n + 1 => expNum a b n * (n * b) + a ^ n

theorem expNum_eq (a b n : Nat) (hb : 0 < b) :
    (expNum a b (n + 1) : ℝ) / (b ^ n * n.factorial) = ∑ m ∈ Finset.range (n + 1), ((a : ℝ) / b) ^ m / m.factorial := by
  have hb' : (b : ℝ) ≠ 0 := by exact_mod_cast hb.ne'
  induction n with
  | zero => simp [expNum]
  | succ n ih =>
    rw [Finset.sum_range_succ, ← ih, expNum]
    have h1 : ((n.factorial : Nat) : ℝ) ≠ 0 := by exact_mod_cast n.factorial_ne_zero
    have h2 : ((n : ℝ) + 1) ≠ 0 := by positivity
    rw [Nat.factorial_succ]
    push_cast
    rw [div_pow]
    field_simp
    ring

/-- `f / 2^114 * exp (16 * (a / b))` is `1` up to a relative error of `2^-49`. -/
def expCheck (a b f : Nat) : Bool :=
  Nat.ble a b && Nat.ble ((2 ^ 49 - 1) * 2 ^ 114 * (b ^ 19 * 121645100408832000) ^ 16) (f * expNum a b 20 ^ 16 * 2 ^ 49) &&
  Nat.ble (f * (expNum a b 20 * (20 * b) + 2 * a ^ 20) ^ 16 * 2 ^ 49) ((2 ^ 49 + 1) * 2 ^ 114 * (b ^ 20 * 2432902008176640000) ^ 16)

theorem expCheck_sound (a b f : Nat) (hb : 0 < b) (h : expCheck a b f = true) :
    |(f : ℝ) / 2 ^ 114 * Real.exp (16 * ((a : ℝ) / b)) - 1| ≤ 1 / 2 ^ 49 := by
  unfold expCheck at h
  simp only [Bool.and_eq_true, Nat.ble_eq] at h
  obtain ⟨⟨h1, h2⟩, h3⟩ := h
  have hb' : (0 : ℝ) < b := by exact_mod_cast hb
  have hy0 : (0 : ℝ) ≤ (a : ℝ) / b := by positivity
  have hy1 : (a : ℝ) / b ≤ 1 := by
    rw [div_le_one hb']; exact_mod_cast h1
  have f19 : Nat.factorial 19 = 121645100408832000 := by decide
  have f20 : Nat.factorial 20 = 2432902008176640000 := by decide
  have hlo : (expNum a b 20 : ℝ) / (b ^ 19 * 121645100408832000) ≤ Real.exp ((a : ℝ) / b) := by
    have := Real.sum_le_exp_of_nonneg hy0 20
    rw [← expNum_eq a b 19 hb, f19] at this
    exact_mod_cast this
  have hhi : Real.exp ((a : ℝ) / b) ≤ (expNum a b 20 * (20 * b) + 2 * a ^ 20 : ℝ) / (b ^ 20 * 2432902008176640000) := by
    have := Real.exp_bound' hy0 hy1 (n := 20) (by decide)
    rw [← expNum_eq a b 19 hb, f19, f20] at this
    refine this.trans ?_
    have ha : (0 : ℝ) ≤ (a : ℝ) ^ 20 := by positivity
    have e1 : (expNum a b 20 * (20 * b) + 2 * a ^ 20 : ℝ) / (b ^ 20 * 2432902008176640000) =
        (expNum a b 20 : ℝ) / (b ^ 19 * 121645100408832000) + 2 * (a : ℝ) ^ 20 / (b ^ 20 * 2432902008176640000) := by
      field_simp
      ring
    rw [e1, div_pow]
    push_cast
    refine add_le_add (le_refl _) ?_
    rw [div_mul_eq_mul_div, div_div, div_le_div_iff₀ (by positivity) (by positivity)]
    have hbb : (0 : ℝ) ≤ (b : ℝ) ^ 20 := by positivity
    have := mul_nonneg ha hbb
    nlinarith
  generalize expNum a b 20 = N at *
  have he : Real.exp (16 * ((a : ℝ) / b)) = Real.exp ((a : ℝ) / b) ^ 16 := by
    rw [← Real.exp_nat_mul]; norm_num
  rw [he]
  generalize Real.exp ((a : ℝ) / b) = E at *
  have hf : (0 : ℝ) ≤ (f : ℝ) / 2 ^ 114 := by positivity
  have hN0 : (0 : ℝ) ≤ (N : ℝ) / (b ^ 19 * 121645100408832000) := by positivity
  have h2' : ((2 ^ 49 - 1) * 2 ^ 114 * (b ^ 19 * 121645100408832000) ^ 16 : ℝ) ≤ f * (N : ℝ) ^ 16 * 2 ^ 49 := by
    have : (((2 ^ 49 - 1) * 2 ^ 114 * (b ^ 19 * 121645100408832000) ^ 16 : Nat) : ℝ) ≤ ((f * N ^ 16 * 2 ^ 49 : Nat) : ℝ) :=
      Nat.cast_le.2 h2
    rw [Nat.cast_mul, Nat.cast_mul, Nat.cast_sub (by decide)] at this
    push_cast at this
    norm_num at this ⊢
    exact this
  have h3' : (f * ((N : ℝ) * (20 * b) + 2 * a ^ 20) ^ 16 * 2 ^ 49 : ℝ) ≤
      (2 ^ 49 + 1) * 2 ^ 114 * (b ^ 20 * 2432902008176640000) ^ 16 := by
    exact_mod_cast h3
  have l1 := mul_le_mul_of_nonneg_left (pow_le_pow_left₀ hN0 hlo 16) hf
  have l2 := mul_le_mul_of_nonneg_left (pow_le_pow_left₀ (hN0.trans hlo) hhi 16) hf
  have l3 : (1 : ℝ) - 1 / 2 ^ 49 ≤ (f : ℝ) / 2 ^ 114 * ((N : ℝ) / (b ^ 19 * 121645100408832000)) ^ 16 := by
    rw [div_pow, div_mul_div_comm, le_div_iff₀ (by positivity)]
    have : ((1 : ℝ) - 1 / 2 ^ 49) * (2 ^ 114 * (b ^ 19 * 121645100408832000) ^ 16) =
        ((2 ^ 49 - 1) * 2 ^ 114 * (b ^ 19 * 121645100408832000) ^ 16) / 2 ^ 49 := by
      field_simp
    rw [this, div_le_iff₀ (by positivity)]
    exact h2'
  have l4 : (f : ℝ) / 2 ^ 114 * (((N : ℝ) * (20 * b) + 2 * a ^ 20) / (b ^ 20 * 2432902008176640000)) ^ 16 ≤ 1 + 1 / 2 ^ 49 := by
    rw [div_pow, div_mul_div_comm, div_le_iff₀ (by positivity)]
    have : ((1 : ℝ) + 1 / 2 ^ 49) * (2 ^ 114 * (b ^ 20 * 2432902008176640000) ^ 16) =
        ((2 ^ 49 + 1) * 2 ^ 114 * (b ^ 20 * 2432902008176640000) ^ 16) / 2 ^ 49 := by
      field_simp
    rw [this, le_div_iff₀ (by positivity)]
    exact h3'
  rw [abs_le]
  constructor <;> linarith

end Crazy
