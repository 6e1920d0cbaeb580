/-
Bounds for the tail of the Gaussian integral by convergents of Laplace's continued fraction.
-/
import Mathlib.Analysis.SpecialFunctions.Gaussian.GaussianIntegral
import Mathlib.MeasureTheory.Integral.IntegralEqImproper
namespace Crazy
open MeasureTheory Set Filter Topology

/-- Denominators of the convergents of `1/(x + 1/(x + 2/(x + 3/(x + ...))))`. -/
noncomputable def millsQ (x : ℝ) : Nat → ℝ
  | 0 => 1
  | 1 => x
  | n + 2 => x * millsQ x (n + 1) + (n + 1) * millsQ x n

/-- Numerators of the convergents. -/
noncomputable def millsP (x : ℝ) : Nat → ℝ
  | 0 => 0
  | 1 => 1
  | n + 2 => x * millsP x (n + 1) + (n + 1) * millsP x n

theorem millsQ_deriv (x : ℝ) : ∀ n : Nat, HasDerivAt (fun x => millsQ x n) (n * millsQ x (n - 1)) x
  | 0 => by simpa [millsQ] using hasDerivAt_const x (1 : ℝ)
  | 1 => by simpa [millsQ] using hasDerivAt_id' x
  | n + 2 => by
    have h1 := millsQ_deriv x (n + 1)
    have h0 := millsQ_deriv x n
    have := ((hasDerivAt_id x).mul h1).add (h0.const_mul ((n : ℝ) + 1))
    refine this.congr_deriv ?_
    cases n with
    | zero => simp [millsQ]; ring
    | succ n => simp [millsQ]; ring

theorem millsP_deriv (x : ℝ) : ∀ n : Nat, HasDerivAt (fun x => millsP x n) (millsP x (n + 1) - millsQ x n) x
  | 0 => by simpa [millsQ, millsP] using hasDerivAt_const x (0 : ℝ)
  | 1 => by simpa [millsQ, millsP] using hasDerivAt_const x (1 : ℝ)
  | n + 2 => by
    have h1 := millsP_deriv x (n + 1)
    have h0 := millsP_deriv x n
    have := ((hasDerivAt_id x).mul h1).add (h0.const_mul ((n : ℝ) + 1))
    refine this.congr_deriv ?_
    simp [millsQ, millsP]
    ring

theorem mills_det (x : ℝ) (n : Nat) :
    millsP x (n + 1) * millsQ x n - millsP x n * millsQ x (n + 1) = (-1) ^ n * n.factorial := by
  induction n with
  | zero => simp [millsQ, millsP]
  | succ n ih =>
    have : millsP x (n + 1 + 1) * millsQ x (n + 1) - millsP x (n + 1) * millsQ x (n + 1 + 1) =
        -(n + 1) * (millsP x (n + 1) * millsQ x n - millsP x n * millsQ x (n + 1)) := by
      simp only [millsQ, millsP]
      ring
    rw [this, ih, Nat.factorial_succ]
    push_cast
    ring

theorem millsQ_ge (x : ℝ) (hx : 1 ≤ x) : ∀ n : Nat, 1 ≤ millsQ x n
  | 0 => by simp [millsQ]
  | 1 => by simpa [millsQ] using hx
  | n + 2 => by
    have h1 := millsQ_ge x hx (n + 1)
    have h0 := millsQ_ge x hx n
    rw [millsQ]
    have : (0 : ℝ) ≤ n := Nat.cast_nonneg n
    nlinarith

theorem millsP_le (x : ℝ) (hx : 1 ≤ x) : ∀ n : Nat, 0 ≤ millsP x n ∧ millsP x n ≤ millsQ x n
  | 0 => by simp [millsQ, millsP]
  | 1 => by simpa [millsQ, millsP] using hx
  | n + 2 => by
    have h1 := millsP_le x hx (n + 1)
    have h0 := millsP_le x hx n
    rw [millsQ, millsP]
    have hn : (0 : ℝ) ≤ (n : ℝ) + 1 := by positivity
    have hx0 : (0 : ℝ) ≤ x := by linarith
    exact ⟨add_nonneg (mul_nonneg hx0 h1.1) (mul_nonneg hn h0.1),
      add_le_add (mul_le_mul_of_nonneg_left h1.2 hx0) (mul_le_mul_of_nonneg_left h0.2 hn)⟩

theorem millsQ_rec (x : ℝ) (n : Nat) : millsQ x (n + 1) = x * millsQ x n + n * millsQ x (n - 1) := by
  cases n with
  | zero => simp [millsQ]
  | succ n => simp [millsQ]

theorem gauss_deriv (x : ℝ) : HasDerivAt (fun x : ℝ => Real.exp (-x ^ 2 / 2)) (-x * Real.exp (-x ^ 2 / 2)) x := by
  have h : HasDerivAt (fun x : ℝ => -x ^ 2 / 2) (-x) x := by
    have := ((hasDerivAt_pow 2 x).neg).div_const 2
    refine this.congr_deriv ?_
    norm_num
    ring
  refine h.exp.congr_deriv ?_
  ring

theorem mills_deriv (x : ℝ) (hx : 1 ≤ x) (n : Nat) :
    HasDerivAt (fun x => -(millsP x n / millsQ x n * Real.exp (-x ^ 2 / 2)))
      ((1 - (-1) ^ n * n.factorial / millsQ x n ^ 2) * Real.exp (-x ^ 2 / 2)) x := by
  have hq : millsQ x n ≠ 0 := by have := millsQ_ge x hx n; linarith
  have := (((millsP_deriv x n).div (millsQ_deriv x n) hq).mul (gauss_deriv x)).neg
  refine this.congr_deriv ?_
  rw [← mills_det x n, millsQ_rec x n]
  simp only [Pi.div_apply]
  field_simp
  ring

theorem gauss_integrable (r : ℝ) : IntegrableOn (fun x : ℝ => Real.exp (-x ^ 2 / 2)) (Ioi r) := by
  have := (integrable_exp_neg_mul_sq (b := 1 / 2) (by norm_num)).integrableOn (s := Ioi r)
  refine this.congr_fun (fun x _ => ?_) measurableSet_Ioi
  simp only
  ring_nf

theorem gauss_tendsto : Tendsto (fun x : ℝ => Real.exp (-x ^ 2 / 2)) atTop (𝓝 0) := by
  refine Real.tendsto_exp_atBot.comp ?_
  have h : Tendsto (fun x : ℝ => x ^ 2 / 2) atTop atTop := (tendsto_pow_atTop (by norm_num)).atTop_div_const (by norm_num)
  refine (tendsto_neg_atTop_atBot.comp h).congr fun x => ?_
  simp only [Function.comp]
  ring

/-- The convergents integrate. -/
theorem mills_integral (r : ℝ) (hr : 1 ≤ r) (n : Nat) :
    IntegrableOn (fun x => (1 - (-1) ^ n * n.factorial / millsQ x n ^ 2) * Real.exp (-x ^ 2 / 2)) (Ioi r) ∧
    ∫ x in Ioi r, (1 - (-1) ^ n * n.factorial / millsQ x n ^ 2) * Real.exp (-x ^ 2 / 2) =
      millsP r n / millsQ r n * Real.exp (-r ^ 2 / 2) := by
  have hcont : ContinuousOn (fun x => (1 - (-1) ^ n * n.factorial / millsQ x n ^ 2) * Real.exp (-x ^ 2 / 2)) (Ioi r) := by
    intro x hx
    have hq : millsQ x n ^ 2 ≠ 0 := by
      have := millsQ_ge x (by have : r < x := hx; linarith) n
      positivity
    have h1 : ContinuousAt (fun x => millsQ x n) x := (millsQ_deriv x n).continuousAt
    have h2 : ContinuousAt (fun x : ℝ => Real.exp (-x ^ 2 / 2)) x := (gauss_deriv x).continuousAt
    exact ((continuousAt_const.sub (continuousAt_const.div (h1.pow 2) hq)).mul h2).continuousWithinAt
  have hint : IntegrableOn (fun x => (1 - (-1) ^ n * n.factorial / millsQ x n ^ 2) * Real.exp (-x ^ 2 / 2)) (Ioi r) := by
    refine Integrable.mono' ((gauss_integrable r).const_mul (1 + n.factorial))
      (hcont.aestronglyMeasurable measurableSet_Ioi) ?_
    refine (ae_restrict_iff' measurableSet_Ioi).2 (Eventually.of_forall fun x hx => ?_)
    have hq := millsQ_ge x (by have : r < x := hx; linarith) n
    rw [Real.norm_eq_abs, abs_mul, abs_of_pos (Real.exp_pos _)]
    refine mul_le_mul_of_nonneg_right ?_ (Real.exp_pos _).le
    refine (abs_sub _ _).trans ?_
    rw [abs_one, abs_div, abs_mul, abs_pow, abs_neg, abs_one, one_pow, one_mul, Nat.abs_cast, abs_of_pos (by positivity)]
    have : (n.factorial : ℝ) / millsQ x n ^ 2 ≤ n.factorial := div_le_self (Nat.cast_nonneg _) (one_le_pow₀ hq)
    linarith
  refine ⟨hint, ?_⟩
  have ht : Tendsto (fun x => -(millsP x n / millsQ x n * Real.exp (-x ^ 2 / 2))) atTop (𝓝 0) := by
    rw [← neg_zero]
    refine Tendsto.neg ?_
    refine squeeze_zero' ?_ ?_ gauss_tendsto
    · filter_upwards [eventually_ge_atTop 1] with x hx
      have h1 := millsP_le x hx n
      have h2 := millsQ_ge x hx n
      have h3 := Real.exp_pos (-x ^ 2 / 2)
      have : 0 ≤ millsP x n / millsQ x n := div_nonneg h1.1 (by linarith)
      positivity
    · filter_upwards [eventually_ge_atTop 1] with x hx
      have h1 := millsP_le x hx n
      have h2 := millsQ_ge x hx n
      have h3 := Real.exp_pos (-x ^ 2 / 2)
      have : millsP x n / millsQ x n ≤ 1 := div_le_one_of_le₀ h1.2 (by linarith)
      nlinarith
  have := integral_Ioi_of_hasDerivAt_of_tendsto' (a := r) (fun x hx => mills_deriv x (by have : r ≤ x := hx; linarith) n) hint ht
  rw [this]
  ring

/-- Convergents of odd index are above the tail integral, those of even index below. -/
theorem mills_bounds (r : ℝ) (hr : 1 ≤ r) (n : Nat) :
    millsP r (2 * n) / millsQ r (2 * n) * Real.exp (-r ^ 2 / 2) ≤ ∫ x in Ioi r, Real.exp (-x ^ 2 / 2) ∧
    ∫ x in Ioi r, Real.exp (-x ^ 2 / 2) ≤ millsP r (2 * n + 1) / millsQ r (2 * n + 1) * Real.exp (-r ^ 2 / 2) := by
  constructor
  · obtain ⟨h1, h2⟩ := mills_integral r hr (2 * n)
    rw [← h2]
    refine setIntegral_mono_on h1 (gauss_integrable r) measurableSet_Ioi fun x hx => ?_
    have hq := millsQ_ge x (by have : r < x := hx; linarith) (2 * n)
    have he := Real.exp_pos (-x ^ 2 / 2)
    rw [pow_mul, neg_one_sq, one_pow, one_mul]
    have : 0 ≤ ((2 * n).factorial : ℝ) / millsQ x (2 * n) ^ 2 := by positivity
    nlinarith
  · obtain ⟨h1, h2⟩ := mills_integral r hr (2 * n + 1)
    rw [← h2]
    refine setIntegral_mono_on (gauss_integrable r) h1 measurableSet_Ioi fun x hx => ?_
    have hq := millsQ_ge x (by have : r < x := hx; linarith) (2 * n + 1)
    have he := Real.exp_pos (-x ^ 2 / 2)
    have e0 : (-1 : ℝ) ^ (2 * n + 1) = -1 := by rw [pow_succ, pow_mul, neg_one_sq, one_pow, one_mul]
    rw [e0]
    have : 0 ≤ ((2 * n + 1).factorial : ℝ) / millsQ x (2 * n + 1) ^ 2 := by positivity
    have e : (1 - -1 * ((2 * n + 1).factorial : ℝ) / millsQ x (2 * n + 1) ^ 2) = 1 + (2 * n + 1).factorial / millsQ x (2 * n + 1) ^ 2 := by
      ring
    rw [e]
    nlinarith

/-- The recurrence of the convergents at `a / b`, in integers: after `n` steps from `(u, v)`. -/
def millsNat (a b : Nat) : Nat → Nat → Nat → Nat → Nat
  | 0, _, u, _ => u
  | n + 1, k, u, v => millsNat a b n (k + 1) v (a * v + (k + 1) * (b * b) * u)

theorem millsNat_Q (a b : Nat) (hb : 0 < b) (n k : Nat) (u v : Nat) (hu : (u : ℝ) = b ^ k * millsQ ((a : ℝ) / b) k)
    (hv : (v : ℝ) = b ^ (k + 1) * millsQ ((a : ℝ) / b) (k + 1)) :
    (millsNat a b n k u v : ℝ) = b ^ (k + n) * millsQ ((a : ℝ) / b) (k + n) := by
  have hb' : (b : ℝ) ≠ 0 := by exact_mod_cast hb.ne'
  induction n generalizing k u v with
  | zero => exact hu
  | succ n ih =>
    rw [millsNat, ih (k + 1) v _ hv, show k + 1 + n = k + (n + 1) by omega]
    push_cast
    rw [hu, hv, millsQ]
    field_simp
    ring

theorem millsNat_P (a b : Nat) (hb : 0 < b) (n k : Nat) (u v : Nat) (hu : (u : ℝ) = b ^ k * millsP ((a : ℝ) / b) k)
    (hv : (v : ℝ) = b ^ (k + 1) * millsP ((a : ℝ) / b) (k + 1)) :
    (millsNat a b n k u v : ℝ) = b ^ (k + n) * millsP ((a : ℝ) / b) (k + n) := by
  have hb' : (b : ℝ) ≠ 0 := by exact_mod_cast hb.ne'
  induction n generalizing k u v with
  | zero => exact hu
  | succ n ih =>
    rw [millsNat, ih (k + 1) v _ hv, show k + 1 + n = k + (n + 1) by omega]
    push_cast
    rw [hu, hv, millsP]
    field_simp
    ring

theorem mills_convergent (a b : Nat) (hb : 0 < b) (n : Nat) :
    millsP ((a : ℝ) / b) n / millsQ ((a : ℝ) / b) n = (millsNat a b n 0 0 b : ℝ) / millsNat a b n 0 1 a := by
  have hb' : (b : ℝ) ≠ 0 := by exact_mod_cast hb.ne'
  rw [millsNat_P a b hb n 0 0 b (by simp [millsP]) (by simp [millsP]),
    millsNat_Q a b hb n 0 1 a (by simp [millsQ]) (by simp [millsQ]; field_simp), Nat.zero_add,
    mul_div_mul_left _ _ (pow_ne_zero _ hb')]

/-- `c / b` is the sum of `a / b` and the tail integral from there on in units of the density, up to `2^-45`. -/
def millsCheck (a b c : Nat) : Bool :=
  Nat.ble b a && Nat.blt 0 (millsNat a b 26 0 1 a) && Nat.blt 0 (millsNat a b 27 0 1 a) &&
  Nat.ble (2 ^ 45 * c * millsNat a b 26 0 1 a) ((2 ^ 45 * a + b) * millsNat a b 26 0 1 a + 2 ^ 45 * b * millsNat a b 26 0 0 b) &&
  Nat.ble (2 ^ 45 * a * millsNat a b 27 0 1 a + 2 ^ 45 * b * millsNat a b 27 0 0 b) ((2 ^ 45 * c + b) * millsNat a b 27 0 1 a)

theorem millsCheck_sound (a b c : Nat) (hb : 0 < b) (h : millsCheck a b c = true) :
    |(c : ℝ) / b - (a / b + (∫ x in Ioi ((a : ℝ) / b), Real.exp (-x ^ 2 / 2)) / Real.exp (-((a : ℝ) / b) ^ 2 / 2))| ≤ 1 / 2 ^ 45 := by
  unfold millsCheck at h
  simp only [Bool.and_eq_true, Nat.ble_eq, Nat.blt_eq] at h
  obtain ⟨⟨⟨⟨h0, h1⟩, h2⟩, h3⟩, h4⟩ := h
  have hb' : (0 : ℝ) < b := by exact_mod_cast hb
  have hr : (1 : ℝ) ≤ (a : ℝ) / b := by rw [le_div_iff₀ hb', one_mul]; exact_mod_cast h0
  obtain ⟨l1, l2⟩ := mills_bounds _ hr 13
  rw [mills_convergent a b hb] at l1 l2
  have he := Real.exp_pos (-((a : ℝ) / b) ^ 2 / 2)
  rw [← le_div_iff₀ he] at l1
  rw [← div_le_iff₀ he] at l2
  generalize (∫ x in Ioi ((a : ℝ) / b), Real.exp (-x ^ 2 / 2)) / Real.exp (-((a : ℝ) / b) ^ 2 / 2) = M at *
  generalize millsNat a b 26 0 1 a = q at *
  generalize millsNat a b 27 0 1 a = q' at *
  generalize millsNat a b 26 0 0 b = p at *
  generalize millsNat a b 27 0 0 b = p' at *
  have h1' : (0 : ℝ) < q := by exact_mod_cast h1
  have h2' : (0 : ℝ) < q' := by exact_mod_cast h2
  have h3' : (2 ^ 45 * c * q : ℝ) ≤ (2 ^ 45 * a + b) * q + 2 ^ 45 * b * p := by exact_mod_cast h3
  have h4' : (2 ^ 45 * a * q' + 2 ^ 45 * b * p' : ℝ) ≤ (2 ^ 45 * c + b) * q' := by exact_mod_cast h4
  have k3 : (c : ℝ) / b ≤ a / b + 1 / 2 ^ 45 + p / q := by
    rw [div_add_div _ _ hb'.ne' (by positivity), div_add_div _ _ (by positivity) h1'.ne', div_le_div_iff₀ hb' (by positivity)]
    nlinarith [mul_le_mul_of_nonneg_left h3' hb'.le]
  have k4 : (a : ℝ) / b + p' / q' ≤ c / b + 1 / 2 ^ 45 := by
    rw [div_add_div _ _ hb'.ne' h2'.ne', div_add_div _ _ hb'.ne' (by positivity), div_le_div_iff₀ (by positivity) (by positivity)]
    nlinarith [mul_le_mul_of_nonneg_left h4' hb'.le]
  rw [abs_le]
  constructor <;> linarith

end Crazy
