/-
C71: `Normal` has the normal distribution.
-/
import Verif.Proofs.NormGives
import Verif.Props.ExpoDist
import Mathlib.Probability.Distributions.Gaussian.Real
set_option exponentiation.threshold 2200
set_option maxRecDepth 4000
namespace Crazy
open Set MeasureTheory ProbabilityTheory

/-! ### The normal distribution -/

theorem gauss_integrable_all : Integrable gauss := by
  have := integrable_exp_neg_mul_sq (b := 1 / 2) (by norm_num)
  refine this.congr (Filter.Eventually.of_forall fun x => ?_)
  show Real.exp (-(1 / 2) * x ^ 2) = Real.exp (-x ^ 2 / 2)
  refine congrArg Real.exp ?_
  ring

theorem gauss_Iic (T : ℝ) : ∫ x in Iic T, gauss x = gaussTail 0 + ∫ s in (0 : ℝ)..T, gauss s := by
  have h0 : ∫ x in Iic (0 : ℝ), gauss x = gaussTail 0 := by
    have h := integral_comp_neg_Iic (0 : ℝ) gauss
    have e : ∀ s, gauss (-s) = gauss s := fun s => by unfold gauss; rw [neg_sq]
    simp only [e] at h
    rw [h, neg_zero]
    rfl
  have h1 := intervalIntegral.integral_Iic_sub_Iic (f := gauss) (a := 0) (b := T) gauss_integrable_all.integrableOn gauss_integrable_all.integrableOn
  rw [← h1, h0]
  ring

theorem phi_std (T : ℝ) : (gaussianReal 0 1).real (Iic T) = Phi T := by
  have h := gaussianReal_apply_eq_integral 0 (one_ne_zero) (Iic T)
  have e : ∀ x, gaussianPDFReal 0 1 x = (Real.sqrt (2 * Real.pi))⁻¹ * gauss x := by
    intro x
    unfold gaussianPDFReal gauss
    simp
  simp only [e] at h
  rw [integral_const_mul, gauss_Iic] at h
  have hs : 2 * gaussTail 0 = Real.sqrt (2 * Real.pi) := by rw [gaussTail_zero]; ring
  have hP : (Real.sqrt (2 * Real.pi))⁻¹ * (gaussTail 0 + ∫ s in (0 : ℝ)..T, gauss s) = Phi T := by
    unfold Phi
    rw [hs]
    ring
  rw [hP] at h
  unfold Measure.real
  rw [h, ENNReal.toReal_ofReal (Phi_bounds T).1]

theorem phi_general (μ s t : ℝ) (hs : 0 < s) : (gaussianReal μ ⟨s ^ 2, sq_nonneg s⟩).real (Iic t) = Phi ((t - μ) / s) := by
  rw [← phi_std]
  have h1 := gaussianReal_map_const_mul (μ := 0) (v := 1) s
  have h2 := gaussianReal_map_add_const (μ := s * 0) (v := .mk (s ^ 2) (sq_nonneg s) * 1) μ
  rw [← h1, mul_zero, zero_add, mul_one] at h2
  have h3 : gaussianReal μ ⟨s ^ 2, sq_nonneg s⟩ = ((gaussianReal 0 1).map (s * ·)).map (· + μ) := h2.symm
  rw [h3, Measure.map_map (by fun_prop) (by fun_prop)]
  unfold Measure.real
  rw [Measure.map_apply (by fun_prop) measurableSet_Iic]
  refine congrArg (fun A => ((gaussianReal 0 1) A).toReal) ?_
  ext x
  show s * x + μ ≤ t ↔ x ≤ (t - μ) / s
  rw [le_div_iff₀ hs]
  constructor <;> intro h <;> linarith

theorem Phi_lip (a b : ℝ) : |Phi a - Phi b| ≤ |a - b| / 2 := by
  have hA := area_ge
  unfold Phi
  rw [← sub_div, add_sub_add_left_eq_sub, abs_div, abs_of_pos (by linarith : 0 < 2 * gaussTail 0),
    intervalIntegral.integral_interval_sub_left (gauss_ii _ _) (gauss_ii _ _)]
  exact div_le_div₀ (abs_nonneg _) (gauss_lip _ _) (by norm_num) (by linarith)

theorem Phi_mono {a b : ℝ} (h : a ≤ b) : Phi a ≤ Phi b := by
  have hA := area_ge
  unfold Phi
  refine div_le_div_of_nonneg_right ?_ (by linarith)
  have := intervalIntegral.integral_interval_sub_left (gauss_ii 0 b) (gauss_ii 0 a)
  have h2 := intervalIntegral.integral_nonneg (f := gauss) (μ := volume) h fun x _ => (gauss_pos x).le
  linarith

/-! ### Scaling and shifting -/

/-- The result, computed with one rounding or with two. -/
theorem mulAdd_near (fused : Bool) (x s μ : F64) (hx : x.IsFin) (hs : s.IsFin) (hμ : μ.IsFin) (h64 : |rv x| ≤ 64)
    (hs0 : 1 / 2 ^ 900 ≤ rv s) (hs1 : rv s ≤ 2 ^ 900) (hμ1 : |rv μ| ≤ 2 ^ 900) :
    (F64.mulAdd fused x s μ).IsFin ∧
      |rv (F64.mulAdd fused x s μ) - (rv x * rv s + rv μ)| ≤ rv s * (1 / 2 ^ 45) + |rv μ| / 2 ^ 52 := by
  obtain ⟨k, hk⟩ : ∃ k, 900 = k := ⟨_, rfl⟩
  obtain ⟨l, hl⟩ : ∃ l, 1000 = l := ⟨_, rfl⟩
  have hbig : (2 : ℝ) ^ k * 2 ^ 100 = 2 ^ l := by rw [← pow_add]; exact congrArg _ (by omega)
  have hk0 : (0 : ℝ) < 2 ^ k := by positivity
  have hη : (1 : ℝ) / 2 ^ l ≤ rv s / 2 ^ 100 := by
    rw [div_le_div_iff₀ (by positivity) (by positivity), ← hbig, one_mul]
    rw [hk] at hs0
    have : 1 ≤ rv s * 2 ^ k := by rwa [div_le_iff₀ hk0] at hs0
    nlinarith [this]
  have hs00 : 0 < rv s := lt_of_lt_of_le (by positivity) hs0
  have hxs : |rv x * rv s| ≤ 64 * rv s := by rw [abs_mul, abs_of_pos hs00]; exact mul_le_mul_of_nonneg_right h64 hs00.le
  have hxsl : |rv x * rv s| ≤ 64 * 2 ^ k := hxs.trans (mul_le_mul_of_nonneg_left (by rwa [hk] at hs1) (by norm_num))
  rw [hk] at hμ1
  have hlim : |rv x * rv s| ≤ 2 ^ 1000 := by rw [hl, ← hbig]; refine hxsl.trans ?_; nlinarith
  have hμ0 := abs_nonneg (rv μ)
  have hd52 : |rv μ| / 2 ^ 52 = |rv μ| / 2 ^ 53 + |rv μ| / 2 ^ 53 := by ring
  unfold F64.mulAdd
  cases fused
  · rw [if_neg Bool.false_ne_true]
    obtain ⟨a1, -, a3⟩ := F64.mul_near x s hx hs hlim
    rw [hl] at a3
    have a4 : |rv (F64.mul x s) - rv x * rv s| ≤ rv s * (65 / 2 ^ 53) := by
      refine a3.trans ?_
      have : |rv x * rv s| / 2 ^ 53 ≤ 64 * rv s / 2 ^ 53 := div_le_div_of_nonneg_right hxs two_pow_53.le
      have h2 : rv s / 2 ^ 100 ≤ rv s / 2 ^ 53 := div_le_div_of_nonneg_left hs00.le two_pow_53 (by norm_num)
      have h3 : rv s * (65 / 2 ^ 53) = 64 * rv s / 2 ^ 53 + rv s / 2 ^ 53 := by ring
      linarith
    have a5 : |rv (F64.mul x s)| ≤ 65 * rv s := by
      have h1 := abs_sub_abs_le_abs_sub (rv (F64.mul x s)) (rv x * rv s)
      have h2 : rv s * (65 / 2 ^ 53) ≤ rv s * 1 := mul_le_mul_of_nonneg_left (by norm_num) hs00.le
      linarith
    have a6 : |rv (F64.mul x s) + rv μ| ≤ 65 * rv s + |rv μ| := (abs_add_le _ _).trans (by linarith)
    have hs1' : rv s ≤ 2 ^ k := by rwa [hk] at hs1
    obtain ⟨b1, -, b3⟩ := F64.add_near _ μ a1 hμ (by rw [hl, ← hbig]; refine a6.trans ?_; nlinarith)
    rw [hl] at b3
    refine ⟨b1, ?_⟩
    have b4 : |rv (F64.mul x s) + rv μ| / 2 ^ 53 ≤ (65 * rv s + |rv μ|) / 2 ^ 53 := div_le_div_of_nonneg_right a6 two_pow_53.le
    rw [add_div] at b4
    have h2 : rv s / 2 ^ 100 ≤ rv s / 2 ^ 53 := div_le_div_of_nonneg_left hs00.le two_pow_53 (by norm_num)
    have h3 : rv s * (65 / 2 ^ 53) + 65 * rv s / 2 ^ 53 + rv s / 2 ^ 53 = rv s * (131 / 2 ^ 53) := by ring
    have h4 : rv s * (131 / 2 ^ 53) ≤ rv s * (1 / 2 ^ 45) := mul_le_mul_of_nonneg_left (by norm_num) hs00.le
    have h5 : 0 ≤ |rv μ| / 2 ^ 53 := div_nonneg hμ0 two_pow_53.le
    rw [abs_le] at a4 b3 ⊢
    constructor <;> linarith [a4.1, a4.2, b3.1, b3.2]
  · rw [if_pos rfl]
    have hs1' : rv s ≤ 2 ^ k := by rwa [hk] at hs1
    have a6 : |rv x * rv s + rv μ| ≤ 64 * rv s + |rv μ| := (abs_add_le _ _).trans (by linarith)
    obtain ⟨b1, -, b3⟩ := F64.fma_near x s μ hx hs hμ (by rw [hl, ← hbig]; refine a6.trans ?_; nlinarith)
    rw [hl] at b3
    refine ⟨b1, b3.trans ?_⟩
    have b4 : |rv x * rv s + rv μ| / 2 ^ 53 ≤ (64 * rv s + |rv μ|) / 2 ^ 53 := div_le_div_of_nonneg_right a6 two_pow_53.le
    rw [add_div] at b4
    have h2 : rv s / 2 ^ 100 ≤ rv s / 2 ^ 53 := div_le_div_of_nonneg_left hs00.le two_pow_53 (by norm_num)
    have h3 : 64 * rv s / 2 ^ 53 + rv s / 2 ^ 53 = rv s * (65 / 2 ^ 53) := by ring
    have h4 : rv s * (65 / 2 ^ 53) ≤ rv s * (1 / 2 ^ 45) := mul_le_mul_of_nonneg_left (by norm_num) hs00.le
    have h5 : 0 ≤ |rv μ| / 2 ^ 53 := div_nonneg hμ0 two_pow_53.le
    linarith

/-- `Normal.Next` scales and shifts what the ziggurat draws. -/
theorem normal_event (lib : MathLib) (fused fused' : Bool) (mean stddev : F64) (P : F64 → Prop) (n : Nat) (w : List U64) :
    (∃ r rest, normal lib fused fused' mean stddev tape n w = .ok (r, rest) ∧ P r) ↔
      ∃ r rest, (normalZig lib).genNext fused tape n w = .ok (r, rest) ∧ P (F64.mulAdd fused' r stddev mean) := by
  unfold normal
  cases hg : (normalZig lib).genNext fused tape n w with
  | error p =>
    simp only [bind, Except.bind]
    constructor
    · rintro ⟨r, rest, h, -⟩; exact absurd h (err_ne_ok _ _)
    · rintro ⟨r, rest, h, -⟩; exact absurd h (err_ne_ok _ _)
  | ok v =>
    obtain ⟨x, s1⟩ := v
    simp only [bind, Except.bind, pure, Except.pure]
    exact (ok_and _ _).trans (ok_and (S := fun r => P (F64.mulAdd fused' r stddev mean)) _ _).symm

theorem gives_mono (z : Ziggurat (List U64)) (fused : Bool) (S S' : F64 → Prop) (h : ∀ x, S x → S' x) (n : Nat) :
    gives z fused S n ≤ gives z fused S' n :=
  prob_mono fun _ _ ⟨r, rest, h1, h2⟩ => ⟨r, rest, h1, h r h2⟩

/-- C71: for every standard deviation between `2^-900` and `2^900`, every mean of magnitude at most `2^900`, every `t` and every
`n`: of all `(2^64)^(2n)` sequences of `2n` words, the share of those from which `Normal.Next` draws, within `n` rounds, a value
that is at most `t`, is the normal distribution's measure of the numbers up to `t`, up to `2^-31 + (|mean|/stddev)/2^53 + 16^-n`. -/
theorem C71_normal (lib : MathLib) (hl : LogOk lib) (he : ExpOk lib) (fused fused' : Bool) (mean stddev : F64) (hm : mean.IsFin)
    (hm1 : |rv mean| ≤ 2 ^ 900) (hs : stddev.IsFin) (hs0 : 1 / 2 ^ 900 ≤ rv stddev) (hs1 : rv stddev ≤ 2 ^ 900) (t : ℝ) (n : Nat) :
    |prob (2 * n) (fun w => ∃ r rest, normal lib fused fused' mean stddev tape n w = .ok (r, rest) ∧ AtMost t r) -
      (gaussianReal (rv mean) ⟨rv stddev ^ 2, sq_nonneg _⟩).real (Iic t)| ≤
        1 / 2 ^ 31 + |rv mean| / rv stddev / 2 ^ 53 + (1 / 16) ^ n := by
  have hs00 : 0 < rv stddev := lt_of_lt_of_le (by positivity) hs0
  rw [phi_general _ _ _ hs00]
  have e : prob (2 * n) (fun w => ∃ r rest, normal lib fused fused' mean stddev tape n w = .ok (r, rest) ∧ AtMost t r) =
      gives (normalZig lib) fused (fun x => AtMost t (F64.mulAdd fused' x stddev mean)) n :=
    prob_congr fun w _ => normal_event lib fused fused' mean stddev (AtMost t) n w
  rw [e]
  have key : ∀ x : F64, x.IsFin → |rv x| ≤ 64 → (F64.mulAdd fused' x stddev mean).IsFin ∧
      |rv (F64.mulAdd fused' x stddev mean) - (rv x * rv stddev + rv mean)| ≤ rv stddev * (1 / 2 ^ 45) + |rv mean| / 2 ^ 52 :=
    fun x hx h64 => mulAdd_near fused' x stddev mean hx hs hm h64 hs0 hs1 hm1
  obtain ⟨δ, hδ⟩ : ∃ δ, δ = 1 / 2 ^ 45 + |rv mean| / rv stddev / 2 ^ 52 := ⟨_, rfl⟩
  obtain ⟨τ, hτ⟩ : ∃ τ, τ = (t - rv mean) / rv stddev := ⟨_, rfl⟩
  have hδs : δ * rv stddev = rv stddev * (1 / 2 ^ 45) + |rv mean| / 2 ^ 52 := by rw [hδ]; field_simp
  have hτs : τ * rv stddev = t - rv mean := by rw [hτ, div_mul_cancel₀ _ hs00.ne']
  have hδ0 : 0 ≤ δ := by rw [hδ]; positivity
  rw [← hτ]
  have lo := norm_gives lib hl he fused (τ - δ) (fun x => (x.IsFin ∧ |rv x| ≤ 64) ∧ rv x ≤ τ - δ)
    ⟨fun y => y ≤ τ - δ, ⟨fun x h => h.le, fun x h => not_le.mpr h⟩, fun x h1 h2 => and_iff_right ⟨h1, h2⟩⟩ n
  have hi := norm_gives lib hl he fused (τ + δ) (fun x => (x.IsFin ∧ |rv x| ≤ 64) → rv x ≤ τ + δ)
    ⟨fun y => y ≤ τ + δ, ⟨fun x h => h.le, fun x h => not_le.mpr h⟩, fun x h1 h2 => ⟨fun h => h ⟨h1, h2⟩, fun h _ => h⟩⟩ n
  have mlo := gives_mono (normalZig lib) fused (fun x => (x.IsFin ∧ |rv x| ≤ 64) ∧ rv x ≤ τ - δ)
    (fun x => AtMost t (F64.mulAdd fused' x stddev mean)) (fun x ⟨⟨h1, h2⟩, h3⟩ => by
      obtain ⟨k1, k2⟩ := key x h1 h2
      refine Or.inr ⟨k1, ?_⟩
      have k3 := (abs_le.mp k2).2
      have k4 := mul_le_mul_of_nonneg_right h3 hs00.le
      rw [sub_mul, hτs, hδs] at k4
      linarith) n
  have mhi := gives_mono (normalZig lib) fused (fun x => AtMost t (F64.mulAdd fused' x stddev mean))
    (fun x => (x.IsFin ∧ |rv x| ≤ 64) → rv x ≤ τ + δ) (fun x h ⟨h1, h2⟩ => by
      obtain ⟨k1, k2⟩ := key x h1 h2
      rcases h with h | ⟨-, h⟩
      · rw [h] at k1; exact k1.elim
      · have k3 := (abs_le.mp k2).1
        have : rv x * rv stddev ≤ (τ + δ) * rv stddev := by rw [add_mul, hτs, hδs]; linarith
        exact le_of_mul_le_mul_right this hs00) n
  have l1 := abs_le.mp (Phi_lip (τ - δ) τ)
  have l2 := abs_le.mp (Phi_lip (τ + δ) τ)
  rw [sub_sub_cancel_left, abs_neg, abs_of_nonneg hδ0] at l1
  rw [add_sub_cancel_left, abs_of_nonneg hδ0] at l2
  have hδ2 : δ / 2 = 1 / 2 ^ 46 + |rv mean| / rv stddev / 2 ^ 53 := by rw [hδ]; ring
  have k : (17 : ℝ) / 8 * (5 / 4 * (1 / 2 ^ 33)) + 1 / 2 ^ 46 ≤ 1 / 2 ^ 31 := by norm_num
  rw [hδ2] at l1 l2
  have lo := abs_le.mp lo
  have hi := abs_le.mp hi
  rw [abs_le]
  constructor
  · linarith [lo.1, l1.1]
  · linarith [hi.2, l2.2]

/-! ### It returns -/

theorem tailShare_le (z : Ziggurat (List U64)) (o : Nat → Int) : 0 ≤ tailShare z o ∧ tailShare z o ≤ 1 :=
  ⟨avg_nonneg fun _ _ => ind_nonneg _, avg_le_one fun _ _ => ind_le_one _⟩

/-- The probability that the ziggurat of the normal distribution has not returned after another round. -/
theorem norm_step (lib : MathLib) (hl : LogOk lib) (he : ExpOk lib) (fused : Bool) (n : Nat) :
    1 - gives (normalZig lib) fused (fun _ => True) (n + 1) ≤
      1 / 1024 * (1 / 16) ^ n + 1 / 256 * (1 - gives (normalZig lib) fused (fun _ => True) n) := by
  have hz := normal_ok lib he fused
  have hU : Side (fun _ => True) (fun l => (l : Int)) := side_up fun _ _ => trivial
  have hD : Side (fun _ => True) (fun l => -((l + 1 : Nat) : Int)) := side_down
  have hA := area_ge
  have hV := zigV_pos C40_normal
  have hR0 : 0 < zx normalW 1023 := (C40_normal.finite 1023 (by omega)).2.2.1
  have aU := hz.side_all hU
  have aD := hz.side_all hD
  have tU := hz.tail_area hU
  have tD := hz.tail_area hD
  change |zv normalW normalF * _ - ∫ s in (0 : ℝ)..zx normalW 1023, gauss s| ≤ _ at aU
  change |zv normalW normalF * _ - ∫ s in (0 : ℝ)..zx normalW 1023, gauss s| ≤ _ at aD
  change |zv normalW normalF * _ - gaussTail (zx normalW 1023)| ≤ _ at tU
  change |zv normalW normalF * _ - gaussTail (zx normalW 1023)| ≤ _ at tD
  have hsplit := gaussTail_split 0 (zx normalW 1023) hR0.le
  have hround := norm_round lib he fused (fun _ => True) (fun _ => True) (fun _ _ _ => Iff.rfl)
  have leU := sideSum_le (normalZig lib) fused (fun l => (l : Int))
  have leD := sideSum_le (normalZig lib) fused (fun l => -((l + 1 : Nat) : Int))
  have sU := tailShare_le (normalZig lib) (fun l => (l : Int))
  have sD := tailShare_le (normalZig lib) (fun l => -((l + 1 : Nat) : Int))
  have hnV := normal_V
  have hge := tailPart_ge lib hl
  have ht : ∀ n, 1 - tailGives (normalZig lib) (fun _ => True) n ≤ (1 / 16) ^ n := by
    intro n
    have h := tail_norm_converge lib (fun _ => True) hge n
    rw [div_self (by linarith)] at h
    linarith [(abs_le.mp h).1]
  generalize sideSum (normalZig lib) fused (fun l => (l : Int)) (fun _ => True) = AU at *
  generalize sideSum (normalZig lib) fused (fun l => -((l + 1 : Nat) : Int)) (fun _ => True) = AD at *
  generalize tailShare (normalZig lib) (fun l => (l : Int)) = TU at *
  generalize tailShare (normalZig lib) (fun l => -((l + 1 : Nat) : Int)) = TD at *
  obtain ⟨B, hB⟩ : ∃ B, B = (AU + TU + (AD + TD)) / 2 := ⟨_, rfl⟩
  have hVB : zv normalW normalF * B ≥ gaussTail 0 - (1 / 2 ^ 33 + 1 / 2 ^ 41) := by
    rw [hB]
    rw [abs_le] at aU aD tU tD
    linarith [aU.1, aD.1, tU.1, tD.1]
  have hρ : 1 - B / 1024 ≤ 1 / 256 := by
    have : zv normalW normalF * 1020 ≤ zv normalW normalF * B := by
      have k : (12528 : ℝ) / 10000 ≤ 12529 / 10000 - (1 / 2 ^ 33 + 1 / 2 ^ 41) := by norm_num
      linarith
    have := le_of_mul_le_mul_left this hV
    linarith
  have hB1 : B ≤ 1024 := by rw [hB]; linarith
  have h := hround n
  have hτ := ht n
  have hτ1 := (tailGives_bounds (normalZig lib) (fun _ => True) n).2
  have hg1 : gives (normalZig lib) fused (fun _ => True) n ≤ 1 := prob_le_one _ _
  rw [← hB] at h
  generalize gives (normalZig lib) fused (fun _ => True) (n + 1) = g1 at *
  generalize gives (normalZig lib) fused (fun _ => True) n = g at *
  generalize tailGives (normalZig lib) (fun _ => True) n = τ at *
  have e : 1 - g1 = (TU + TD) / 2 / 1024 * (1 - τ) + (1 - B / 1024) * (1 - g) := by
    rw [h, hB]; ring
  rw [e]
  have a1 : (TU + TD) / 2 / 1024 * (1 - τ) ≤ 1 / 1024 * (1 / 16) ^ n :=
    mul_le_mul (by linarith) hτ (by linarith) (by norm_num)
  have a2 : (1 - B / 1024) * (1 - g) ≤ 1 / 256 * (1 - g) := mul_le_mul_of_nonneg_right hρ (by linarith)
  linarith

/-- The probability that the ziggurat of the normal distribution has not returned after `n` rounds. -/
theorem norm_returns (lib : MathLib) (hl : LogOk lib) (he : ExpOk lib) (fused : Bool) (n : Nat) :
    1 - gives (normalZig lib) fused (fun _ => True) n ≤ (1 / 16) ^ n := by
  induction n with
  | zero => rw [gives_zero]; norm_num
  | succ n ih =>
    have h := norm_step lib hl he fused n
    rw [pow_succ']
    have hσ : (0 : ℝ) ≤ (1 / 16) ^ n := by positivity
    linarith

/-- After two rounds. -/
theorem norm_returns_two (lib : MathLib) (hl : LogOk lib) (he : ExpOk lib) (fused : Bool) :
    1 - gives (normalZig lib) fused (fun _ => True) 2 ≤ 1 / 2 ^ 13 := by
  have h1 := norm_step lib hl he fused 0
  have h2 := norm_step lib hl he fused 1
  rw [gives_zero] at h1
  norm_num at h1 h2 ⊢
  linarith

/-- C71: of all sequences of `2n` words, the share of those on which `Normal.Next` returns within `n` rounds is at least
`1 - 16^-n`. -/
theorem C71_returns (lib : MathLib) (hl : LogOk lib) (he : ExpOk lib) (fused fused' : Bool) (mean stddev : F64) (n : Nat) :
    1 - (1 / 16) ^ n ≤ prob (2 * n) (fun w => ∃ r rest, normal lib fused fused' mean stddev tape n w = .ok (r, rest)) := by
  have e : prob (2 * n) (fun w => ∃ r rest, normal lib fused fused' mean stddev tape n w = .ok (r, rest)) =
      gives (normalZig lib) fused (fun _ => True) n := by
    refine prob_congr fun w _ => ?_
    have := normal_event lib fused fused' mean stddev (fun _ => True) n w
    simpa only [and_true] using this
  rw [e]
  linarith [norm_returns lib hl he fused n]

/-! ### Non-vacuity -/

/-- The hypotheses of `C71_normal` are met by the standard normal distribution; with 8 rounds, the share of the draws that are at
most 0, the median, is 1/2 up to `2^-30`. -/
example : ∃ lib, |prob (2 * 8) (fun w => ∃ r rest, normal lib true false (.fin false 0) (F64.ofNat 1) tape 8 w = .ok (r, rest) ∧ AtMost 0 r) -
    1 / 2| ≤ 1 / 2 ^ 30 := by
  obtain ⟨lib, hl, he⟩ := mathLib_exists
  refine ⟨lib, ?_⟩
  have h0 : rv (.fin false 0) = 0 := by rw [rv_pos 0 1074 rfl, Nat.cast_zero, zero_div]
  have hk : (1 : ℝ) ≤ 2 ^ 900 := one_le_pow₀ (by norm_num)
  have h := C71_normal lib hl he true false (.fin false 0) (F64.ofNat 1) trivial (by rw [h0, abs_zero]; positivity)
    rate_one.1.1 (by rw [rate_one.2]; exact (div_le_one (by positivity)).mpr hk) (by rw [rate_one.2]; exact hk) 0 8
  rw [phi_general _ _ _ (by rw [rate_one.2]; norm_num), h0, rate_one.2, sub_zero, zero_div, abs_zero, zero_div, zero_div, add_zero] at h
  have hp : Phi 0 = 1 / 2 := by
    have hA := area_ge
    unfold Phi
    rw [intervalIntegral.integral_same, add_zero, div_eq_div_iff (by linarith) (by norm_num)]
    ring
  rw [hp] at h
  refine h.trans ?_
  norm_num

end Crazy
