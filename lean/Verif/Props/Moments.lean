/-
C99: the mean and the variance of Exponential and Normal.
-/
import Verif.Proofs.Moment
import Verif.Props.ExpoDist
import Verif.Props.ZigExpo
set_option exponentiation.threshold 2200
namespace Crazy
open MeasureTheory Set F64

/-! ### Exponential -/

theorem ofDraw_ok {call : List U64 → Go (F64 × List U64)} {g : ℝ → ℝ} {w : List U64} {r : F64} {rest : List U64} (h : call w = .ok (r, rest))
    (hf : r.IsFin) : ofDraw call g w = g (rv r) := by
  unfold ofDraw
  rw [h]
  exact if_pos hf

theorem ofDraw_inf {call : List U64 → Go (F64 × List U64)} {g : ℝ → ℝ} {w : List U64} {r : F64} {rest : List U64} (h : call w = .ok (r, rest))
    (hf : ¬ r.IsFin) : ofDraw call g w = 0 := by
  unfold ofDraw
  rw [h]
  exact if_neg hf

theorem ofDraw_err {call : List U64 → Go (F64 × List U64)} {g : ℝ → ℝ} {w : List U64} {e : Panic} (h : call w = .error e) :
    ofDraw call g w = 0 := by
  unfold ofDraw
  rw [h]

theorem ofDraw_fn {call : List U64 → Go (F64 × List U64)} {g h : ℝ → ℝ} (h0 : h 0 = 0) (w : List U64) :
    ofDraw call (fun x => h (g x)) w = h (ofDraw call g w) := by
  unfold ofDraw
  cases call w with
  | error e => exact h0.symm
  | ok q =>
    simp only
    split
    · rfl
    · exact h0.symm

theorem exp_int (l : ℝ) (hl : 0 < l) (B : ℝ) : ∫ t in (0 : ℝ)..B, (1 : ℝ) * Real.exp (-(l * t)) = (1 - Real.exp (-(l * B))) / l := by
  have hd : ∀ t ∈ uIcc (0 : ℝ) B, HasDerivAt (fun t => -Real.exp (-(l * t)) / l) (1 * Real.exp (-(l * t))) t := fun t _ => by
    have h1 : HasDerivAt (fun t : ℝ => -(l * t)) (-(l * 1)) t := ((hasDerivAt_id t).const_mul l).neg
    have h2 := (h1.exp.neg).div_const l
    refine h2.congr_deriv ?_
    have := hl.ne'
    field_simp
  rw [intervalIntegral.integral_eq_sub_of_hasDerivAt hd (Continuous.intervalIntegrable (by fun_prop) _ _)]
  rw [mul_zero, neg_zero, Real.exp_zero]
  ring

theorem exp_int2 (l : ℝ) (hl : 0 < l) (B : ℝ) :
    ∫ t in (0 : ℝ)..B, 2 * t * Real.exp (-(l * t)) = 2 / l ^ 2 - Real.exp (-(l * B)) * (2 * B / l + 2 / l ^ 2) := by
  have hd : ∀ t ∈ uIcc (0 : ℝ) B, HasDerivAt (fun t => -(Real.exp (-(l * t)) * (2 * t / l + 2 / l ^ 2))) (2 * t * Real.exp (-(l * t))) t := fun t _ => by
    have h1 : HasDerivAt (fun t : ℝ => -(l * t)) (-(l * 1)) t := ((hasDerivAt_id t).const_mul l).neg
    have h3 : HasDerivAt (fun t : ℝ => 2 * t / l + 2 / l ^ 2) (2 * 1 / l) t := (((hasDerivAt_id t).const_mul 2).div_const l).add_const _
    have h2 := (h1.exp.mul h3).neg
    refine h2.congr_deriv ?_
    have := hl.ne'
    field_simp
    ring
  rw [intervalIntegral.integral_eq_sub_of_hasDerivAt hd (Continuous.intervalIntegrable (by fun_prop) _ _)]
  rw [mul_zero, neg_zero, Real.exp_zero]
  ring

theorem two_int (B : ℝ) (hB : 0 ≤ B) : ∫ t in (0 : ℝ)..B, |2 * t| = B ^ 2 := by
  have e : ∫ t in (0 : ℝ)..B, |2 * t| = ∫ t in (0 : ℝ)..B, 2 * t := by
    refine intervalIntegral.integral_congr fun t ht => ?_
    rw [uIcc_of_le hB] at ht
    exact abs_of_nonneg (by linarith [ht.1])
  rw [e, intervalIntegral.integral_const_mul, integral_id]
  ring

section
variable (lib : MathLib) (hl : LogOk lib) (he : ExpOk lib) (fused : Bool) (rate : F64) (hrate : PosRate rate)
  (h1 : 1 / 2 ^ 900 ≤ rv rate) (h2 : rv rate ≤ 2 ^ 900)

theorem rate_min (l : ℝ) (h1 : 1 / 2 ^ 900 ≤ l) : 1 / 2 ^ 1000 ≤ l := by
  obtain ⟨k, hk⟩ : ∃ k, 900 = k := ⟨_, rfl⟩
  obtain ⟨m, hm⟩ : ∃ m, 1000 = m := ⟨_, rfl⟩
  rw [hk] at h1
  rw [hm]
  exact (one_div_le_one_div_of_le (by positivity) (pow_le_pow_right₀ (by norm_num) (by omega))).trans h1

include hl hrate h1 in
theorem expo_cases (n : Nat) (w : List U64) :
    (∃ r rest, exponential lib fused rate tape n w = .ok (r, rest) ∧ r.IsFin ∧ 0 ≤ rv r ∧ rv r ≤ 128 / rv rate) ∨
    ((∀ t r rest, exponential lib fused rate tape n w = .ok (r, rest) → ¬ AtMost t r) ∧
      ofDraw (exponential lib fused rate tape n) (fun x => x) w = 0) := by
  cases h : exponential lib fused rate tape n w with
  | error e => exact Or.inr ⟨fun _ _ _ h => absurd h (err_ne_ok _ _), ofDraw_err h⟩
  | ok q =>
    obtain ⟨r, rest⟩ := q
    rcases C41_inf lib hl fused rate hrate (rate_min _ h1) tape n w rest r h with ⟨a, b, c⟩ | ⟨rfl, -⟩
    · exact Or.inl ⟨r, rest, rfl, a, b, c⟩
    · refine Or.inr ⟨fun t r' rest' h' => ?_, ofDraw_inf h (fun hf => hf)⟩
      rw [Except.ok.injEq, Prod.mk.injEq] at h'
      rw [← h'.1]
      rintro (hc | ⟨hf, -⟩)
      · cases hc
      · exact hf

include hl hrate h1 in
theorem expo_event (n : Nat) (t : ℝ) (ht : 0 ≤ t) (w : List U64) : t < ofDraw (exponential lib fused rate tape n) (fun x => x) w ↔
    (∃ r rest, exponential lib fused rate tape n w = .ok (r, rest) ∧ AtMost (128 / rv rate) r) ∧
      ¬ ∃ r rest, exponential lib fused rate tape n w = .ok (r, rest) ∧ AtMost t r := by
  rcases expo_cases lib hl fused rate hrate h1 n w with ⟨r, rest, h, hf, h3, h4⟩ | ⟨h, h0⟩
  · rw [ofDraw_ok h hf, h]
    constructor
    · intro hlt
      refine ⟨⟨r, rest, rfl, Or.inr ⟨hf, h4⟩⟩, ?_⟩
      rintro ⟨r', rest', e, hc | ⟨-, hle⟩⟩
      · rw [Except.ok.injEq, Prod.mk.injEq] at e
        rw [e.1, hc] at hf
        exact hf
      · rw [Except.ok.injEq, Prod.mk.injEq] at e
        rw [← e.1] at hle
        exact absurd hle (not_le.mpr hlt)
    · rintro ⟨-, hn⟩
      by_contra hc
      exact hn ⟨r, rest, rfl, Or.inr ⟨hf, not_lt.mp hc⟩⟩
  · rw [h0]
    constructor
    · intro hc
      exact absurd hc (not_lt.mpr ht)
    · rintro ⟨⟨r, rest, e, ha⟩, -⟩
      exact absurd ha (h _ r rest e)

include hl he hrate h1 h2 in
theorem expo_above (n : Nat) (t : ℝ) (ht : 0 ≤ t) (htB : t ≤ 128 / rv rate) :
    |prob (2 * n) (fun w => t < ofDraw (exponential lib fused rate tape n) (fun x => x) w) - Real.exp (-(rv rate * t))| ≤
      2 * (1 / 2 ^ 31 + (1 / 256) ^ n) + Real.exp (-128) := by
  have hpos := hrate.2.1
  have hB : 0 ≤ 128 / rv rate := by positivity
  rw [prob_diff (2 * n) _ _ _ (fun w _ => expo_event lib hl fused rate hrate h1 n t ht w) (fun w _ => by
    rintro ⟨r, rest, e, ha⟩
    refine ⟨r, rest, e, ?_⟩
    rcases ha with ha | ⟨hf, hle⟩
    · exact Or.inl ha
    · exact Or.inr ⟨hf, hle.trans htB⟩)]
  have c1 := C70_exponential lib hl he fused rate hrate h1 h2 (128 / rv rate) hB n
  have c2 := C70_exponential lib hl he fused rate hrate h1 h2 t ht n
  rw [mul_div_cancel₀ _ hpos.ne'] at c1
  have p := Real.exp_pos (-128)
  rw [abs_le] at c1 c2 ⊢
  constructor <;> linarith [c1.1, c1.2, c2.1, c2.2]

include hl he hrate h1 h2 in
theorem expo_moment (n : Nat) (f ψ : ℝ → ℝ) (hf : ∀ t, HasDerivAt f (ψ t) t) (hψ : Continuous ψ) (h0 : f 0 = 0) :
    |average (2 * n) (ofDraw (exponential lib fused rate tape n) f) - ∫ t in (0 : ℝ)..(128 / rv rate), ψ t * Real.exp (-(rv rate * t))| ≤
      (∫ t in (0 : ℝ)..(128 / rv rate), |ψ t|) * (2 * (1 / 2 ^ 31 + (1 / 256) ^ n) + Real.exp (-128)) := by
  have hpos := hrate.2.1
  have hB : 0 ≤ 128 / rv rate := by positivity
  have e : ofDraw (exponential lib fused rate tape n) f = fun w => f (ofDraw (exponential lib fused rate tape n) (fun x => x) w) := by
    funext w
    exact ofDraw_fn (g := fun x => x) h0 w
  have := average_near (2 * n) (ofDraw (exponential lib fused rate tape n) (fun x => x)) 0 (128 / rv rate)
    (2 * (1 / 2 ^ 31 + (1 / 256) ^ n) + Real.exp (-128)) f ψ (fun t => Real.exp (-(rv rate * t))) hf hψ (fun w => ?_) hB
    (Continuous.intervalIntegrable (by fun_prop) _ _)
    (fun t ht htB => expo_above lib hl he fused rate hrate h1 h2 n t ht.le htB.le)
  · rwa [h0, zero_add, ← e] at this
  · rcases expo_cases lib hl fused rate hrate h1 n w with ⟨r, rest, h, hf, h3, h4⟩ | ⟨-, h0⟩
    · rw [ofDraw_ok h hf]
      exact ⟨h3, h4⟩
    · rw [h0]
      exact ⟨le_rfl, hB⟩

theorem exp_128 : Real.exp (-128) ≤ 1 / 2 ^ 128 := by
  have h : (2 : ℝ) ≤ Real.exp 1 := by
    have := Real.add_one_le_exp (1 : ℝ)
    linarith
  have h3 : (2 : ℝ) ^ 128 ≤ Real.exp 128 := by
    calc (2 : ℝ) ^ 128 ≤ Real.exp 1 ^ 128 := pow_le_pow_left₀ (by norm_num) h 128
      _ = Real.exp 128 := by rw [← Real.exp_nat_mul]; norm_num
  rw [Real.exp_neg, ← one_div]
  exact one_div_le_one_div_of_le (by positivity) h3

/-- C99: the mean of `Exponential.Next` is `1/rate`, up to a relative `2^-22 + 256^(1-n)`: the average over all sequences of `2n` words of
the number it returns within `n` rounds (counting 0 if it returns +Inf or has not returned). -/
theorem C99_exponential_mean (lib : MathLib) (hl : LogOk lib) (he : ExpOk lib) (fused : Bool) (rate : F64) (hrate : PosRate rate)
    (h1 : 1 / 2 ^ 900 ≤ rv rate) (h2 : rv rate ≤ 2 ^ 900) (n : Nat) :
    |average (2 * n) (ofDraw (exponential lib fused rate tape n) fun x => x) - 1 / rv rate| ≤
      (1 / 2 ^ 22 + 256 * (1 / 256) ^ n) / rv rate := by
  have hpos := hrate.2.1
  have := expo_moment lib hl he fused rate hrate h1 h2 n (fun x => x) (fun _ => 1) (fun t => hasDerivAt_id t) continuous_const rfl
  rw [exp_int _ hpos, mul_div_cancel₀ _ hpos.ne'] at this
  simp only [abs_one, intervalIntegral.integral_const, sub_zero, smul_eq_mul, mul_one] at this
  have e := exp_128
  have hn : (0 : ℝ) < (1 / 256) ^ n := by positivity
  generalize (1 / 256 : ℝ) ^ n = q at *
  generalize Real.exp (-128) = d at *
  generalize average _ _ = a at *
  generalize rv rate = l at *
  have k : ∀ b, |a - b| = |a * l - b * l| / l := fun b => by
    rw [← sub_mul, abs_mul, abs_of_pos hpos, mul_div_cancel_right₀ _ hpos.ne']
  rw [k, div_mul_cancel₀ _ hpos.ne'] at this ⊢
  rw [div_le_div_iff_of_pos_right hpos]
  rw [show 128 / l * (2 * (1 / 2 ^ 31 + q) + d) = 128 * (2 * (1 / 2 ^ 31 + q) + d) / l by ring, div_le_div_iff_of_pos_right hpos] at this
  rw [abs_le] at this ⊢
  norm_num at this e ⊢
  constructor <;> linarith [this.1, this.2]

/-- C99: the mean of the square is `2/rate^2`, up to a relative `2^-16 + 2^14 256^-n`. -/
theorem C99_exponential_square (lib : MathLib) (hl : LogOk lib) (he : ExpOk lib) (fused : Bool) (rate : F64) (hrate : PosRate rate)
    (h1 : 1 / 2 ^ 900 ≤ rv rate) (h2 : rv rate ≤ 2 ^ 900) (n : Nat) :
    |average (2 * n) (ofDraw (exponential lib fused rate tape n) fun x => x ^ 2) - 2 / rv rate ^ 2| ≤
      (1 / 2 ^ 15 + 2 ^ 15 * (1 / 256) ^ n) / rv rate ^ 2 := by
  have hpos := hrate.2.1
  have := expo_moment lib hl he fused rate hrate h1 h2 n (fun x => x ^ 2) (fun t => 2 * t) (fun t => by
    have := hasDerivAt_pow 2 t
    simpa using this) (by fun_prop) (by norm_num)
  rw [exp_int2 _ hpos, mul_div_cancel₀ _ hpos.ne', two_int _ (by positivity)] at this
  have e := exp_128
  have ep := Real.exp_pos (-128)
  have hn : (0 : ℝ) < (1 / 256) ^ n := by positivity
  generalize (1 / 256 : ℝ) ^ n = q at *
  generalize Real.exp (-128) = d at *
  generalize average _ _ = a at *
  generalize rv rate = l at *
  have hp2 : 0 < l ^ 2 := by positivity
  have k : ∀ b, |a - b| = |a * l ^ 2 - b * l ^ 2| / l ^ 2 := fun b => by
    rw [← sub_mul, abs_mul, abs_of_pos hp2, mul_div_cancel_right₀ _ hp2.ne']
  have e1 : (2 / l ^ 2 - d * (2 * (128 / l) / l + 2 / l ^ 2)) * l ^ 2 = 2 - 258 * d := by
    field_simp
    ring
  have e2 : (128 / l) ^ 2 * (2 * (1 / 2 ^ 31 + q) + d) = 16384 * (2 * (1 / 2 ^ 31 + q) + d) / l ^ 2 := by
    field_simp
    norm_num
  rw [k, e1, e2, div_le_div_iff_of_pos_right hp2] at this
  rw [k, div_mul_cancel₀ _ hp2.ne', div_le_div_iff_of_pos_right hp2]
  rw [abs_le] at this ⊢
  norm_num at this e ⊢
  constructor <;> linarith [this.1, this.2]

/-- C99: so the variance is `1/rate^2`, up to a relative `2^-14` once `n` is at least 4. -/
theorem C99_exponential_variance (lib : MathLib) (hl : LogOk lib) (he : ExpOk lib) (fused : Bool) (rate : F64) (hrate : PosRate rate)
    (h1 : 1 / 2 ^ 900 ≤ rv rate) (h2 : rv rate ≤ 2 ^ 900) (n : Nat) (hn : 4 ≤ n) :
    |average (2 * n) (ofDraw (exponential lib fused rate tape n) fun x => x ^ 2) -
      average (2 * n) (ofDraw (exponential lib fused rate tape n) fun x => x) ^ 2 - 1 / rv rate ^ 2| ≤ (1 / 2 ^ 14) / rv rate ^ 2 := by
  have hpos := hrate.2.1
  have m1 := C99_exponential_mean lib hl he fused rate hrate h1 h2 n
  have m2 := C99_exponential_square lib hl he fused rate hrate h1 h2 n
  have hq : (1 / 256 : ℝ) ^ n ≤ (1 / 256) ^ 4 := pow_le_pow_of_le_one (by norm_num) (by norm_num) hn
  have hq0 : (0 : ℝ) < (1 / 256) ^ n := by positivity
  generalize (1 / 256 : ℝ) ^ n = q at *
  generalize average _ (ofDraw _ fun x => x ^ 2) = b at *
  generalize average _ _ = a at *
  generalize rv rate = l at *
  have hp2 : 0 < l ^ 2 := by positivity
  rw [abs_le, ← neg_div, div_le_iff₀ hpos, le_div_iff₀ hpos] at m1
  have ea : (a - 1 / l) * l = a * l - 1 := by field_simp
  have hx := m1
  rw [ea] at hx
  obtain ⟨x, hxe⟩ : ∃ x, x = a * l := ⟨_, rfl⟩
  rw [← hxe] at hx
  rw [abs_le, ← neg_div, div_le_iff₀ hp2, le_div_iff₀ hp2] at m2 ⊢
  have eb : (b - 2 / l ^ 2) * l ^ 2 = b * l ^ 2 - 2 := by field_simp
  have ec : (b - a ^ 2 - 1 / l ^ 2) * l ^ 2 = b * l ^ 2 - x ^ 2 - 1 := by rw [hxe]; field_simp
  rw [eb] at m2
  rw [ec]
  norm_num at hx m2 hq ⊢
  constructor <;> nlinarith [hx.1, hx.2, m2.1, m2.2, hq]

end

end Crazy
