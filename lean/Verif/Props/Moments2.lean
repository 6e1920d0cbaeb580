/-
C99: the mean and the variance of Normal.
-/
import Verif.Props.Moments
import Verif.Props.NormDist
import Verif.Props.Special
set_option exponentiation.threshold 2200
namespace Crazy
open MeasureTheory Set F64 ProbabilityTheory

/-! ### The normal distribution function -/

theorem Phi_neg (t : ℝ) : Phi (-t) = 1 - Phi t := by
  have hA := area_ge
  unfold Phi
  rw [gauss_even, eq_sub_iff_add_eq, ← add_div, div_eq_one_iff_eq (by linarith)]
  ring

/-- The density of the normal distribution. -/
noncomputable def phi (t : ℝ) : ℝ := gauss t / (2 * gaussTail 0)

theorem phi_pos (t : ℝ) : 0 ≤ phi t := div_nonneg (gauss_pos t).le (by linarith [area_ge])

theorem Phi_deriv (t : ℝ) : HasDerivAt Phi (phi t) t := by
  have h : HasDerivAt (fun T => ∫ s in (0 : ℝ)..T, gauss s) (gauss t) t :=
    intervalIntegral.integral_hasDerivAt_right (gauss_cont.intervalIntegrable _ _)
      (gauss_cont.stronglyMeasurableAtFilter _ _) gauss_cont.continuousAt
  exact (h.const_add (gaussTail 0)).div_const _

theorem Phi_cont : Continuous Phi := continuous_iff_continuousAt.mpr fun t => (Phi_deriv t).continuousAt

theorem phi_deriv (t : ℝ) : HasDerivAt phi (-t * phi t) t := by
  have := (gauss_deriv t).div_const (2 * gaussTail 0)
  refine this.congr_deriv ?_
  unfold phi gauss
  ring

theorem gauss_66 : gauss 66 ≤ 1 / 2 ^ 128 := by
  refine le_trans ?_ exp_128
  unfold gauss
  rw [Real.exp_le_exp]
  norm_num

theorem Phi_far : Phi (-66) ≤ 1 / 2 ^ 128 := by
  have hA := area_ge
  have h := (gaussTail_mills 66 (by norm_num)).2
  have hs := gaussTail_split 0 66 (by norm_num)
  have g := gauss_66
  have g0 := gauss_pos 66
  rw [Phi_neg]
  have e : 1 - Phi 66 = gaussTail 66 / (2 * gaussTail 0) := by
    unfold Phi
    rw [eq_div_iff (by linarith), sub_mul, div_mul_cancel₀ _ (by linarith)]
    linarith
  rw [e, div_le_iff₀ (by linarith)]
  have : (1 : ℝ) / 66 * gauss 66 ≤ 1 / 66 * (1 / 2 ^ 128) := by linarith
  have h2 : (1 : ℝ) / 2 ^ 128 * (2 * (12529 / 10000)) ≤ 1 / 2 ^ 128 * (2 * gaussTail 0) :=
    mul_le_mul_of_nonneg_left (by linarith) (by positivity)
  norm_num at this h2 h ⊢
  linarith

theorem phi_far : phi 66 ≤ 1 / 2 ^ 128 := by
  have hA := area_ge
  have g := gauss_66
  unfold phi
  rw [div_le_iff₀ (by linarith)]
  have h2 : (1 : ℝ) / 2 ^ 128 * (2 * (12529 / 10000)) ≤ 1 / 2 ^ 128 * (2 * gaussTail 0) :=
    mul_le_mul_of_nonneg_left (by linarith) (by positivity)
  norm_num at g h2 ⊢
  linarith

theorem phi_int (B : ℝ) : -B + ∫ t in (-B)..B, (1 : ℝ) * (1 - Phi t) = 0 := by
  have h1 : ∫ t in (-B)..B, (1 : ℝ) * (1 - Phi t) = ∫ t in (-B)..B, Phi t := by
    have : ∫ t in (-B)..B, Phi (-t) = ∫ t in (-B)..B, Phi t := by
      rw [intervalIntegral.integral_comp_neg]
      simp
    rw [← this]
    simp only [Phi_neg, one_mul]
  have h2 : (∫ t in (-B)..B, (1 : ℝ) * (1 - Phi t)) + ∫ t in (-B)..B, Phi t = 2 * B := by
    have hc : Continuous fun t => (1 : ℝ) * (1 - Phi t) := continuous_const.mul (continuous_const.sub Phi_cont)
    rw [← intervalIntegral.integral_add (hc.intervalIntegrable _ _) (Phi_cont.intervalIntegrable _ _)]
    simp only [one_mul, sub_add_cancel, intervalIntegral.integral_const, smul_eq_mul, mul_one]
    ring
  linarith

theorem phi_int2 (B : ℝ) : B ^ 2 + ∫ t in (-B)..B, 2 * t * (1 - Phi t) = 1 + 2 * B ^ 2 * Phi (-B) - 2 * B * phi B - 2 * Phi (-B) := by
  have hd : ∀ t ∈ uIcc (-B) B, HasDerivAt (fun t => t ^ 2 - (t ^ 2 * Phi t + t * phi t - Phi t)) (2 * t * (1 - Phi t)) t := fun t _ => by
    have p2 : HasDerivAt (fun t : ℝ => t ^ 2) (2 * t) t := by simpa using hasDerivAt_pow 2 t
    have := p2.sub (((p2.mul (Phi_deriv t)).add ((hasDerivAt_id t).mul (phi_deriv t))).sub (Phi_deriv t))
    refine this.congr_deriv ?_
    simp only [id]
    ring
  have hc : Continuous fun t => 2 * t * (1 - Phi t) := by
    have := Phi_cont
    fun_prop
  rw [intervalIntegral.integral_eq_sub_of_hasDerivAt hd (hc.intervalIntegrable _ _)]
  have e1 : Phi B = 1 - Phi (-B) := by rw [Phi_neg]; ring
  have e2 : phi (-B) = phi B := by unfold phi gauss; rw [neg_sq]
  rw [e1, e2]
  ring

theorem abs_int (B : ℝ) (hB : 0 ≤ B) : ∫ t in (-B)..B, |2 * t| = 2 * B ^ 2 := by
  have hi : ∀ a b : ℝ, IntervalIntegrable (fun t : ℝ => |2 * t|) volume a b := fun a b => Continuous.intervalIntegrable (by fun_prop) _ _
  rw [← intervalIntegral.integral_add_adjacent_intervals (hi (-B) 0) (hi 0 B), two_int B hB]
  have : ∫ t in (-B)..0, |2 * t| = ∫ t in (0 : ℝ)..B, |2 * t| := by
    have := intervalIntegral.integral_comp_neg (fun t : ℝ => |2 * t|) (a := 0) (b := B)
    simp only [neg_zero, mul_neg, abs_neg] at this
    exact this.symm
  rw [this, two_int B hB]
  ring

/-! ### Normal.Next -/

section
variable (lib : MathLib) (hl : LogOk lib) (he : ExpOk lib) (fused fused' : Bool) (mean stddev : F64) (hm : mean.IsFin)
  (hm1 : |rv mean| ≤ 2 ^ 900) (hs : stddev.IsFin) (hs0 : 1 / 2 ^ 900 ≤ rv stddev) (hs1 : rv stddev ≤ 2 ^ 900)
  (hms : |rv mean| ≤ 2 ^ 52 * rv stddev)

include hl hm hs hs0 hs1 hm1 hms in
theorem normal_cases (n : Nat) (w : List U64) :
    (∃ r rest, normal lib fused fused' mean stddev tape n w = .ok (r, rest) ∧ r.IsFin ∧ |(rv r - rv mean) / rv stddev| ≤ 66) ∨
    ((∀ t r rest, normal lib fused fused' mean stddev tape n w = .ok (r, rest) → (AtMost t r ↔ r = .inf true)) ∧
      ofDraw (normal lib fused fused' mean stddev tape n) (fun x => (x - rv mean) / rv stddev) w = 0) := by
  have hpos : 0 < rv stddev := lt_of_lt_of_le (by positivity) hs0
  cases h : normal lib fused fused' mean stddev tape n w with
  | error e => exact Or.inr ⟨fun _ _ _ h => absurd h (err_ne_ok _ _), ofDraw_err h⟩
  | ok q =>
    obtain ⟨r, rest⟩ := q
    by_cases hf : r.IsFin
    · refine Or.inl ⟨r, rest, rfl, hf, ?_⟩
      obtain ⟨x, rest', hx, hr⟩ := (normal_event lib fused fused' mean stddev (· = r) n w).mp ⟨r, rest, h, rfl⟩
      rcases normal_draw lib hl fused tape n w rest' x hx with ⟨h1, h2, h3⟩ | ⟨b, rfl⟩
      · have := (mulAdd_near fused' x stddev mean h1 hs hm h3 hs0 hs1 hm1).2
        rw [hr] at this
        rw [abs_div, abs_of_pos hpos, div_le_iff₀ hpos]
        have e : rv r - rv mean = (rv r - (rv x * rv stddev + rv mean)) + rv x * rv stddev := by ring
        rw [e]
        refine (abs_add_le _ _).trans ?_
        rw [abs_mul, abs_of_pos hpos]
        have k1 : |rv x| * rv stddev ≤ 64 * rv stddev := mul_le_mul_of_nonneg_right h3 hpos.le
        have k2 : |rv mean| / 2 ^ 52 ≤ rv stddev := by
          rw [div_le_iff₀ (by positivity)]
          linarith
        have k3 : rv stddev * (1 / 2 ^ 45) ≤ rv stddev := by
          have : (1 : ℝ) / 2 ^ 45 ≤ 1 := by norm_num
          exact mul_le_of_le_one_right hpos.le this
        linarith
      · exfalso
        obtain ⟨c, m, rfl⟩ : ∃ c m, stddev = .fin c m := by
          match stddev, hs with
          | .fin c m, _ => exact ⟨c, m, rfl⟩
        rw [mulAdd_inf_left _ _ _ _ _ hm] at hr
        rw [← hr] at hf
        split at hf <;> exact hf
    · refine Or.inr ⟨fun t r' rest' e => ?_, ofDraw_inf h hf⟩
      rw [Except.ok.injEq, Prod.mk.injEq] at e
      rw [← e.1]
      exact ⟨fun k => k.elim id fun k => absurd k.1 hf, Or.inl⟩

/-- The event of `C71`, for the standardised number. -/
def normAM (n : Nat) (t : ℝ) (w : List U64) : Prop :=
  ∃ r rest, normal lib fused fused' mean stddev tape n w = .ok (r, rest) ∧ AtMost (rv mean + rv stddev * t) r

theorem atMost_mono {s t : ℝ} (h : s ≤ t) {r : F64} (k : AtMost s r) : AtMost t r := by
  rcases k with k | ⟨k1, k2⟩
  · exact Or.inl k
  · exact Or.inr ⟨k1, k2.trans h⟩

include hs0 in
theorem normAM_mono (n : Nat) {s t : ℝ} (h : s ≤ t) (w : List U64) (k : normAM lib fused fused' mean stddev n s w) :
    normAM lib fused fused' mean stddev n t w := by
  have hpos : 0 < rv stddev := lt_of_lt_of_le (by positivity) hs0
  obtain ⟨r, rest, e, k⟩ := k
  exact ⟨r, rest, e, atMost_mono (by nlinarith) k⟩

include hl he hm hs hs0 hs1 hm1 in
theorem normAM_prob (n : Nat) (t : ℝ) : |prob (2 * n) (normAM lib fused fused' mean stddev n t) - Phi t| ≤
    1 / 2 ^ 31 + |rv mean| / rv stddev / 2 ^ 53 + (1 / 16) ^ n := by
  have hpos : 0 < rv stddev := lt_of_lt_of_le (by positivity) hs0
  have := C71_normal lib hl he fused fused' mean stddev hm hm1 hs hs0 hs1 (rv mean + rv stddev * t) n
  rw [phi_general _ _ _ hpos, add_sub_cancel_left, mul_div_cancel_left₀ _ hpos.ne'] at this
  exact this

include hs0 in
theorem normAM_fin (n : Nat) (t : ℝ) (w : List U64) (r : F64) (rest : List U64)
    (h : normal lib fused fused' mean stddev tape n w = .ok (r, rest)) (hf : r.IsFin) :
    normAM lib fused fused' mean stddev n t w ↔ (rv r - rv mean) / rv stddev ≤ t := by
  have hpos : 0 < rv stddev := lt_of_lt_of_le (by positivity) hs0
  rw [div_le_iff₀ hpos, sub_le_iff_le_add, add_comm (t * _), mul_comm t]
  constructor
  · rintro ⟨r', rest', e, k⟩
    rw [h, Except.ok.injEq, Prod.mk.injEq] at e
    rw [← e.1] at k
    rcases k with k | ⟨-, k⟩
    · rw [k] at hf
      exact absurd hf fun h => h
    · exact k
  · exact fun k => ⟨r, rest, h, Or.inr ⟨hf, k⟩⟩

theorem normAM_inf (n : Nat) (w : List U64)
    (h : ∀ t r rest, normal lib fused fused' mean stddev tape n w = .ok (r, rest) → (AtMost t r ↔ r = .inf true)) (s t : ℝ) :
    normAM lib fused fused' mean stddev n s w ↔ normAM lib fused fused' mean stddev n t w := by
  constructor <;> rintro ⟨r, rest, e, k⟩ <;> exact ⟨r, rest, e, (h _ r rest e).mpr ((h _ r rest e).mp k)⟩

include hl he hm hs hs0 hs1 hm1 hms in
theorem normal_above (n : Nat) (t : ℝ) (h1 : -66 < t) (h2 : t < 66) :
    |prob (2 * n) (fun w => t < ofDraw (normal lib fused fused' mean stddev tape n) (fun x => (x - rv mean) / rv stddev) w) - (1 - Phi t)| ≤
      2 * (1 / 2 ^ 31 + |rv mean| / rv stddev / 2 ^ 53 + (1 / 16) ^ n) + Phi (-66) := by
  have P := normAM_prob lib hl he fused fused' mean stddev hm hm1 hs hs0 hs1 n
  have C := normal_cases lib hl fused fused' mean stddev hm hm1 hs hs0 hs1 hms n
  rcases le_or_gt 0 t with ht | ht
  · rw [prob_diff (2 * n) _ (normAM lib fused fused' mean stddev n 66) (normAM lib fused fused' mean stddev n t) (fun w _ => ?_)
      (fun w _ => normAM_mono lib fused fused' mean stddev hs0 n h2.le w)]
    · have a := P 66
      have b := P t
      have c := Phi_neg 66
      rw [abs_le] at a b ⊢
      have := (Phi_bounds (-66)).1
      constructor <;> linarith [a.1, a.2, b.1, b.2]
    · rcases C w with ⟨r, rest, e, hf, h66⟩ | ⟨e, h0⟩
      · rw [normAM_fin lib fused fused' mean stddev hs0 n _ w r rest e hf, normAM_fin lib fused fused' mean stddev hs0 n _ w r rest e hf,
          ofDraw_ok e hf, not_le]
        exact ⟨fun k => ⟨(abs_le.mp h66).2, k⟩, fun k => k.2⟩
      · rw [h0, normAM_inf lib fused fused' mean stddev n w e 66 t]
        exact ⟨fun k => absurd k (not_lt.mpr ht), fun k => absurd k.1 k.2⟩
  · have hq : prob (2 * n) (fun w => normAM lib fused fused' mean stddev n t w ∧ ¬ normAM lib fused fused' mean stddev n (-67) w) =
        prob (2 * n) (normAM lib fused fused' mean stddev n t) - prob (2 * n) (normAM lib fused fused' mean stddev n (-67)) :=
      prob_diff (2 * n) _ _ _ (fun _ _ => Iff.rfl) (fun w _ => normAM_mono lib fused fused' mean stddev hs0 n (by linarith) w)
    rw [prob_diff (2 * n) _ (fun _ => True) (fun w => normAM lib fused fused' mean stddev n t w ∧ ¬ normAM lib fused fused' mean stddev n (-67) w)
      (fun w _ => ?_) (fun _ _ _ => trivial), prob_true, hq]
    · have a := P (-67)
      have b := P t
      have c := Phi_mono (show (-67 : ℝ) ≤ -66 by norm_num)
      have d := (Phi_bounds (-67)).1
      rw [abs_le] at a b ⊢
      constructor <;> linarith [a.1, a.2, b.1, b.2]
    · rcases C w with ⟨r, rest, e, hf, h66⟩ | ⟨e, h0⟩
      · rw [normAM_fin lib fused fused' mean stddev hs0 n _ w r rest e hf, normAM_fin lib fused fused' mean stddev hs0 n _ w r rest e hf,
          ofDraw_ok e hf, true_and]
        constructor
        · rintro k ⟨k1, -⟩
          exact absurd k1 (not_le.mpr k)
        · intro k
          by_contra hc
          exact k ⟨not_lt.mp hc, fun k2 => by linarith [(abs_le.mp h66).1]⟩
      · rw [h0, normAM_inf lib fused fused' mean stddev n w e (-67) t]
        simp [ht]

include hl he hm hs hs0 hs1 hm1 hms in
theorem normal_moment (n : Nat) (f ψ : ℝ → ℝ) (hf : ∀ t, HasDerivAt f (ψ t) t) (hψ : Continuous ψ) (h0 : f 0 = 0) :
    |average (2 * n) (ofDraw (normal lib fused fused' mean stddev tape n) fun x => f ((x - rv mean) / rv stddev)) -
        (f (-66) + ∫ t in (-66 : ℝ)..66, ψ t * (1 - Phi t))| ≤
      (∫ t in (-66 : ℝ)..66, |ψ t|) * (2 * (1 / 2 ^ 31 + |rv mean| / rv stddev / 2 ^ 53 + (1 / 16) ^ n) + Phi (-66)) := by
  have e : ofDraw (normal lib fused fused' mean stddev tape n) (fun x => f ((x - rv mean) / rv stddev)) =
      fun w => f (ofDraw (normal lib fused fused' mean stddev tape n) (fun x => (x - rv mean) / rv stddev) w) := by
    funext w
    exact ofDraw_fn (g := fun x => (x - rv mean) / rv stddev) h0 w
  rw [e]
  refine average_near (2 * n) (ofDraw (normal lib fused fused' mean stddev tape n) (fun x => (x - rv mean) / rv stddev)) (-66) 66
    (2 * (1 / 2 ^ 31 + |rv mean| / rv stddev / 2 ^ 53 + (1 / 16) ^ n) + Phi (-66)) f ψ (fun t => 1 - Phi t) hf hψ (fun w => ?_) (by norm_num)
    ((hψ.mul (continuous_const.sub Phi_cont)).intervalIntegrable _ _)
    (fun t h1 h2 => normal_above lib hl he fused fused' mean stddev hm hm1 hs hs0 hs1 hms n t h1 h2)
  rcases normal_cases lib hl fused fused' mean stddev hm hm1 hs hs0 hs1 hms n w with ⟨r, rest, h, hf, h66⟩ | ⟨-, h0⟩
  · rw [ofDraw_ok h hf]
    exact abs_le.mp h66
  · rw [h0]
    norm_num

end

/-- C99: `(x - mean)/stddev` for the numbers `x` that `Normal.Next` returns has the mean 0, up to `2^-22 + 2^9 (|mean|/stddev/2^53 + 16^-n)`: the
average over all sequences of `2n` words of the number it returns within `n` rounds (counting the mean if it returns an infinity or has not
returned). -/
theorem C99_normal_mean (lib : MathLib) (hl : LogOk lib) (he : ExpOk lib) (fused fused' : Bool) (mean stddev : F64) (hm : mean.IsFin)
    (hm1 : |rv mean| ≤ 2 ^ 900) (hs : stddev.IsFin) (hs0 : 1 / 2 ^ 900 ≤ rv stddev) (hs1 : rv stddev ≤ 2 ^ 900)
    (hms : |rv mean| ≤ 2 ^ 52 * rv stddev) (n : Nat) :
    |average (2 * n) (ofDraw (normal lib fused fused' mean stddev tape n) fun x => (x - rv mean) / rv stddev)| ≤
      1 / 2 ^ 22 + 2 ^ 9 * (|rv mean| / rv stddev / 2 ^ 53 + (1 / 16) ^ n) := by
  have hpos : 0 < rv stddev := lt_of_lt_of_le (by positivity) hs0
  have := normal_moment lib hl he fused fused' mean stddev hm hm1 hs hs0 hs1 hms n (fun x => x) (fun _ => 1) (fun t => hasDerivAt_id t)
    continuous_const rfl
  rw [phi_int 66, sub_zero] at this
  simp only [abs_one, intervalIntegral.integral_const, smul_eq_mul, mul_one] at this
  have q0 := (Phi_bounds (-66)).1
  have q1 := Phi_far
  have k0 : 0 ≤ |rv mean| / rv stddev / 2 ^ 53 := by positivity
  have n0 : (0 : ℝ) < (1 / 16) ^ n := by positivity
  generalize (1 / 16 : ℝ) ^ n = q at *
  generalize |rv mean| / rv stddev / 2 ^ 53 = k at *
  refine this.trans ?_
  norm_num at q1 ⊢
  linarith

/-- C99: and the mean of its square is 1, up to `2^-16 + 2^15 (|mean|/stddev/2^53 + 16^-n)`; so the standard deviation of the numbers returned
is `stddev`. -/
theorem C99_normal_square (lib : MathLib) (hl : LogOk lib) (he : ExpOk lib) (fused fused' : Bool) (mean stddev : F64) (hm : mean.IsFin)
    (hm1 : |rv mean| ≤ 2 ^ 900) (hs : stddev.IsFin) (hs0 : 1 / 2 ^ 900 ≤ rv stddev) (hs1 : rv stddev ≤ 2 ^ 900)
    (hms : |rv mean| ≤ 2 ^ 52 * rv stddev) (n : Nat) :
    |average (2 * n) (ofDraw (normal lib fused fused' mean stddev tape n) fun x => ((x - rv mean) / rv stddev) ^ 2) - 1| ≤
      1 / 2 ^ 16 + 2 ^ 15 * (|rv mean| / rv stddev / 2 ^ 53 + (1 / 16) ^ n) := by
  have hpos : 0 < rv stddev := lt_of_lt_of_le (by positivity) hs0
  have := normal_moment lib hl he fused fused' mean stddev hm hm1 hs hs0 hs1 hms n (fun x => x ^ 2) (fun t => 2 * t) (fun t => by
    have := hasDerivAt_pow 2 t
    simpa using this) (by fun_prop) (by norm_num)
  rw [neg_sq, phi_int2 66, abs_int 66 (by norm_num)] at this
  have q0 := (Phi_bounds (-66)).1
  have q1 := Phi_far
  have p0 := phi_pos 66
  have p1 := phi_far
  have k0 : 0 ≤ |rv mean| / rv stddev / 2 ^ 53 := by positivity
  have n0 : (0 : ℝ) < (1 / 16) ^ n := by positivity
  generalize (1 / 16 : ℝ) ^ n = q at *
  generalize |rv mean| / rv stddev / 2 ^ 53 = k at *
  generalize phi 66 = p at *
  generalize Phi (-66) = P at *
  generalize average _ _ = a at *
  rw [abs_le] at this ⊢
  norm_num at q1 p1 this ⊢
  constructor <;> linarith [this.1, this.2]

set_option maxRecDepth 8000 in
/-- Non-vacuity: with rate 1 the mean of the exponential numbers is 1, with mean 0 and standard deviation 1 that of the squares of the normal
ones is 1. -/
example : ∃ lib, |average (2 * 4) (ofDraw (exponential lib false (F64.ofNat 1) tape 4) fun x => x) - 1| ≤ 1 / 2 ^ 21 ∧
    |average (2 * 10) (ofDraw (normal lib true false (.fin false 0) (F64.ofNat 1) tape 10) fun x => ((x - 0) / 1) ^ 2) - 1| ≤ 1 / 2 ^ 15 := by
  obtain ⟨lib, hl, he⟩ := mathLib_exists
  refine ⟨lib, ?_, ?_⟩
  · have h := C99_exponential_mean lib hl he false (F64.ofNat 1) rate_one.1 (by rw [rate_one.2]; norm_num) (by rw [rate_one.2]; norm_num) 4
    rw [rate_one.2, div_one, div_one] at h
    exact h.trans (by norm_num)
  · have h0 : rv (.fin false 0) = 0 := by rw [rv_pos 0 1074 rfl, Nat.cast_zero, zero_div]
    have hk : (1 : ℝ) ≤ 2 ^ 900 := one_le_pow₀ (by norm_num)
    have a1 : (F64.ofNat 1).IsFin := rate_one.1.1
    have a2 : 1 / 2 ^ 900 ≤ rv (F64.ofNat 1) := by rw [rate_one.2]; exact (div_le_one (by positivity)).mpr hk
    have a3 : rv (F64.ofNat 1) ≤ 2 ^ 900 := by rw [rate_one.2]; exact hk
    have a4 : |rv (.fin false 0)| ≤ 2 ^ 52 * rv (F64.ofNat 1) := by rw [h0, abs_zero, rate_one.2]; positivity
    have a5 : |rv (.fin false 0)| ≤ 2 ^ 900 := by rw [h0, abs_zero]; positivity
    have h := C99_normal_square lib hl he true false (.fin false 0) (F64.ofNat 1) trivial a5 a1 a2 a3 a4 10
    rw [h0, rate_one.2, abs_zero, zero_div, zero_div, zero_add] at h
    exact h.trans (by norm_num)

end Crazy
