/-
C118: means and shares in long samples.
-/
import Verif.Proofs.Sample
import Verif.Props.Independent
import Verif.Props.IdealUintn
import Verif.Props.UniformMoments
import Verif.Props.Moments2
import Mathlib.Analysis.SpecialFunctions.Integrals.Basic
import Mathlib.Tactic.DefEqTransformations
set_option exponentiation.threshold 2200
set_option maxRecDepth 4000
namespace Crazy
open F64 MeasureTheory ProbabilityTheory Set

/-- C118: whatever call of the package (with whatever parameters) is made `N` times on a source of independent, uniform words, and whatever
number in `[0, 1]` is made of each result: the mean over the sample is within `ε` of what one call gives on average, except with
probability `2 exp(-2Nε²)` plus `N` times the probability that one call does not return with its words. -/
theorem C118_mean {α : Type} (next : List U64 → Go (α × List U64)) (m : Nat) (hc : ∀ P, LibCall ⟨next, P⟩ m) (f : α → ℝ)
    (hf : ∀ r, 0 ≤ f r ∧ f r ≤ 1) (N : Nat) (hN : 0 < N) (ε : ℝ) (hε : 0 < ε) :
    prob (N * m) (fun w => ¬ ∃ l rest, results next N w = .ok (l, rest) ∧ |meanOf f l - expect m next f| < ε) ≤
      2 * Real.exp (-(2 * N * ε ^ 2)) + N * (1 - prob m fun w => ∃ r rest, next w = .ok (r, rest)) :=
  sample_mean (hc fun _ => True).reads f hf N hN ε hε

open Classical in
theorem shareIn_eq_mean {α : Type} (S : α → Prop) (l : List α) : meanOf (fun r => if S r then 1 else 0) l = shareIn S l := by
  unfold meanOf shareIn
  refine congrArg (· / (l.length : ℝ)) ?_
  induction l with
  | nil => simp
  | cons r l ih =>
    rw [List.map_cons, List.sum_cons, ih, List.countP_cons]
    by_cases hr : S r <;> simp [hr, add_comm]

open Classical in
theorem expect_indicator {α : Type} (next : List U64 → Go (α × List U64)) (m : Nat) (S : α → Prop) :
    expect m next (fun r => if S r then 1 else 0) = prob m fun w => ∃ r rest, next w = .ok (r, rest) ∧ S r := by
  rw [prob_eq_average, expect_eq]
  refine average_congr fun w _ => ?_
  cases e : next w with
  | error x => rw [if_neg (by rintro ⟨r, rest, h, -⟩; cases h)]; rfl
  | ok q =>
    obtain ⟨r, rest⟩ := q
    show (if S r then (1 : ℝ) else 0) = _
    by_cases hr : S r
    · rw [if_pos hr, if_pos ⟨r, rest, rfl, hr⟩]
    · rw [if_neg hr, if_neg]
      rintro ⟨r', rest', h, h'⟩
      rw [Except.ok.injEq, Prod.mk.injEq] at h
      exact hr (h.1 ▸ h')

/-- C118: and the share of the results that are in `S` is within `ε` of the probability of `S` for one call. -/
theorem C118_share {α : Type} (next : List U64 → Go (α × List U64)) (m : Nat) (hc : ∀ P, LibCall ⟨next, P⟩ m) (S : α → Prop)
    (N : Nat) (hN : 0 < N) (ε : ℝ) (hε : 0 < ε) :
    prob (N * m) (fun w => ¬ ∃ l rest, results next N w = .ok (l, rest) ∧
        |shareIn S l - prob m fun w => ∃ r rest, next w = .ok (r, rest) ∧ S r| < ε) ≤
      2 * Real.exp (-(2 * N * ε ^ 2)) + N * (1 - prob m fun w => ∃ r rest, next w = .ok (r, rest)) := by
  classical
  have h := C118_mean next m hc (fun r => if S r then 1 else 0) (fun r => by split <;> norm_num) N hN ε hε
  rw [expect_indicator] at h
  simp only [shareIn_eq_mean] at h
  exact h

/-- A sample within `ε` of `p` is within `ε + δ` of what `p` is within `δ` of. -/
theorem share_near {α : Type} (next : List U64 → Go (α × List U64)) (m : Nat) (hc : ∀ P, LibCall ⟨next, P⟩ m) (S : α → Prop)
    (N : Nat) (hN : 0 < N) (ε : ℝ) (hε : 0 < ε) (q δ ρ : ℝ) (hq : |(prob m fun w => ∃ r rest, next w = .ok (r, rest) ∧ S r) - q| ≤ δ)
    (hρ : 1 - ρ ≤ prob m fun w => ∃ r rest, next w = .ok (r, rest)) :
    prob (N * m) (fun w => ¬ ∃ l rest, results next N w = .ok (l, rest) ∧ |shareIn S l - q| < ε + δ) ≤
      2 * Real.exp (-(2 * N * ε ^ 2)) + N * ρ := by
  refine (prob_mono fun w _ h => ?_).trans ((C118_share next m hc S N hN ε hε).trans ?_)
  · rintro ⟨l, rest, h1, h2⟩
    refine h ⟨l, rest, h1, ?_⟩
    have := abs_sub_le (shareIn S l) (prob m fun w => ∃ r rest, next w = .ok (r, rest) ∧ S r) q
    linarith
  · have : (N : ℝ) * (1 - prob m fun w => ∃ r rest, next w = .ok (r, rest)) ≤ N * ρ := mul_le_mul_of_nonneg_left (by linarith) (Nat.cast_nonneg _)
    linarith

/-- C118 for `Exponential`: the empirical distribution function at `t`. -/
theorem C118_exponential (lib : MathLib) (hl : LogOk lib) (he : ExpOk lib) (fused : Bool) (rate : F64) (hrate : PosRate rate)
    (h1 : 1 / 2 ^ 900 ≤ rv rate) (h2 : rv rate ≤ 2 ^ 900) (t : ℝ) (ht : 0 ≤ t) (n N : Nat) (hN : 0 < N) (ε : ℝ) (hε : 0 < ε) :
    prob (N * (2 * n)) (fun w => ¬ ∃ l rest, results (exponential lib fused rate tape n) N w = .ok (l, rest) ∧
        |shareIn (AtMost t) l - (1 - Real.exp (-(rv rate * t)))| < ε + (1 / 2 ^ 31 + (1 / 256) ^ n)) ≤
      2 * Real.exp (-(2 * N * ε ^ 2)) + N * (1 / 256) ^ n :=
  share_near _ _ (fun P => LibCall.exponential lib fused rate n P) _ N hN ε hε _ _ _ (C70_exponential lib hl he fused rate hrate h1 h2 t ht n)
    (C70_returns lib he fused rate n)

/-- C118 for `Normal`: the empirical distribution function at `t`. -/
theorem C118_normal (lib : MathLib) (hl : LogOk lib) (he : ExpOk lib) (fused fused' : Bool) (mean stddev : F64) (hm : mean.IsFin)
    (hm1 : |rv mean| ≤ 2 ^ 900) (hs : stddev.IsFin) (hs0 : 1 / 2 ^ 900 ≤ rv stddev) (hs1 : rv stddev ≤ 2 ^ 900) (t : ℝ) (n N : Nat) (hN : 0 < N)
    (ε : ℝ) (hε : 0 < ε) :
    prob (N * (2 * n)) (fun w => ¬ ∃ l rest, results (normal lib fused fused' mean stddev tape n) N w = .ok (l, rest) ∧
        |shareIn (AtMost t) l - (gaussianReal (rv mean) ⟨rv stddev ^ 2, sq_nonneg _⟩).real (Iic t)| <
          ε + (1 / 2 ^ 31 + |rv mean| / rv stddev / 2 ^ 53 + (1 / 16) ^ n)) ≤
      2 * Real.exp (-(2 * N * ε ^ 2)) + N * (1 / 16) ^ n :=
  share_near _ _ (fun P => LibCall.normal lib fused fused' mean stddev n P) _ N hN ε hε _ _ _
    (C71_normal lib hl he fused fused' mean stddev hm hm1 hs hs0 hs1 t n) (C71_returns lib hl he fused fused' mean stddev n)

/-- C118 for `Uintn`: how often the numbers of a set occur. -/
theorem C118_uintn (max : U64) (h0 : max ≠ 0#64) (S : Nat → Prop) [DecidablePred S] (n N : Nat) (hN : 0 < N) (ε : ℝ) (hε : 0 < ε) :
    prob (N * (n + 1)) (fun w => ¬ ∃ l rest, results (RNG.uintn tape n max) N w = .ok (l, rest) ∧
        |shareIn (fun r => S r.toNat) l - (((Finset.range max.toNat).filter S).card / max.toNat : ℝ)| < ε + (1 / 2 ^ 63 + 1 / 2 ^ (n + 1))) ≤
      2 * Real.exp (-(2 * N * ε ^ 2)) + N * (1 / 2 ^ 63 + 1 / 2 ^ (n + 1)) := by
  refine share_near _ _ (fun P => LibCall.uintn n max P) _ N hN ε hε _ _ _ (C73_uintn n max h0 S) ?_
  have h := C73_uintn n max h0 fun _ => True
  have hm : (max.toNat : ℝ) ≠ 0 := Nat.cast_ne_zero.mpr fun h => h0 (BitVec.eq_of_toNat_eq h)
  rw [Finset.filter_true, Finset.card_range, div_self hm] at h
  have e : prob (n + 1) (fun w => ∃ r rest, RNG.uintn tape n max w = .ok (r, rest) ∧ True) = prob (n + 1) fun w => ∃ r rest, RNG.uintn tape n max w = .ok (r, rest) :=
    prob_congr fun w _ => by simp only [and_true]
  rw [e] at h
  linarith [(abs_le.mp h).1]

/-! ### Integration -/

theorem riemann_lip (f : ℝ → ℝ) (L : ℝ) (hL : ∀ x ∈ Icc (0 : ℝ) 1, ∀ y ∈ Icc (0 : ℝ) 1, |f x - f y| ≤ L * |x - y|) (K : Nat) (hK : 0 < K) :
    |avg K (fun m => f (m / K)) - ∫ x in (0 : ℝ)..1, f x| ≤ L / K := by
  have hK' : (0 : ℝ) < K := Nat.cast_pos.mpr hK
  have hL0 : 0 ≤ L := by
    have := (abs_nonneg _).trans (hL 0 (by simp) 1 (by simp))
    simpa using this
  have hcont : ContinuousOn f (Icc 0 1) := by
    have : LipschitzOnWith ⟨L, hL0⟩ f (Icc 0 1) := LipschitzOnWith.of_dist_le_mul fun x hx y hy => hL x hx y hy
    exact this.continuousOn
  have hmem : ∀ m : Nat, m ≤ K → ((m : ℝ) / K) ∈ Icc (0 : ℝ) 1 := fun m hm =>
    ⟨by positivity, (div_le_one hK').mpr (Nat.cast_le.mpr hm)⟩
  have hle : ∀ m : Nat, (m : ℝ) / K ≤ ((m + 1 : Nat) : ℝ) / K := fun m => by
    refine div_le_div_of_nonneg_right ?_ hK'.le
    exact_mod_cast Nat.le_succ m
  have hint : ∀ m < K, IntervalIntegrable f volume ((m : ℝ) / K) (((m + 1 : Nat) : ℝ) / K) := fun m hm => by
    refine (hcont.mono ?_).intervalIntegrable
    rw [uIcc_of_le (hle m)]
    exact Icc_subset_Icc (hmem m hm.le).1 (hmem (m + 1) hm).2
  have hsum := intervalIntegral.sum_integral_adjacent_intervals (a := fun m : Nat => (m : ℝ) / K) (n := K) hint
  simp only [Nat.cast_zero, zero_div, div_self hK'.ne'] at hsum
  rw [← hsum]
  have hstep : (1 : ℝ) / K = ((0 + 1 : Nat) : ℝ) / K - 0 := by simp
  have hpiece : ∀ m ∈ Finset.range K, |f (m / K) / K - ∫ x in ((m : ℝ) / K)..(((m + 1 : Nat) : ℝ) / K), f x| ≤ L / K / K := fun m hm => by
    have hm' := Finset.mem_range.mp hm
    have hw : ((m + 1 : Nat) : ℝ) / K - (m : ℝ) / K = 1 / K := by push_cast; ring
    have e : f (m / K) / K = ∫ x in ((m : ℝ) / K)..(((m + 1 : Nat) : ℝ) / K), f (m / K) := by
      rw [intervalIntegral.integral_const, hw, smul_eq_mul]
      ring
    rw [e, ← intervalIntegral.integral_sub intervalIntegrable_const (hint m hm')]
    have := intervalIntegral.norm_integral_le_of_norm_le_const (a := (m : ℝ) / K) (b := ((m + 1 : Nat) : ℝ) / K) (C := L / K)
      (f := fun x => f (m / K) - f x) fun x hx => by
        rw [uIoc_of_le (hle m)] at hx
        have hx1 : x ∈ Icc (0 : ℝ) 1 := ⟨(hmem m hm'.le).1.trans hx.1.le, hx.2.trans (hmem (m + 1) hm').2⟩
        refine (hL _ (hmem m hm'.le) x hx1).trans ?_
        rw [div_eq_mul_one_div L, ← hw]
        refine mul_le_mul_of_nonneg_left ?_ hL0
        rw [abs_sub_comm, abs_of_nonneg (by linarith [hx.1])]
        linarith [hx.2]
    rw [hw, abs_of_pos (by positivity : (0 : ℝ) < 1 / K)] at this
    refine this.trans (le_of_eq ?_)
    ring
  unfold avg
  rw [Finset.sum_div, ← Finset.sum_sub_distrib]
  refine (Finset.abs_sum_le_sum_abs _ _).trans ((Finset.sum_le_sum hpiece).trans (le_of_eq ?_))
  rw [Finset.sum_const, Finset.card_range, nsmul_eq_mul]
  field_simp

/-- C118, the Monte Carlo method: the mean of `f` over `N` results of `Uniform0_1` is within `ε + L/2^53` of the integral of `f` over
`[0, 1]`, except with probability `2 exp(-2Nε²)`. -/
theorem C118_integral (f : ℝ → ℝ) (hf : ∀ x, 0 ≤ f x ∧ f x ≤ 1) (L : ℝ)
    (hL : ∀ x ∈ Icc (0 : ℝ) 1, ∀ y ∈ Icc (0 : ℝ) 1, |f x - f y| ≤ L * |x - y|) (N : Nat) (hN : 0 < N) (ε : ℝ) (hε : 0 < ε) :
    prob N (fun w => ¬ ∃ l rest, results (uniform01 tape) N w = .ok (l, rest) ∧
      |meanOf (fun x => f (rv x)) l - ∫ x in (0 : ℝ)..1, f x| < ε + L / 2 ^ 53) ≤ 2 * Real.exp (-(2 * N * ε ^ 2)) := by
  have hR := riemann_lip f L hL (2 ^ 53) (by decide)
  have hw := average_word (uniform01 tape) (2 ^ 11) (2 ^ 53) (by decide) (by decide) unit uniform01_word (fun _ _ => trivial) (by decide) f
  have hE : expect 1 (uniform01 tape) (fun x => f (rv x)) = avg (2 ^ 53) fun m => f ((m : ℝ) / (2 ^ 53 : Nat)) := by
    rw [avg_congr (h := fun m => f (rv (unit m))) fun m _ => by rw [rv_unit, cast_pow53], ← hw, expect_eq]
    refine average_congr fun w hlen => ?_
    obtain ⟨x, rfl⟩ := List.length_eq_one_iff.mp hlen
    unfold ofDraw onOk
    rw [uniform01_word x]
    exact (if_pos trivial).symm
  have hret : prob 1 (fun w => ∃ r rest, uniform01 tape w = .ok (r, rest)) = 1 := by
    rw [prob_congr (Q := fun _ => True) fun w hlen => ⟨fun _ => trivial, fun _ => ?_⟩, prob_true]
    obtain ⟨x, rfl⟩ := List.length_eq_one_iff.mp hlen
    exact ⟨_, _, uniform01_word x⟩
  have h := C118_mean (uniform01 tape) 1 (fun P => LibCall.uniform01 P) (fun x => f (rv x)) (fun x => hf (rv x)) N hN ε hε
  rw [hret, sub_self, mul_zero, add_zero, Nat.mul_one, hE] at h
  rw [cast_pow53] at h hR
  refine (prob_mono fun w _ h' => ?_).trans h
  rintro ⟨l, rest, h1, h2⟩
  refine h' ⟨l, rest, h1, ?_⟩
  have := abs_sub_le (meanOf (fun x => f (rv x)) l) (avg (2 ^ 53) fun m => f ((m : ℝ) / 2 ^ 53)) (∫ x in (0 : ℝ)..1, f x)
  linarith

/-! ### The means of the distributions -/

theorem expect_sub {α : Type} (m : Nat) (next : List U64 → Go (α × List U64)) (g : α → ℝ) (c : ℝ) :
    expect m next (fun r => g r - c) = expect m next g - c * prob m fun w => ∃ r rest, next w = .ok (r, rest) := by
  classical
  have e : expect m next g = expect m next (fun r => g r - c) + c * prob m fun w => ∃ r rest, next w = .ok (r, rest) := by
    rw [prob_eq_average, ← average_mul, expect_eq, expect_eq, ← average_add]
    refine average_congr fun w _ => ?_
    cases next w with
    | error e =>
      rw [if_neg (by rintro ⟨r, rest, h⟩; cases h)]
      show (0 : ℝ) = 0 + c * 0
      ring
    | ok q =>
      rw [if_pos ⟨q.1, q.2, rfl⟩]
      show g q.1 = g q.1 - c + c * 1
      ring
  rw [e]
  ring

theorem expect_sq {α : Type} (m : Nat) (next : List U64 → Go (α × List U64)) (g : α → ℝ) (c : ℝ) :
    expect m next (fun r => (g r - c) ^ 2) = expect m next (fun r => g r ^ 2) - 2 * c * expect m next g +
      c ^ 2 * prob m fun w => ∃ r rest, next w = .ok (r, rest) := by
  have h := expect_sub m next (fun r => (g r - c) ^ 2) (c ^ 2)
  have e : expect m next (fun r => (g r - c) ^ 2 - c ^ 2) = expect m next (fun r => g r ^ 2) + -(2 * c) * expect m next g := by
    rw [expect_eq, expect_eq, expect_eq, ← average_mul, ← average_add]
    refine average_congr fun w _ => ?_
    cases next w with
    | error e =>
      show (0 : ℝ) = 0 + -(2 * c) * 0
      ring
    | ok q =>
      show (g q.1 - c) ^ 2 - c ^ 2 = g q.1 ^ 2 + -(2 * c) * g q.1
      ring
  rw [e] at h
  linarith

/-- A number made of the float a call returns, 0 if that is not finite. -/
theorem expect_ofDraw (m : Nat) (next : List U64 → Go (F64 × List U64)) (g : ℝ → ℝ) (f : F64 → ℝ) (h : ∀ r, f r = g (rv r) ∨ (¬ r.IsFin ∧ f r = 0))
    (h' : ∀ r, ¬ r.IsFin → f r = 0) : expect m next f = average m (ofDraw next g) := by
  classical
  rw [expect_eq]
  refine average_congr fun w _ => ?_
  unfold ofDraw
  cases next w with
  | error e => rfl
  | ok q =>
    obtain ⟨r, rest⟩ := q
    show f r = if r.IsFin then g (rv r) else 0
    by_cases hf : r.IsFin
    · rw [if_pos hf]
      exact (h r).resolve_right fun hh => hh.1 hf
    · rw [if_neg hf]
      exact h' r hf

theorem rv_not_fin (r : F64) (h : ¬ r.IsFin) : rv r = 0 := by
  match r, h with
  | .fin _ _, h => exact absurd trivial h
  | .inf _, _ => exact Rat.cast_zero
  | .nan, _ => exact Rat.cast_zero

/-- C118 for the mean of `Exponential`: over `N` results it is within `ε / rate` of `1 / rate`, except with a probability of about `1 / (N ε²)`. -/
theorem C118_exponential_mean (lib : MathLib) (hl : LogOk lib) (he : ExpOk lib) (fused : Bool) (rate : F64) (hrate : PosRate rate)
    (h1 : 1 / 2 ^ 900 ≤ rv rate) (h2 : rv rate ≤ 2 ^ 900) (n : Nat) (hn : 4 ≤ n) (N : Nat) (hN : 0 < N) (ε : ℝ) (hε : 0 < ε) :
    prob (N * (2 * n)) (fun w => ¬ ∃ l rest, results (exponential lib fused rate tape n) N w = .ok (l, rest) ∧
        |meanOf rv l - 1 / rv rate| < ε / rv rate) ≤
      ((1 + 1 / 2 ^ 14) / N + 1 / 2 ^ 40) / ε ^ 2 + N * (1 / 256) ^ n := by
  have hpos : 0 < rv rate := hrate.2.1
  have hN' : (0 : ℝ) < N := Nat.cast_pos.mpr hN
  have h := sample_chebyshev (LibCall.exponential lib fused rate n fun _ => True).reads rv (1 / rv rate) N hN (ε / rv rate) (div_pos hε hpos)
  have m1 := C99_exponential_mean lib hl he fused rate hrate h1 h2 n
  have m2 := C99_exponential_square lib hl he fused rate hrate h1 h2 n
  have hq := C70_returns lib he fused rate n
  have hq1 := prob_le_one (2 * n) fun w => ∃ r rest, exponential lib fused rate tape n w = .ok (r, rest)
  have hsmall : (1 / 256 : ℝ) ^ n ≤ (1 / 256) ^ 4 := pow_le_pow_of_le_one (by norm_num) (by norm_num) hn
  have hs0 : (0 : ℝ) < (1 / 256) ^ n := by positivity
  rw [expect_sub, expect_sq, expect_ofDraw (2 * n) _ (fun x => x) rv (fun _ => Or.inl rfl) rv_not_fin,
    expect_ofDraw (2 * n) _ (fun x => x ^ 2) (fun r => rv r ^ 2) (fun _ => Or.inl rfl) fun r hr => by rw [rv_not_fin r hr]; norm_num] at h
  refine h.trans ?_
  clear h
  generalize (prob (2 * n) fun w => ∃ r rest, exponential lib fused rate tape n w = .ok (r, rest)) = q at *
  generalize average (2 * n) (ofDraw (exponential lib fused rate tape n) fun x => x) = a at *
  generalize average (2 * n) (ofDraw (exponential lib fused rate tape n) fun x => x ^ 2) = b at *
  generalize (1 / 256 : ℝ) ^ n = δ at *
  clear h1 h2 hrate
  generalize rv rate = R at *
  have hd : δ ≤ 1 / 2 ^ 32 := hsmall.trans (by norm_num)
  have hlast : (N : ℝ) * (1 - q) ≤ N * δ := mul_le_mul_of_nonneg_left (by linarith) hN'.le
  -- in units of `1 / R`
  obtain ⟨A, hA⟩ : ∃ A, A = a * R := ⟨_, rfl⟩
  obtain ⟨B, hB⟩ : ∃ B, B = b * R ^ 2 := ⟨_, rfl⟩
  have ha : a = A / R := by rw [hA]; field_simp
  have hb : b = B / R ^ 2 := by rw [hB]; field_simp
  subst ha hb
  have k1 : |A - 1| ≤ 1 / 2 ^ 21 := by
    rw [← sub_div, abs_div, abs_of_pos hpos] at m1
    have := (div_le_div_iff_of_pos_right hpos).mp m1
    refine this.trans ?_
    norm_num at hd ⊢
    linarith
  have k2 : |B - 2| ≤ 1 / 2 ^ 15 + 1 / 2 ^ 17 := by
    have hp2 : 0 < R ^ 2 := by positivity
    rw [← sub_div, abs_div, abs_of_pos hp2] at m2
    have := (div_le_div_iff_of_pos_right hp2).mp m2
    refine this.trans ?_
    norm_num at hd ⊢
    linarith
  have e1 : (((B / R ^ 2 - 2 * (1 / R) * (A / R) + (1 / R) ^ 2 * q) / N + (A / R - 1 / R * q) ^ 2) / (ε / R) ^ 2) =
      ((B - 2 * A + q) / N + (A - q) ^ 2) / ε ^ 2 := by field_simp
  rw [e1]
  have k3 := abs_le.mp k1
  have k4 := abs_le.mp k2
  have k5 : B - 2 * A + q ≤ 1 + 1 / 2 ^ 14 := by
    norm_num at k3 k4 ⊢
    linarith
  have k6 : (A - q) ^ 2 ≤ 1 / 2 ^ 40 := by
    have : |A - q| ≤ 1 / 2 ^ 20 := by
      rw [abs_le]
      norm_num at k3 hd ⊢
      constructor <;> linarith
    calc (A - q) ^ 2 = |A - q| ^ 2 := (sq_abs _).symm
      _ ≤ (1 / 2 ^ 20) ^ 2 := pow_le_pow_left₀ (abs_nonneg _) this 2
      _ = 1 / 2 ^ 40 := by norm_num
  refine add_le_add (div_le_div_of_nonneg_right (add_le_add (div_le_div_of_nonneg_right k5 hN'.le) k6) (by positivity)) hlast

/-- C118 for the mean of `Normal`: over `N` results it is within `ε` standard deviations of the mean, except with a probability of about `1 / (N ε²)`. -/
theorem C118_normal_mean (lib : MathLib) (hl : LogOk lib) (he : ExpOk lib) (fused fused' : Bool) (mean stddev : F64) (hm : mean.IsFin)
    (hm1 : |rv mean| ≤ 2 ^ 900) (hs : stddev.IsFin) (hs0 : 1 / 2 ^ 900 ≤ rv stddev) (hs1 : rv stddev ≤ 2 ^ 900)
    (hms : |rv mean| ≤ 2 ^ 52 * rv stddev) (n N : Nat) (hN : 0 < N) (ε : ℝ) (hε : 0 < ε) (δ : ℝ) (hδ : δ = |rv mean| / rv stddev / 2 ^ 53 + (1 / 16) ^ n) :
    prob (N * (2 * n)) (fun w => ¬ ∃ l rest, results (normal lib fused fused' mean stddev tape n) N w = .ok (l, rest) ∧
        |meanOf (standardised mean stddev) l| < ε) ≤
      ((1 + (1 / 2 ^ 16 + 2 ^ 15 * δ)) / N + (1 / 2 ^ 22 + 2 ^ 9 * δ) ^ 2) / ε ^ 2 + N * (1 / 16) ^ n := by
  classical
  have hN' : (0 : ℝ) < N := Nat.cast_pos.mpr hN
  have h := sample_chebyshev (LibCall.normal lib fused fused' mean stddev n fun _ => True).reads (standardised mean stddev) 0 N hN ε hε
  have m1 := C99_normal_mean lib hl he fused fused' mean stddev hm hm1 hs hs0 hs1 hms n
  have m2 := C99_normal_square lib hl he fused fused' mean stddev hm hm1 hs hs0 hs1 hms n
  have hq := C71_returns lib hl he fused fused' mean stddev n
  have hst : ∀ r : F64, r.IsFin → standardised mean stddev r = (rv r - rv mean) / rv stddev := fun r hr => if_pos hr
  have hst' : ∀ r : F64, ¬ r.IsFin → standardised mean stddev r = 0 := fun r hr => if_neg hr
  simp only [sub_zero] at h
  rw [expect_ofDraw (2 * n) _ (fun x => (x - rv mean) / rv stddev) (standardised mean stddev)
      (fun r => (em r.IsFin).imp (hst r) fun hr => ⟨hr, hst' r hr⟩) hst',
    expect_ofDraw (2 * n) _ (fun x => ((x - rv mean) / rv stddev) ^ 2) (fun r => standardised mean stddev r ^ 2)
      (fun r => (em r.IsFin).imp (fun hr => by rw [hst r hr]) fun hr => ⟨hr, by rw [hst' r hr]; norm_num⟩) fun r hr => by rw [hst' r hr]; norm_num] at h
  refine h.trans ?_
  rw [← hδ] at m1 m2
  have hlast : (N : ℝ) * (1 - prob (2 * n) fun w => ∃ r rest, normal lib fused fused' mean stddev tape n w = .ok (r, rest)) ≤ N * (1 / 16) ^ n :=
    mul_le_mul_of_nonneg_left (by linarith) hN'.le
  refine add_le_add (div_le_div_of_nonneg_right (add_le_add (div_le_div_of_nonneg_right ?_ hN'.le) ?_) (by positivity)) hlast
  · linarith [(abs_le.mp m2).2]
  · rw [← sq_abs]
    exact pow_le_pow_left₀ (abs_nonneg _) m1 2

/-! ### Non-vacuity -/

/-- The mean of a million results of `Uniform0_1` (cut to [0, 1], where they are anyway) is within a hundredth of 1/2, except with a probability
that is at most `2 exp(-162)`. -/
example : prob 1000000 (fun w => ¬ ∃ l rest, results (uniform01 tape) 1000000 w = .ok (l, rest) ∧
    |meanOf (fun x => max 0 (min 1 (rv x))) l - 1 / 2| < 1 / 100) ≤ 2 * Real.exp (-162) := by
  have hcut : ∀ x ∈ Icc (0 : ℝ) 1, max 0 (min 1 x) = x := fun x hx => by rw [min_eq_right hx.2, max_eq_right hx.1]
  have h := C118_integral (fun x => max 0 (min 1 x)) (fun x => ⟨le_max_left _ _, max_le zero_le_one (min_le_left _ _)⟩) 1
    (fun x hx y hy => by rw [hcut x hx, hcut y hy, one_mul]) 1000000 (by decide) (9 / 1000) (by norm_num)
  have hi : (∫ x in (0 : ℝ)..1, max 0 (min 1 x)) = 1 / 2 := by
    rw [intervalIntegral.integral_congr (g := fun x => x) fun x hx => hcut x (by rwa [uIcc_of_le zero_le_one] at hx), integral_id]
    norm_num
  rw [hi] at h
  have he : (-(2 * ((1000000 : Nat) : ℝ) * (9 / 1000) ^ 2)) = -162 := by norm_num
  rw [he] at h
  refine (prob_mono fun w _ h' => ?_).trans h
  rintro ⟨l, rest, h1, h2⟩
  exact h' ⟨l, rest, h1, h2.trans (by norm_num)⟩

/-- Of ten thousand results of `Exponential{Rate: 1}`, about half are at most the median, `log 2`. -/
example : ∃ lib, prob (10000 * (2 * 8)) (fun w => ¬ ∃ l rest, results (exponential lib false (F64.ofNat 1) tape 8) 10000 w = .ok (l, rest) ∧
    |shareIn (AtMost (Real.log 2)) l - 1 / 2| < 3 / 100) ≤ 2 * Real.exp (-8) + 1 / 10 ^ 15 := by
  obtain ⟨lib, hl, he⟩ := mathLib_exists
  refine ⟨lib, ?_⟩
  have h := C118_exponential lib hl he false (F64.ofNat 1) rate_one.1 (by rw [rate_one.2]; norm_num) (by rw [rate_one.2]; norm_num)
    (Real.log 2) (Real.log_nonneg (by norm_num)) 8 10000 (by decide) (1 / 50) (by norm_num)
  rw [rate_one.2, one_mul, Real.exp_neg, Real.exp_log (by norm_num)] at h
  have h3 : (1 : ℝ) - 2⁻¹ = 1 / 2 := by norm_num
  have h4 : (-(2 * ((10000 : Nat) : ℝ) * (1 / 50) ^ 2)) = -8 := by norm_num
  rw [h3, h4] at h
  refine (prob_mono fun w _ h' => ?_).trans (h.trans ?_)
  · rintro ⟨l, rest, h1, h2⟩
    exact h' ⟨l, rest, h1, h2.trans (by norm_num)⟩
  · have : ((10000 : Nat) : ℝ) * (1 / 256) ^ 8 ≤ 1 / 10 ^ 15 := by norm_num
    linarith

/-- The mean of a million results of `Exponential{Rate: 1}` is within a hundredth of 1, except with a probability of little more than a hundredth. -/
example : ∃ lib, prob (1000000 * (2 * 8)) (fun w => ¬ ∃ l rest, results (exponential lib false (F64.ofNat 1) tape 8) 1000000 w = .ok (l, rest) ∧
    |meanOf rv l - 1| < 1 / 100) ≤ 11 / 1000 := by
  obtain ⟨lib, hl, he⟩ := mathLib_exists
  refine ⟨lib, ?_⟩
  have h := C118_exponential_mean lib hl he false (F64.ofNat 1) rate_one.1 (by rw [rate_one.2]; norm_num) (by rw [rate_one.2]; norm_num)
    8 (by decide) 1000000 (by decide) (1 / 100) (by norm_num)
  rw [rate_one.2, div_one, div_one] at h
  exact h.trans (by norm_num)

/-- The mean of a million results of `Normal{Mean: 1, StdDev: 1}` is within a hundredth of 1. -/
example : ∃ lib, prob (1000000 * (2 * 8)) (fun w => ¬ ∃ l rest, results (normal lib true false (F64.ofNat 1) (F64.ofNat 1) tape 8) 1000000 w = .ok (l, rest) ∧
    |meanOf (standardised (F64.ofNat 1) (F64.ofNat 1)) l| < 1 / 100) ≤ 11 / 1000 := by
  obtain ⟨lib, hl, he⟩ := mathLib_exists
  refine ⟨lib, ?_⟩
  have a1 : (F64.ofNat 1).IsFin := rate_one.1.1
  have a2 : rv (F64.ofNat 1) = 1 := rate_one.2
  have h := C118_normal_mean lib hl he true false (F64.ofNat 1) (F64.ofNat 1) a1 (by rw [a2]; norm_num) a1 (by rw [a2]; norm_num) (by rw [a2]; norm_num)
    (by rw [a2]; norm_num) 8 1000000 (by decide) (1 / 100) (by norm_num) _ rfl
  rw [a2] at h
  exact h.trans (by norm_num)

end Crazy
