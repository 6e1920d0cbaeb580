/-
C120: the whole histogram, and the whole distribution function, of a long sample.
-/
import Verif.Props.Sample
import Verif.Props.UniformDist
import Mathlib.Probability.CDF
set_option exponentiation.threshold 2200
set_option maxRecDepth 4000
namespace Crazy
open F64 MeasureTheory ProbabilityTheory Set

/-- C120: whatever call of the package is made `N` times on a source of independent, uniform words, and whatever `k` sets of results are looked at:
the share of the results in each of the sets is within `ε` of the set's probability for one call, for all the sets together, except with probability
`2k exp(-2Nε²)` plus `N` times the probability that one call does not return with its words. -/
theorem C120_sets {α : Type} (next : List U64 → Go (α × List U64)) (m : Nat) (hc : ∀ P, LibCall ⟨next, P⟩ m) (k : Nat) (S : Nat → α → Prop)
    (N : Nat) (hN : 0 < N) (ε : ℝ) (hε : 0 < ε) :
    prob (N * m) (fun w => ¬ ∃ l rest, results next N w = .ok (l, rest) ∧
        ∀ j < k, |shareIn (S j) l - prob m fun w => ∃ r rest, next w = .ok (r, rest) ∧ S j r| < ε) ≤
      k * (2 * Real.exp (-(2 * N * ε ^ 2))) + N * (1 - prob m fun w => ∃ r rest, next w = .ok (r, rest)) := by
  classical
  have h := (hc fun _ => True).reads
  have hdev : prob (N * m) (fun w => ∃ l rest, results next N w = .ok (l, rest) ∧
      ¬ ∀ j < k, |shareIn (S j) l - prob m fun w => ∃ r rest, next w = .ok (r, rest) ∧ S j r| < ε) ≤ k * (2 * Real.exp (-(2 * N * ε ^ 2))) := by
    induction k with
    | zero =>
      rw [prob_congr (Q := fun _ => False) fun w _ => ⟨?_, False.elim⟩, prob_false]
      · simp
      · rintro ⟨l, rest, -, h⟩
        exact h fun j hj => absurd hj (Nat.not_lt_zero j)
    | succ k ih =>
      have hs := sample_deviates h (fun r => if S k r then (1 : ℝ) else 0) (fun r => by split <;> norm_num) N hN ε hε
      rw [expect_indicator] at hs
      simp only [shareIn_eq_mean] at hs
      refine (le_trans (prob_mono fun w _ hw => ?_) ((prob_union (N * m) _ _).trans (add_le_add ih hs))).trans (le_of_eq (by push_cast; ring))
      obtain ⟨l, rest, hl, hn⟩ := hw
      by_cases hk : |shareIn (S k) l - prob m fun w => ∃ r rest, next w = .ok (r, rest) ∧ S k r| < ε
      · refine Or.inl ⟨l, rest, hl, fun hall => hn fun j hj => ?_⟩
        rcases Nat.lt_succ_iff_lt_or_eq.mp hj with hj | hj
        · exact hall j hj
        · rw [hj]; exact hk
      · exact Or.inr ⟨l, rest, hl, hk⟩
  refine le_trans (prob_mono fun w _ hn => ?_) ((prob_union (N * m) _ _).trans (add_le_add hdev (sample_returns h N)))
  by_cases hex : ∃ l rest, results next N w = .ok (l, rest)
  · obtain ⟨l, rest, hl⟩ := hex
    exact Or.inl ⟨l, rest, hl, fun hh => hn ⟨l, rest, hl, hh⟩⟩
  · exact Or.inr hex

/-- C120 for `Uintn`: the whole histogram. -/
theorem C120_uintn (max : U64) (h0 : max ≠ 0#64) (n N : Nat) (hN : 0 < N) (ε : ℝ) (hε : 0 < ε) :
    prob (N * (n + 1)) (fun w => ¬ ∃ l rest, results (RNG.uintn tape n max) N w = .ok (l, rest) ∧
        ∀ j < max.toNat, |shareIn (fun r => r.toNat = j) l - 1 / max.toNat| < ε + (1 / 2 ^ 63 + 1 / 2 ^ (n + 1))) ≤
      max.toNat * (2 * Real.exp (-(2 * N * ε ^ 2))) + N * (1 / 2 ^ 63 + 1 / 2 ^ (n + 1)) := by
  have h := C120_sets (RNG.uintn tape n max) (n + 1) (fun P => LibCall.uintn n max P) max.toNat (fun j r => r.toNat = j) N hN ε hε
  have hm : (max.toNat : ℝ) ≠ 0 := Nat.cast_ne_zero.mpr fun h => h0 (BitVec.eq_of_toNat_eq h)
  refine (prob_mono fun w _ h' => ?_).trans (h.trans (add_le_add le_rfl (mul_le_mul_of_nonneg_left ?_ (Nat.cast_nonneg _))))
  · rintro ⟨l, rest, h1, h2⟩
    refine h' ⟨l, rest, h1, fun j hj => ?_⟩
    have e := C73_uintn n max h0 (· = j)
    rw [show ((Finset.range max.toNat).filter (· = j)) = {j} by
      ext x
      rw [Finset.mem_filter, Finset.mem_singleton, Finset.mem_range]
      exact ⟨fun h => h.2, fun h => ⟨h ▸ hj, h⟩⟩, Finset.card_singleton, Nat.cast_one] at e
    have := h2 j hj
    have := abs_sub_le (shareIn (fun r : U64 => r.toNat = j) l) (prob (n + 1) fun w => ∃ r rest, RNG.uintn tape n max w = .ok (r, rest) ∧ r.toNat = j) (1 / max.toNat)
    linarith
  · have e := C73_uintn n max h0 fun _ => True
    rw [Finset.filter_true, Finset.card_range, div_self hm] at e
    have e' : prob (n + 1) (fun w => ∃ r rest, RNG.uintn tape n max w = .ok (r, rest) ∧ True) = prob (n + 1) fun w => ∃ r rest, RNG.uintn tape n max w = .ok (r, rest) :=
      prob_congr fun w _ => by simp only [and_true]
    rw [e'] at e
    linarith [(abs_le.mp e).1]

/-! ### Distribution functions -/

theorem shareIn_mono {α : Type} {S T : α → Prop} (h : ∀ r, S r → T r) (l : List α) : shareIn S l ≤ shareIn T l := by
  classical
  unfold shareIn
  refine div_le_div_of_nonneg_right (Nat.cast_le.mpr ?_) (Nat.cast_nonneg _)
  exact List.countP_mono_left fun r _ hr => by simpa using h r (by simpa using hr)

theorem shareIn_nonneg {α : Type} (S : α → Prop) (l : List α) : 0 ≤ shareIn S l := by
  unfold shareIn
  positivity

theorem shareIn_le_one {α : Type} (S : α → Prop) (l : List α) : shareIn S l ≤ 1 := by
  unfold shareIn
  exact div_le_one_of_le₀ (Nat.cast_le.mpr List.countP_le_length) (Nat.cast_nonneg _)

/-- From a grid of `k` steps to all `t`. -/
theorem grid (F G : ℝ → ℝ) (hF : Monotone F) (hF0 : ∀ t, 0 ≤ F t) (hF1 : ∀ t, F t ≤ 1) (hG : Monotone G) (hG0 : ∀ t, 0 ≤ G t) (hG1 : ∀ t, G t ≤ 1)
    (k : Nat) (hk : 0 < k) (x : Nat → ℝ) (hx : ∀ j < k - 1, F (x j) = (j + 1 : ℝ) / k) (η : ℝ) (hη : 0 < η) (h : ∀ j < k - 1, |G (x j) - F (x j)| < η) (t : ℝ) :
    |G t - F t| < η + 1 / k := by
  have hk' : (0 : ℝ) < k := Nat.cast_pos.mpr hk
  -- the cell in which `F t` is
  obtain ⟨i, hi⟩ : ∃ i, i = ⌊F t * k⌋₊ := ⟨_, rfl⟩
  have h0 : 0 ≤ F t * k := mul_nonneg (hF0 t) hk'.le
  have h1 : (i : ℝ) ≤ F t * k := by rw [hi]; exact Nat.floor_le h0
  have h2 : F t * k < i + 1 := by rw [hi]; exact Nat.lt_floor_add_one _
  have h1' : (i : ℝ) / k ≤ F t := (div_le_iff₀ hk').mpr h1
  have h2' : F t < (i + 1 : ℝ) / k := (lt_div_iff₀ hk').mpr h2
  have e : (i + 1 : ℝ) / k = i / k + 1 / k := add_div _ _ _
  rw [abs_lt]
  constructor
  · -- from below: the grid point before
    rcases Nat.lt_or_ge i 2 with hi2 | hi2
    · by_cases hi0 : i = 0
      · rw [hi0] at h2' e
        simp only [Nat.cast_zero, zero_add] at h2'
        linarith [hG0 t]
      · have hi1 : i = 1 := by omega
        by_cases hk1 : k = 1
        · subst hk1
          have := hF1 t
          have := hG0 t
          norm_num
          linarith
        · have hx0 := hx 0 (by omega)
          have hg := (abs_lt.mp (h 0 (by omega))).1
          rw [hx0] at hg
          have hle : x 0 ≤ t ∨ F t = (1 : ℝ) / k := by
            rcases le_or_gt (x 0) t with hle | hlt
            · exact Or.inl hle
            · refine Or.inr (le_antisymm ?_ ?_)
              · have := hF hlt.le
                rw [hx0] at this
                simpa using this
              · rw [hi1] at h1'
                simpa using h1'
          rcases hle with hle | hle
          · have := hG hle
            rw [hi1] at h2' e
            push_cast at *
            simp only [zero_add] at hg
            linarith
          · rw [hle]
            linarith [hG0 t]
    · -- `i - 1 ≥ 1`
      obtain ⟨j, rfl⟩ : ∃ j, i = j + 2 := ⟨i - 2, by omega⟩
      have hjk : j + 2 ≤ k := by
        have : ((j + 2 : Nat) : ℝ) ≤ k := h1.trans (by nlinarith [hF1 t])
        exact_mod_cast this
      by_cases hlast : j + 1 < k - 1
      · have hxj := hx (j + 1) hlast
        have hg := (abs_lt.mp (h (j + 1) hlast)).1
        rcases le_or_gt (x (j + 1)) t with hle | hlt
        · have := hG hle
          rw [hxj] at hg
          push_cast at *
          have e3 : ((j : ℝ) + 1 + 1) / k = (j + 2) / k := by ring
          rw [e3] at hg
          linarith
        · -- then `F t` is the grid value itself
          have hle := hF hlt.le
          rw [hxj] at hle
          have hxj0 := hx j (by omega)
          have hg0 := (abs_lt.mp (h j (by omega))).1
          have hjt : x j ≤ t := by
            by_contra hc
            have := hF (not_le.mp hc).le
            rw [hxj0] at this
            have h5 : ((j + 2 : Nat) : ℝ) / k ≤ (j + 1) / k := h1'.trans this
            rw [div_le_div_iff_of_pos_right hk'] at h5
            push_cast at h5
            linarith
          have := hG hjt
          rw [hxj0] at hg0
          push_cast at *
          have e4 : ((j : ℝ) + 1 + 1) / k = (j + 1) / k + 1 / k := by ring
          rw [e4] at hle
          linarith
      · have hxj0 := hx j (by omega)
        have hg0 := (abs_lt.mp (h j (by omega))).1
        have hjt : x j ≤ t := by
          by_contra hc
          have := hF (not_le.mp hc).le
          rw [hxj0] at this
          have h5 : ((j + 2 : Nat) : ℝ) / k ≤ (j + 1) / k := h1'.trans this
          rw [div_le_div_iff_of_pos_right hk'] at h5
          push_cast at h5
          linarith
        have := hG hjt
        rw [hxj0] at hg0
        have hkj : k = j + 2 := by omega
        have h6 : ((j : ℝ) + 1) / k = 1 - 1 / k := by
          rw [hkj]
          push_cast
          field_simp
          ring
        rw [h6] at hg0
        linarith [hF1 t]
  · -- from above: the grid point after
    by_cases hlast : i < k - 1
    · have hxi := hx i hlast
      have hg := (abs_lt.mp (h i hlast)).2
      have hle : t ≤ x i := by
        by_contra hc
        have := hF (not_le.mp hc).le
        rw [hxi] at this
        linarith
      have := hG hle
      rw [hxi] at hg
      linarith
    · have : ((k - 1 : Nat) : ℝ) ≤ i := Nat.cast_le.mpr (by omega)
      rw [Nat.cast_sub hk, Nat.cast_one] at this
      have h7 : ((k : ℝ) - 1) / k ≤ i / k := div_le_div_of_nonneg_right this hk'.le
      have h8 : ((k : ℝ) - 1) / k = 1 - 1 / k := by field_simp
      rw [h8] at h7
      linarith [hG1 t]

theorem AtMost.mono {s t : ℝ} (h : s ≤ t) (r : F64) (hr : AtMost s r) : AtMost t r :=
  hr.imp_right fun h' => ⟨h'.1, h'.2.trans h⟩

/-- All of the distribution function, from what single calls do at the points of a grid. -/
theorem sample_cdf (next : List U64 → Go (F64 × List U64)) (m : Nat) (hc : ∀ P, LibCall ⟨next, P⟩ m) (F : ℝ → ℝ) (hF : Monotone F) (hF0 : ∀ t, 0 ≤ F t)
    (hF1 : ∀ t, F t ≤ 1) (k : Nat) (hk : 0 < k) (x : Nat → ℝ) (hx : ∀ j < k - 1, F (x j) = (j + 1 : ℝ) / k) (δ ρ : ℝ) (hδ : 0 ≤ δ)
    (hq : ∀ j < k - 1, |(prob m fun w => ∃ r rest, next w = .ok (r, rest) ∧ AtMost (x j) r) - F (x j)| ≤ δ)
    (hρ : 1 - ρ ≤ prob m fun w => ∃ r rest, next w = .ok (r, rest)) (N : Nat) (hN : 0 < N) (ε : ℝ) (hε : 0 < ε) :
    prob (N * m) (fun w => ¬ ∃ l rest, results next N w = .ok (l, rest) ∧ ∀ t, |shareIn (AtMost t) l - F t| < ε + δ + 1 / k) ≤
      (k - 1 : Nat) * (2 * Real.exp (-(2 * N * ε ^ 2))) + N * ρ := by
  refine (prob_mono fun w _ h' => ?_).trans ((C120_sets next m hc (k - 1) (fun j => AtMost (x j)) N hN ε hε).trans
    (add_le_add le_rfl (mul_le_mul_of_nonneg_left (by linarith) (Nat.cast_nonneg _))))
  rintro ⟨l, rest, h1, h2⟩
  refine h' ⟨l, rest, h1, grid F (fun t => shareIn (AtMost t) l) hF hF0 hF1 (fun s t hst => shareIn_mono (AtMost.mono hst) l)
    (fun t => shareIn_nonneg _ l) (fun t => shareIn_le_one _ l) k hk x hx (ε + δ) (by linarith) fun j hj => ?_⟩
  have := h2 j hj
  have := hq j hj
  have := abs_sub_le (shareIn (AtMost (x j)) l) (prob m fun w => ∃ r rest, next w = .ok (r, rest) ∧ AtMost (x j) r) (F (x j))
  linarith

/-- C120 for `Exponential`: the shares of the results at most `t` are near `1 - exp(-rate t)`, for all `t` together. -/
theorem C120_exponential (lib : MathLib) (hl : LogOk lib) (he : ExpOk lib) (fused : Bool) (rate : F64) (hrate : PosRate rate)
    (h1 : 1 / 2 ^ 900 ≤ rv rate) (h2 : rv rate ≤ 2 ^ 900) (n N : Nat) (hN : 0 < N) (k : Nat) (hk : 0 < k) (ε : ℝ) (hε : 0 < ε) :
    prob (N * (2 * n)) (fun w => ¬ ∃ l rest, results (exponential lib fused rate tape n) N w = .ok (l, rest) ∧
        ∀ t, |shareIn (AtMost t) l - (1 - Real.exp (-(rv rate * max 0 t)))| < ε + (1 / 2 ^ 31 + (1 / 256) ^ n) + 1 / k) ≤
      (k - 1 : Nat) * (2 * Real.exp (-(2 * N * ε ^ 2))) + N * (1 / 256) ^ n := by
  have hpos : 0 < rv rate := hrate.2.1
  have hk' : (0 : ℝ) < k := Nat.cast_pos.mpr hk
  have hx : ∀ j : Nat, j < k - 1 → 0 < 1 - (j + 1 : ℝ) / k ∧ 1 - (j + 1 : ℝ) / k ≤ 1 := fun j hj => by
    have : ((j + 1 : Nat) : ℝ) < k := Nat.cast_lt.mpr (by omega)
    rw [Nat.cast_add, Nat.cast_one] at this
    have h3 : (j + 1 : ℝ) / k < 1 := (div_lt_one hk').mpr this
    have h4 : (0 : ℝ) ≤ (j + 1 : ℝ) / k := by positivity
    constructor <;> linarith
  have hx0 : ∀ j : Nat, j < k - 1 → 0 ≤ -Real.log (1 - (j + 1 : ℝ) / k) / rv rate := fun j hj =>
    div_nonneg (neg_nonneg.mpr (Real.log_nonpos (hx j hj).1.le (hx j hj).2)) hpos.le
  have hFx : ∀ j : Nat, j < k - 1 → 1 - Real.exp (-(rv rate * max 0 (-Real.log (1 - (j + 1 : ℝ) / k) / rv rate))) = (j + 1 : ℝ) / k := fun j hj => by
    rw [max_eq_right (hx0 j hj), mul_div_cancel₀ _ hpos.ne', show -(-Real.log (1 - (j + 1 : ℝ) / k)) = Real.log (1 - (j + 1 : ℝ) / k) from _root_.neg_neg _, Real.exp_log (hx j hj).1]
    ring
  refine sample_cdf _ _ (fun P => LibCall.exponential lib fused rate n P) (fun t => 1 - Real.exp (-(rv rate * max 0 t))) ?_ ?_ ?_ k hk
    (fun j => -Real.log (1 - (j + 1 : ℝ) / k) / rv rate) hFx (1 / 2 ^ 31 + (1 / 256) ^ n) _ (by positivity) ?_ (C70_returns lib he fused rate n) N hN ε hε
  · intro s t hst
    have : Real.exp (-(rv rate * max 0 t)) ≤ Real.exp (-(rv rate * max 0 s)) :=
      Real.exp_le_exp.mpr (neg_le_neg (mul_le_mul_of_nonneg_left (max_le_max le_rfl hst) hpos.le))
    dsimp only
    linarith
  · intro t
    have : Real.exp (-(rv rate * max 0 t)) ≤ 1 := Real.exp_le_one_iff.mpr (neg_nonpos.mpr (mul_nonneg hpos.le (le_max_left _ _)))
    linarith
  · intro t
    linarith [Real.exp_pos (-(rv rate * max 0 t))]
  · intro j hj
    have h := C70_exponential lib hl he fused rate hrate h1 h2 _ (hx0 j hj) n
    rw [max_eq_right (hx0 j hj)]
    exact h

/-- C120 for `Normal`: the shares of the results at most `t` are near the normal distribution, for all `t` together. -/
theorem C120_normal (lib : MathLib) (hl : LogOk lib) (he : ExpOk lib) (fused fused' : Bool) (mean stddev : F64) (hm : mean.IsFin)
    (hm1 : |rv mean| ≤ 2 ^ 900) (hs : stddev.IsFin) (hs0 : 1 / 2 ^ 900 ≤ rv stddev) (hs1 : rv stddev ≤ 2 ^ 900) (n N : Nat) (hN : 0 < N)
    (k : Nat) (hk : 0 < k) (ε : ℝ) (hε : 0 < ε) :
    prob (N * (2 * n)) (fun w => ¬ ∃ l rest, results (normal lib fused fused' mean stddev tape n) N w = .ok (l, rest) ∧
        ∀ t, |shareIn (AtMost t) l - (gaussianReal (rv mean) ⟨rv stddev ^ 2, sq_nonneg _⟩).real (Iic t)| <
          ε + (1 / 2 ^ 31 + |rv mean| / rv stddev / 2 ^ 53 + (1 / 16) ^ n) + 1 / k) ≤
      (k - 1 : Nat) * (2 * Real.exp (-(2 * N * ε ^ 2))) + N * (1 / 16) ^ n := by
  have hk' : (0 : ℝ) < k := Nat.cast_pos.mpr hk
  have hpos : 0 < rv stddev := lt_of_lt_of_le (by positivity) hs0
  have hv : (⟨rv stddev ^ 2, sq_nonneg _⟩ : NNReal) ≠ 0 := fun h => by
    have := congrArg NNReal.toReal h
    exact absurd this (by show rv stddev ^ 2 ≠ 0; positivity)
  have hq := C71_normal lib hl he fused fused' mean stddev hm hm1 hs hs0 hs1
  clear hs0 hs1 hm1
  generalize hμ : gaussianReal (rv mean) ⟨rv stddev ^ 2, sq_nonneg _⟩ = μ at *
  have hprob : IsProbabilityMeasure μ := by rw [← hμ]; exact instIsProbabilityMeasureGaussianReal _ _
  have hna : NullSingletonClass μ := by rw [← hμ]; exact nullSingletonClass_gaussianReal hv
  have hcdf : ∀ t, μ.real (Iic t) = cdf μ t := fun t => (cdf_eq_real μ t).symm
  have hmono : Monotone fun t => μ.real (Iic t) := fun s t hst => by
    dsimp only
    rw [hcdf, hcdf]
    exact monotone_cdf μ hst
  have hcont : Continuous fun t => μ.real (Iic t) := by
    have : (fun t => μ.real (Iic t)) = cdf μ := funext hcdf
    rw [this]
    refine continuous_iff_continuousAt.mpr fun t => (cdf μ).mono.continuousAt_iff_leftLim_eq_rightLim.mpr ?_
    rw [StieltjesFunction.rightLim_eq]
    have h := (cdf μ).measure_singleton t
    rw [measure_cdf, measure_singleton, eq_comm, ENNReal.ofReal_eq_zero] at h
    exact le_antisymm ((cdf μ).mono.leftLim_le le_rfl) (by linarith)
  have hex : ∀ j : Nat, ∃ x, j < k - 1 → μ.real (Iic x) = (j + 1 : ℝ) / k := fun j => by
    by_cases hj : j < k - 1
    · have : ((j + 1 : Nat) : ℝ) < k := Nat.cast_lt.mpr (by omega)
      rw [Nat.cast_add, Nat.cast_one] at this
      have h3 : (j + 1 : ℝ) / k < 1 := (div_lt_one hk').mpr this
      have h4 : (0 : ℝ) < (j + 1 : ℝ) / k := by positivity
      have hbot : ∃ a, μ.real (Iic a) < (j + 1 : ℝ) / k := by
        have := (tendsto_cdf_atBot μ).eventually_lt_const h4
        obtain ⟨a, ha⟩ := this.exists
        exact ⟨a, by rw [hcdf]; exact ha⟩
      have htop : ∃ b, (j + 1 : ℝ) / k < μ.real (Iic b) := by
        have := (tendsto_cdf_atTop μ).eventually_const_lt h3
        obtain ⟨a, ha⟩ := this.exists
        exact ⟨a, by rw [hcdf]; exact ha⟩
      obtain ⟨a, ha⟩ := hbot
      obtain ⟨b, hb⟩ := htop
      obtain ⟨x, hx⟩ := mem_range_of_exists_le_of_exists_ge hcont ⟨a, ha.le⟩ ⟨b, hb.le⟩
      exact ⟨x, fun _ => hx⟩
    · exact ⟨0, fun h => absurd h hj⟩
  choose x hx using hex
  exact sample_cdf _ _ (fun P => LibCall.normal lib fused fused' mean stddev n P) (fun t => μ.real (Iic t)) hmono (fun t => measureReal_nonneg)
    (fun t => measureReal_le_one) k hk x hx _ _ (by positivity) (fun j _ => hq (x j) n) (C71_returns lib hl he fused fused' mean stddev n) N hN ε hε

theorem unitCdf_unit {x : ℝ} (h0 : 0 ≤ x) (h1 : x ≤ 1) : unitCdf x = x := by
  unfold unitCdf
  rw [min_eq_right h1, max_eq_right h0]

theorem grid_point (k j : Nat) (hj : j < k - 1) : 0 ≤ (j + 1 : ℝ) / k ∧ (j + 1 : ℝ) / k ≤ 1 := by
  have hk' : (0 : ℝ) < k := Nat.cast_pos.mpr (by omega)
  have : ((j + 1 : Nat) : ℝ) ≤ k := Nat.cast_le.mpr (by omega)
  rw [Nat.cast_add, Nat.cast_one] at this
  exact ⟨by positivity, (div_le_one hk').mpr this⟩

theorem prob_uniform01_atMost (t : ℝ) :
    |(prob 1 fun w => ∃ r rest, uniform01 tape w = .ok (r, rest) ∧ AtMost t r) - unitCdf t| ≤ 1 / 2 ^ 53 := by
  classical
  have e : (prob 1 fun w => ∃ r rest, uniform01 tape w = .ok (r, rest) ∧ AtMost t r) = avg (2 ^ 53) fun m => if AtMost t (unit m) then 1 else 0 := by
    rw [prob_succ, show (2 ^ 64 : Nat) = 2 ^ 11 * 2 ^ 53 by decide, ← avg_mod (2 ^ 11) (2 ^ 53) (by decide)]
    refine avg_congr fun x hx => ?_
    rw [prob_zero]
    have h := uniform01_word (BitVec.ofNat 64 x)
    rw [BitVec.toNat_ofNat, Nat.mod_eq_of_lt (b := 2 ^ 64) (by rwa [show (2 ^ 64 : Nat) = 2 ^ 11 * 2 ^ 53 by decide])] at h
    rw [h]
    refine if_congr ⟨?_, fun h => ⟨_, _, rfl, h⟩⟩ rfl rfl
    rintro ⟨r, rest, h1, h2⟩
    rw [Except.ok.injEq, Prod.mk.injEq] at h1
    rwa [h1.1]
  have hS : ∀ m, AtMost t (unit m) ↔ (m : ℝ) ≤ t * 2 ^ 53 := fun m => by
    rw [← div_le_iff₀ (by positivity), ← rv_unit]
    exact ⟨fun h => h.elim (fun h => by cases h) And.right, fun h => Or.inr ⟨trivial, h⟩⟩
  rw [e]
  have h := avg_near (2 ^ 53) (by decide) (fun m => AtMost t (unit m)) (t * 2 ^ 53) 0 le_rfl (fun m _ hm => (hS m).mpr (by linarith))
    fun m _ hm => by have := (hS m).mp hm; linarith
  rw [cast_pow53, mul_div_assoc, div_self (by positivity), mul_one, add_zero] at h
  exact h

/-- C120 for `Uniform0_1`. -/
theorem C120_uniform01 (N : Nat) (hN : 0 < N) (k : Nat) (hk : 0 < k) (ε : ℝ) (hε : 0 < ε) :
    prob N (fun w => ¬ ∃ l rest, results (uniform01 tape) N w = .ok (l, rest) ∧ ∀ t, |shareIn (AtMost t) l - unitCdf t| < ε + 1 / 2 ^ 53 + 1 / k) ≤
      (k - 1 : Nat) * (2 * Real.exp (-(2 * N * ε ^ 2))) := by
  have hret : prob 1 (fun w => ∃ r rest, uniform01 tape w = .ok (r, rest)) = 1 := by
    rw [prob_congr (Q := fun _ => True) fun w hlen => ⟨fun _ => trivial, fun _ => ?_⟩, prob_true]
    obtain ⟨x, rfl⟩ := List.length_eq_one_iff.mp hlen
    exact ⟨_, _, uniform01_word x⟩
  have h := sample_cdf (uniform01 tape) 1 (fun P => LibCall.uniform01 P) unitCdf (fun _ _ => unitCdf_mono) (fun t => (unitCdf_bounds t).1)
    (fun t => (unitCdf_bounds t).2) k hk (fun j => (j + 1 : ℝ) / k) (fun j hj => unitCdf_unit (grid_point k j hj).1 (grid_point k j hj).2)
    (1 / 2 ^ 53) 0 (by positivity) (fun j _ => prob_uniform01_atMost _) (by rw [hret]; norm_num) N hN ε hε
  rw [mul_zero, add_zero, Nat.mul_one] at h
  exact h

/-- C120 for `Uniform`, whose results are spread over the interval from `Low` to `Low + High`. -/
theorem C120_uniform (fused : Bool) (low high : F64) (hl : low.IsFin) (hl1 : |rv low| ≤ 2 ^ 900) (hh : high.IsFin)
    (hh0 : 1 / 2 ^ 900 ≤ rv high) (hh1 : rv high ≤ 2 ^ 900) (N : Nat) (hN : 0 < N) (k : Nat) (hk : 0 < k) (ε : ℝ) (hε : 0 < ε) :
    prob N (fun w => ¬ ∃ l rest, results (uniform fused low high tape) N w = .ok (l, rest) ∧
        ∀ t, |shareIn (AtMost t) l - unitCdf ((t - rv low) / rv high)| < ε + (1 / 2 ^ 49 + |rv low| / rv high / 2 ^ 52) + 1 / k) ≤
      (k - 1 : Nat) * (2 * Real.exp (-(2 * N * ε ^ 2))) := by
  have hpos : 0 < rv high := lt_of_lt_of_le (by positivity) hh0
  have habs := abs_of_pos hpos
  have hret : prob 1 (fun w => ∃ r rest, uniform fused low high tape w = .ok (r, rest)) = 1 := by
    rw [prob_congr (Q := fun _ => True) fun w hlen => ⟨fun _ => trivial, fun _ => ?_⟩, prob_true]
    obtain ⟨x, rfl⟩ := List.length_eq_one_iff.mp hlen
    exact ⟨_, _, uniform_tape fused low high x []⟩
  have hx : ∀ j : Nat, (rv low + rv high * ((j + 1 : ℝ) / k) - rv low) / rv high = (j + 1 : ℝ) / k := fun j => by
    rw [add_sub_cancel_left, mul_div_cancel_left₀ _ hpos.ne']
  have hC := fun t => C92_uniform fused low high hl hl1 hh (by rw [habs]; exact hh0) (by rw [habs]; exact hh1) t

  simp only [if_pos hpos, habs] at hC
  clear hh0 hh1 hl1
  have h := sample_cdf (uniform fused low high tape) 1 (fun P => LibCall.uniform fused low high P) (fun t => unitCdf ((t - rv low) / rv high))
    (fun s t hst => unitCdf_mono (div_le_div_of_nonneg_right (by linarith) hpos.le)) (fun t => (unitCdf_bounds _).1)
    (fun t => (unitCdf_bounds _).2) k hk (fun j => rv low + rv high * ((j + 1 : ℝ) / k))
    (fun j hj => (congrArg unitCdf (hx j)).trans (unitCdf_unit (grid_point k j hj).1 (grid_point k j hj).2))
    (1 / 2 ^ 49 + |rv low| / rv high / 2 ^ 52) 0 (by positivity) (fun j _ => hC _) (by rw [hret]; norm_num) N hN ε hε
  rw [mul_zero, add_zero, Nat.mul_one] at h
  exact h

/-! ### Non-vacuity -/

/-- Two million results of `Uniform0_1`: the shares in all intervals `[0, t]` are within 1/200 of `t`. -/
example : prob 2000000 (fun w => ¬ ∃ l rest, results (uniform01 tape) 2000000 w = .ok (l, rest) ∧ ∀ t, |shareIn (AtMost t) l - unitCdf t| < 1 / 200) ≤
    2000 * Real.exp (-49) := by
  have h := C120_uniform01 2000000 (by decide) 1000 (by decide) (7 / 2000) (by norm_num)
  have he : (-(2 * ((2000000 : Nat) : ℝ) * (7 / 2000) ^ 2)) = -49 := by norm_num
  rw [he] at h
  refine (prob_mono fun w _ h' => ?_).trans (h.trans ?_)
  · rintro ⟨l, rest, h1, h2⟩
    exact h' ⟨l, rest, h1, fun t => (h2 t).trans (by norm_num)⟩
  · have := Real.exp_pos (-49)
    norm_num
    linarith

/-- A hundred thousand rolls of a die: each face's share is within 1/100 of 1/6. -/
example : prob (100000 * (79 + 1)) (fun w => ¬ ∃ l rest, results (RNG.uintn tape 79 6#64) 100000 w = .ok (l, rest) ∧
    ∀ j < 6, |shareIn (fun r => r.toNat = j) l - 1 / 6| < 1 / 100) ≤ 12 * Real.exp (-(49 / 4)) + 1 / 10 ^ 13 := by
  have h := C120_uintn 6#64 (by decide) 79 100000 (by decide) (7827 / 1000000) (by norm_num)
  have h6 : (6#64).toNat = 6 := by decide
  rw [h6] at h
  refine (prob_mono fun w _ h' => ?_).trans (h.trans (add_le_add ?_ (by norm_num)))
  · rintro ⟨l, rest, h1, h2⟩
    exact h' ⟨l, rest, h1, fun j hj => lt_of_lt_of_le (h2 j hj) (by norm_num)⟩
  · have : Real.exp (-(2 * ((100000 : Nat) : ℝ) * (7827 / 1000000) ^ 2)) ≤ Real.exp (-(49 / 4)) := Real.exp_le_exp.mpr (by norm_num)
    push_cast
    linarith

/-- Ten million results of `Exponential{Rate: 1}` and of `Normal{Mean: 1, StdDev: 1}`. -/
example : ∃ lib, prob (10000000 * (2 * 10)) (fun w => ¬ ∃ l rest, results (exponential lib false (F64.ofNat 1) tape 10) 10000000 w = .ok (l, rest) ∧
      ∀ t, |shareIn (AtMost t) l - (1 - Real.exp (-(max 0 t)))| < 1 / 400) ≤ 2000 * Real.exp (-20) + 1 / 10 ^ 17 ∧
    prob (10000000 * (2 * 20)) (fun w => ¬ ∃ l rest, results (normal lib true false (F64.ofNat 1) (F64.ofNat 1) tape 20) 10000000 w = .ok (l, rest) ∧
      ∀ t, |shareIn (AtMost t) l - (gaussianReal (rv (F64.ofNat 1)) ⟨rv (F64.ofNat 1) ^ 2, sq_nonneg _⟩).real (Iic t)| < 1 / 400) ≤
        2000 * Real.exp (-20) + 1 / 10 ^ 17 := by
  obtain ⟨lib, hl, he⟩ := mathLib_exists
  refine ⟨lib, ?_, ?_⟩
  · have h := C120_exponential lib hl he false (F64.ofNat 1) rate_one.1 (by rw [rate_one.2]; norm_num) (by rw [rate_one.2]; norm_num)
      10 10000000 (by decide) 1000 (by decide) (1 / 1000) (by norm_num)
    simp only [rate_one.2, one_mul] at h
    have h4 : (-(2 * ((10000000 : Nat) : ℝ) * (1 / 1000) ^ 2)) = -20 := by norm_num
    rw [h4] at h
    refine (prob_mono fun w _ h' => ?_).trans (h.trans ?_)
    · rintro ⟨l, rest, h1, h2⟩
      exact h' ⟨l, rest, h1, fun t => (h2 t).trans (by norm_num)⟩
    · have := Real.exp_pos (-20)
      refine add_le_add ?_ (by norm_num)
      norm_num
      linarith
  · have a1 : (F64.ofNat 1).IsFin := rate_one.1.1
    have a2 : rv (F64.ofNat 1) = 1 := rate_one.2
    have h := C120_normal lib hl he true false (F64.ofNat 1) (F64.ofNat 1) a1 (by rw [a2]; norm_num) a1 (by rw [a2]; norm_num) (by rw [a2]; norm_num)
      20 10000000 (by decide) 1000 (by decide) (1 / 1000) (by norm_num)
    have h4 : (-(2 * ((10000000 : Nat) : ℝ) * (1 / 1000) ^ 2)) = -20 := by norm_num
    have h5 : |rv (F64.ofNat 1)| / rv (F64.ofNat 1) = 1 := by rw [a2]; norm_num
    rw [h4, h5] at h
    refine (prob_mono fun w _ h' => ?_).trans (h.trans ?_)
    · rintro ⟨l, rest, h1, h2⟩
      exact h' ⟨l, rest, h1, fun t => (h2 t).trans (by norm_num)⟩
    · have := Real.exp_pos (-20)
      refine add_le_add ?_ (by norm_num)
      norm_num
      linarith

end Crazy
