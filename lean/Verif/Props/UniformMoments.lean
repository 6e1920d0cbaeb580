/-
C105: the mean and the variance of Uniform0_1, Uniform1_2 and Uniform.
-/
import Verif.Props.UniformDist
import Verif.Props.Moments
import Verif.Proofs.Average
set_option exponentiation.threshold 2200
namespace Crazy
open F64

/-! ### Sums -/

theorem sum_affine (a b : ℝ) (N : Nat) : ∑ m ∈ Finset.range N, (a * m + b) = N * (a * (N - 1) / 2 + b) := by
  induction N with
  | zero => simp
  | succ N ih => rw [Finset.sum_range_succ, ih]; push_cast; ring

theorem sum_affine_sq (a b : ℝ) (N : Nat) :
    ∑ m ∈ Finset.range N, (a * m + b) ^ 2 = N * (a ^ 2 * (N - 1) * (2 * N - 1) / 6 + a * b * (N - 1) + b ^ 2) := by
  induction N with
  | zero => simp
  | succ N ih => rw [Finset.sum_range_succ, ih]; push_cast; ring

theorem avg_affine (a b : ℝ) {N : Nat} (hN : 0 < N) : avg N (fun m => a * m + b) = a * (N - 1) / 2 + b := by
  unfold avg
  rw [sum_affine, mul_div_cancel_left₀ _ (Nat.cast_ne_zero.mpr hN.ne')]

theorem avg_affine_sq (a b : ℝ) {N : Nat} (hN : 0 < N) :
    avg N (fun m => (a * m + b) ^ 2) = a ^ 2 * (N - 1) * (2 * N - 1) / 6 + a * b * (N - 1) + b ^ 2 := by
  unfold avg
  rw [sum_affine_sq, mul_div_cancel_left₀ _ (Nat.cast_ne_zero.mpr hN.ne')]

theorem avg_close {N : Nat} (hN : 0 < N) (f g : Nat → ℝ) (δ : ℝ) (h : ∀ m < N, |f m - g m| ≤ δ) : |avg N f - avg N g| ≤ δ := by
  have h1 : avg N f ≤ avg N g + δ := by
    rw [← avg_const hN δ, ← avg_add]
    exact avg_mono fun m hm => by linarith [(abs_le.mp (h m hm)).2]
  have h2 : avg N g ≤ avg N f + δ := by
    rw [← avg_const hN δ, ← avg_add]
    exact avg_mono fun m hm => by linarith [(abs_le.mp (h m hm)).1]
  rw [abs_le]
  constructor <;> linarith

/-! ### One word -/

/-- A draw that looks at the remainder of its word only. -/
theorem average_word (call : List U64 → Go (F64 × List U64)) (a b : Nat) (ha : 0 < a) (hab : 2 ^ 64 = a * b) (f : Nat → F64)
    (h : ∀ x : U64, call [x] = .ok (f (x.toNat % b), [])) (hf : ∀ m < b, (f m).IsFin) (hb : 0 < b) (g : ℝ → ℝ) :
    average 1 (ofDraw call g) = avg b (fun m => g (rv (f m))) := by
  rw [average_succ, ← avg_mod a b ha, ← hab]
  refine avg_congr fun x hx => ?_
  rw [average_zero]
  have h1 := h (BitVec.ofNat 64 x)
  rw [BitVec.toNat_ofNat, Nat.mod_eq_of_lt (b := 2 ^ 64) hx] at h1
  exact ofDraw_ok h1 (hf _ (Nat.mod_lt _ hb))

theorem uniform01_word (x : U64) : uniform01 tape [x] = .ok (unit (x.toNat % 2 ^ 53), []) := by
  have := uniform01_ofNat x.toNat x.isLt []
  rwa [BitVec.ofNat_toNat, BitVec.setWidth_eq] at this

theorem uniform12_word (x : U64) : uniform12 tape [x] = .ok (.fin false ((2 ^ 52 + x.toNat % 2 ^ 52) * 2 ^ 1022), []) := by
  have h : tape.read (zeros 7) [x] = .ok (⟨(le64 x).take 7, 7, none⟩, []) := rfl
  rw [uniform12_eq tape _ _ _ h]
  simp only
  rw [leNat_take_le64 x 7 (by decide), show 256 ^ 7 = 2 ^ 52 * 2 ^ 4 by decide, Nat.mod_mul_right_mod]

theorem rv_half (m : Nat) : rv (.fin false (m * 2 ^ 1022)) = (m : ℝ) / 2 ^ 52 := by
  unfold rv
  rw [val_scaled m 1022 52 rfl, Rat.cast_div, Rat.cast_natCast, Rat.cast_pow, Rat.cast_ofNat]

theorem cast_pow53 : ((2 ^ 53 : Nat) : ℝ) = 2 ^ 53 := by rw [Nat.cast_pow, Nat.cast_ofNat]
theorem cast_pow52 : ((2 ^ 52 : Nat) : ℝ) = 2 ^ 52 := by rw [Nat.cast_pow, Nat.cast_ofNat]

/-- C105: over all words, the numbers `Uniform0_1.Next` returns have exactly the mean `1/2 - 2^-54` and the variance `(1 - 2^-106)/12`. -/
theorem C105_Uniform0_1 : average 1 (ofDraw (uniform01 tape) fun x => x) = 1 / 2 - 1 / 2 ^ 54 ∧
    average 1 (ofDraw (uniform01 tape) fun x => (x - (1 / 2 - 1 / 2 ^ 54)) ^ 2) = (1 - 1 / 2 ^ 106) / 12 := by
  have h := average_word (uniform01 tape) (2 ^ 11) (2 ^ 53) (by decide) (by decide) unit uniform01_word (fun _ _ => trivial) (by decide)
  constructor
  · rw [h, avg_congr (h := fun m => (1 / 2 ^ 53 : ℝ) * m + 0) fun m _ => by rw [rv_unit]; ring, avg_affine _ _ (by decide), cast_pow53]
    norm_num
  · rw [h, avg_congr (h := fun m => ((1 / 2 ^ 53 : ℝ) * m + -(1 / 2 - 1 / 2 ^ 54)) ^ 2) fun m _ => by rw [rv_unit]; ring,
      avg_affine_sq _ _ (by decide), cast_pow53]
    norm_num

/-- C105: over all words, the numbers `Uniform1_2.Next` returns have exactly the mean `3/2 - 2^-53` and the variance `(1 - 2^-104)/12`. -/
theorem C105_Uniform1_2 : average 1 (ofDraw (uniform12 tape) fun x => x) = 3 / 2 - 1 / 2 ^ 53 ∧
    average 1 (ofDraw (uniform12 tape) fun x => (x - (3 / 2 - 1 / 2 ^ 53)) ^ 2) = (1 - 1 / 2 ^ 104) / 12 := by
  have h := average_word (uniform12 tape) (2 ^ 12) (2 ^ 52) (by decide) (by decide) (fun m => .fin false ((2 ^ 52 + m) * 2 ^ 1022))
    uniform12_word (fun _ _ => trivial) (by decide)
  have e : ∀ m : Nat, rv (.fin false ((2 ^ 52 + m) * 2 ^ 1022)) = (1 / 2 ^ 52 : ℝ) * m + 1 := fun m => by
    rw [rv_half, Nat.cast_add, cast_pow52, add_div, div_self (by norm_num)]; ring
  constructor
  · rw [h, avg_congr (h := fun m => (1 / 2 ^ 52 : ℝ) * m + 1) fun m _ => by rw [e], avg_affine _ _ (by decide), cast_pow52]
    norm_num
  · rw [h, avg_congr (h := fun m => ((1 / 2 ^ 52 : ℝ) * m + (1 - (3 / 2 - 1 / 2 ^ 53))) ^ 2) fun m _ => by rw [e]; ring,
      avg_affine_sq _ _ (by decide), cast_pow52]
    norm_num

/-- The error of one value of `Uniform`, as in C92. -/
theorem uniform_close (fused : Bool) (low high : F64) (hl : low.IsFin) (hl1 : |rv low| ≤ 2 ^ 900) (hh : high.IsFin)
    (hh0 : 1 / 2 ^ 900 ≤ |rv high|) (hh1 : |rv high| ≤ 2 ^ 900) (m : Nat) (hm : m < 2 ^ 52) :
    (F64.mulAdd fused high (.fin false (m * 2 ^ 1022)) low).IsFin ∧
      |rv (F64.mulAdd fused high (.fin false (m * 2 ^ 1022)) low) - (rv high * (m / 2 ^ 52) + rv low)| ≤
        |rv high| * (1 / 2 ^ 50) + |rv low| / 2 ^ 52 := by
  have hv := rv_half m
  have hm' : (m : ℝ) ≤ 2 ^ 52 := by rw [← cast_pow52]; exact_mod_cast hm.le
  have := mulAdd_near_one fused (.fin false (m * 2 ^ 1022)) high low trivial hh hl
    (by rw [hv, abs_of_nonneg (by positivity)]; exact (div_le_one (by norm_num)).mpr hm') hh0 hh1 hl1
  rw [hv] at this
  exact this

theorem sq_close {r c v δ h : ℝ} (h1 : |r - v| ≤ δ) (h2 : |v - c| ≤ h / 2) : |(r - c) ^ 2 - (v - c) ^ 2| ≤ δ * (h + δ) := by
  have e : (r - c) ^ 2 - (v - c) ^ 2 = (r - v) * ((r - v) + 2 * (v - c)) := by ring
  rw [e, abs_mul]
  have h3 : |r - v + 2 * (v - c)| ≤ h + δ := by
    refine (abs_add_le _ _).trans ?_
    rw [abs_mul, abs_two]
    linarith
  exact mul_le_mul h1 h3 (abs_nonneg _) ((abs_nonneg _).trans h1)

theorem uniform_mean_aux (N : Nat) (hN : 0 < N) (r : Nat → ℝ) (h l δ : ℝ) (hr : ∀ m < N, |r m - (h * (m / N) + l)| ≤ δ) :
    |avg N r - (l + h / 2)| ≤ δ + |h| / (2 * N) ∧
    |avg N (fun m => (r m - (l + h / 2)) ^ 2) - h ^ 2 / 12| ≤ δ * (|h| + δ) + h ^ 2 / (6 * N ^ 2) := by
  have hN' : (0 : ℝ) < N := Nat.cast_pos.mpr hN
  have c1 := avg_close hN r (fun m => h / N * m + l) δ fun m hm => by
    have := hr m hm
    rwa [show h * ((m : ℝ) / N) = h / N * m by ring] at this
  have c2 := avg_close hN (fun m => (r m - (l + h / 2)) ^ 2) (fun m => (h / N * m + -(h / 2)) ^ 2) (δ * (|h| + δ)) fun m hm => by
    have h1 : |h * ((m : ℝ) / N) + l - (l + h / 2)| ≤ |h| / 2 := by
      rw [show h * ((m : ℝ) / N) + l - (l + h / 2) = h * ((m : ℝ) / N - 1 / 2) by ring, abs_mul, div_eq_mul_one_div |h|]
      refine mul_le_mul_of_nonneg_left ?_ (abs_nonneg _)
      have a1 : (0 : ℝ) ≤ (m : ℝ) / N := by positivity
      have a2 : (m : ℝ) / N ≤ 1 := (div_le_one hN').mpr (Nat.cast_le.mpr hm.le)
      rw [abs_le]
      constructor <;> linarith
    have := sq_close (hr m hm) h1
    rwa [show h * ((m : ℝ) / N) + l - (l + h / 2) = h / N * m + -(h / 2) by ring] at this
  rw [avg_affine _ _ hN] at c1
  rw [avg_affine_sq _ _ hN] at c2
  have e1 : h / N * ((N : ℝ) - 1) / 2 + l - (l + h / 2) = -(h / (2 * N)) := by field_simp; ring
  have e2 : (h / N) ^ 2 * ((N : ℝ) - 1) * (2 * N - 1) / 6 + h / N * -(h / 2) * (N - 1) + (-(h / 2)) ^ 2 - h ^ 2 / 12 = h ^ 2 / (6 * N ^ 2) := by
    field_simp; ring
  constructor
  · refine (abs_sub_le _ _ _).trans (add_le_add c1 ?_)
    rw [e1, abs_neg, abs_div, abs_of_pos (by positivity : (0 : ℝ) < 2 * N)]
  · refine (abs_sub_le _ _ _).trans (add_le_add c2 ?_)
    rw [e2, abs_of_nonneg (by positivity)]

/-- C105: over all words, the numbers `Uniform{Low, High}.Next` returns have the mean `Low + High/2` — not the middle of `Low` and
`High` — and the mean square distance `High²/12` from it, up to rounding. -/
theorem C105_Uniform (fused : Bool) (low high : F64) (hl : low.IsFin) (hl1 : |rv low| ≤ 2 ^ 900) (hh : high.IsFin)
    (hh0 : 1 / 2 ^ 900 ≤ |rv high|) (hh1 : |rv high| ≤ 2 ^ 900) (δ : ℝ) (hδ : δ = |rv high| / 2 ^ 49 + |rv low| / 2 ^ 52) :
    |average 1 (ofDraw (uniform fused low high tape) fun x => x) - (rv low + rv high / 2)| ≤ δ ∧
    |average 1 (ofDraw (uniform fused low high tape) fun x => (x - (rv low + rv high / 2)) ^ 2) - rv high ^ 2 / 12| ≤ δ * (|rv high| + δ) := by
  have close := uniform_close fused low high hl hl1 hh hh0 hh1
  have h := average_word (uniform fused low high tape) (2 ^ 12) (2 ^ 52) (by decide) (by decide)
    (fun m => F64.mulAdd fused high (.fin false (m * 2 ^ 1022)) low) (fun x => uniform_tape fused low high x [])
    (fun m hm => (close m hm).1) (by decide)
  rw [h, h]
  generalize hN : (2 : Nat) ^ 52 = N at close
  have hN1 : (N : ℝ) = 2 ^ 52 := by rw [← hN, cast_pow52]
  have hN0 : 0 < N := by omega
  have k := uniform_mean_aux N hN0 (fun m => rv (F64.mulAdd fused high (.fin false (m * 2 ^ 1022)) low)) (rv high) (rv low) _
    fun m hm => by have := (close m hm).2; rw [← hN1] at this; exact this
  rw [hN1] at k
  have a0 := abs_nonneg (rv high)
  have b0 := abs_nonneg (rv low)
  have hle : |rv high| * (1 / 2 ^ 50) + |rv low| / 2 ^ 52 + |rv high| / 2 ^ 51 ≤ δ := by rw [hδ]; linarith
  have hδ0 : 0 ≤ |rv high| * (1 / 2 ^ 50) + |rv low| / 2 ^ 52 := by positivity
  constructor
  · refine k.1.trans (le_trans ?_ hle)
    have : |rv high| / (2 * 2 ^ 52) ≤ |rv high| / 2 ^ 51 := div_le_div_of_nonneg_left a0 (by norm_num) (by norm_num)
    linarith
  · refine k.2.trans ?_
    have e : rv high ^ 2 = |rv high| ^ 2 := (sq_abs _).symm
    rw [e]
    generalize |rv high| * (1 / 2 ^ 50) + |rv low| / 2 ^ 52 = ε at hle hδ0
    generalize |rv high| = a at *
    have h1 : a ^ 2 / (6 * (2 ^ 52) ^ 2) ≤ a / 2 ^ 51 * a := by
      rw [show a / 2 ^ 51 * a = a ^ 2 / 2 ^ 51 by ring]
      exact div_le_div_of_nonneg_left (sq_nonneg _) (by norm_num) (by norm_num)
    have h2 : ε ≤ δ := by have : 0 ≤ a / 2 ^ 51 := by positivity
                          linarith
    have h3 : ε * (a + ε) ≤ ε * (a + δ) := mul_le_mul_of_nonneg_left (by linarith) hδ0
    have h4 : a / 2 ^ 51 * a ≤ a / 2 ^ 51 * (a + δ) := mul_le_mul_of_nonneg_left (by linarith) (by positivity)
    have h5 : (ε + a / 2 ^ 51) * (a + δ) ≤ δ * (a + δ) := mul_le_mul_of_nonneg_right hle (by linarith)
    linarith

/-- `Uniform{10, 20}`: the mean is within `2^-40` of 20, not 15. -/
example (fused : Bool) : |average 1 (ofDraw (uniform fused (F64.ofNat 10) (F64.ofNat 20) tape) fun x => x) - 20| ≤ 1 / 2 ^ 40 := by
  have e1 : rv (F64.ofNat 10) = 10 := by rw [rv_small 10 (by decide)]; norm_num
  have e2 : rv (F64.ofNat 20) = 20 := by rw [rv_small 20 (by decide)]; norm_num
  have h := (C105_Uniform fused (F64.ofNat 10) (F64.ofNat 20) (by rw [ofNat_exact 10 (by decide)]; trivial) (by rw [e1]; norm_num) (by rw [ofNat_exact 20 (by decide)]; trivial)
    (by rw [e2]; norm_num) (by rw [e2]; norm_num) _ rfl).1
  rw [e1, e2] at h
  refine le_trans (le_of_eq ?_) (h.trans (by norm_num))
  norm_num

end Crazy
