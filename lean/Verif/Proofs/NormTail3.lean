/-
The tail of the ziggurat of the normal distribution: what is computed.
-/
import Verif.Proofs.NormTail2
set_option exponentiation.threshold 2200
set_option maxRecDepth 4000
namespace Crazy
open MeasureTheory Set intervalIntegral

theorem normalR_val : normalR.IsFin ∧ rv normalR = 4547340665486032 / 2 ^ 50 := by
  have h : normalR = .fin false (4547340665486032 * 2 ^ (64 + 960)) := ofDec_row (40388498461095, 13) (4547340665486032, 64) (by decide +kernel) (by decide)
  obtain ⟨e, he⟩ : ∃ e, 64 + 960 = e := ⟨_, rfl⟩
  rw [he] at h
  refine ⟨by rw [h]; trivial, ?_⟩
  rw [h, rv_pos _ (50 + e) (by omega), pow_add, Nat.cast_mul, Nat.cast_pow, Nat.cast_ofNat, Nat.cast_ofNat, mul_div_mul_right _ _ (by positivity)]

theorem normalR_bounds : 4 ≤ rv normalR ∧ rv normalR ≤ 5 := by
  rw [normalR_val.2]
  constructor <;> norm_num

theorem le_fin (x y : F64) (hx : x.IsFin) (hy : y.IsFin) : F64.le x y = true ↔ rv x ≤ rv y := by
  obtain ⟨e, he⟩ : ∃ e, 1074 = e := ⟨_, rfl⟩
  match x, y, hx, hy with
  | .fin a n, .fin b m, _, _ =>
    rw [rv_sint a n e he, rv_sint b m e he, div_le_div_iff_of_pos_right (by positivity), Int.cast_le]
    exact decide_eq_true_iff

/-- Minus the logarithm of the uniform variate number `m`. -/
noncomputable def nlog (m : Nat) : ℝ := -Real.log ((m : ℝ) / 2 ^ 53)

theorem neg_log_near (lib : MathLib) (hl : LogOk lib) (m : Nat) (hm : m < 2 ^ 53) (hm0 : 0 < m) :
    (F64.neg (lib.log (unit m))).IsFin ∧ 0 ≤ nlog m ∧ nlog m ≤ 53 ∧ |rv (F64.neg (lib.log (unit m))) - nlog m| ≤ 1 / 2 ^ 44 := by
  obtain ⟨e, he⟩ : ∃ e, 1021 = e := ⟨_, rfl⟩
  obtain ⟨n, h1, -, -, -, h5, h6⟩ := log_uniform lib hl e m he hm hm0
  have hu : unit m = .fin false (m * 2 ^ e) := by unfold unit; rw [he]
  rw [hu, h1]
  have h0 : 0 ≤ -Real.log ((m : ℝ) / 2 ^ 53) := by
    have : Real.log ((m : ℝ) / 2 ^ 53) ≤ 0 := Real.log_nonpos (by positivity) (by
      rw [div_le_one two_pow_53]; exact_mod_cast hm.le)
    linarith
  refine ⟨trivial, h0, h6, ?_⟩
  show |rv (.fin false n) - _| ≤ _
  rw [rv_pos n (53 + e) (by omega)]
  refine h5.trans ((div_le_div_of_nonneg_right h6 (by positivity)).trans ?_)
  norm_num

theorem tiny : (1 : ℝ) / 2 ^ 1000 ≤ 1 / 2 ^ 60 :=
  one_div_le_one_div_of_le (by norm_num) (pow_le_pow_right₀ (by norm_num) (by norm_num))
theorem huge : (2 : ℝ) ^ 10 ≤ 2 ^ 1000 := pow_le_pow_right₀ (by norm_num) (by norm_num)

theorem near_of {r : F64} {v c d : ℝ} (h : F64.Near r v) (hc : |v| ≤ c) (hd : c / 2 ^ 53 + 1 / 2 ^ 60 ≤ d) : r.IsFin ∧ |rv r - v| ≤ d :=
  ⟨h.1, h.2.2.trans ((add_le_add (div_le_div_of_nonneg_right hc two_pow_53.le) tiny).trans hd)⟩

/-- The candidate. -/
theorem tailX_near (lib : MathLib) (hl : LogOk lib) (m : Nat) (hm : m < 2 ^ 53) (hm0 : 0 < m) :
    (tailX lib m).IsFin ∧ |rv (tailX lib m) - nlog m / rv normalR| ≤ 1 / 2 ^ 45 ∧ 0 ≤ nlog m / rv normalR ∧ nlog m / rv normalR ≤ 14 := by
  obtain ⟨l1, l2, l3, l4⟩ := neg_log_near lib hl m hm hm0
  obtain ⟨r1, r2⟩ := normalR_bounds
  have r0 : 0 < rv normalR := by linarith
  have a := abs_le.mp l4
  have hq : |rv (F64.neg (lib.log (unit m))) / rv normalR| ≤ 14 := by
    rw [abs_div, abs_of_pos r0, div_le_iff₀ r0]
    have : |rv (F64.neg (lib.log (unit m)))| ≤ 54 := abs_le.mpr ⟨by norm_num at a ⊢; linarith, by norm_num at a ⊢; linarith⟩
    linarith
  have h := near_of (d := 1 / 2 ^ 48) (F64.div_near _ _ l1 normalR_val.1 r0.ne' (hq.trans (le_trans (by norm_num) huge))) hq (by norm_num)
  refine ⟨h.1, ?_, div_nonneg l2 r0.le, ?_⟩
  · have h1 : |rv (F64.neg (lib.log (unit m))) / rv normalR - nlog m / rv normalR| ≤ 1 / 2 ^ 46 := by
      rw [← sub_div, abs_div, abs_of_pos r0, div_le_iff₀ r0]
      refine l4.trans ?_
      have : (1 : ℝ) / 2 ^ 44 ≤ 1 / 2 ^ 46 * 4 := by norm_num
      nlinarith
    have h2 := h.2
    have h3 : (1 : ℝ) / 2 ^ 46 + 1 / 2 ^ 48 ≤ 1 / 2 ^ 45 := by norm_num
    unfold tailX
    rw [abs_le] at h1 h2 ⊢
    constructor <;> linarith [h1.1, h1.2, h2.1, h2.2]
  · rw [div_le_iff₀ r0]; linarith

/-- What is returned. -/
theorem tailOut_near (lib : MathLib) (hl : LogOk lib) (m : Nat) (hm : m < 2 ^ 53) (hm0 : 0 < m) :
    (F64.add (tailX lib m) normalR).IsFin ∧ |rv (F64.add (tailX lib m) normalR)| ≤ 64 ∧
      |rv (F64.add (tailX lib m) normalR) - (nlog m / rv normalR + rv normalR)| ≤ 1 / 2 ^ 44 := by
  obtain ⟨x1, x2, x3, x4⟩ := tailX_near lib hl m hm hm0
  obtain ⟨r1, r2⟩ := normalR_bounds
  have a := abs_le.mp x2
  have hq : |rv (tailX lib m) + rv normalR| ≤ 20 := abs_le.mpr ⟨by norm_num at a ⊢; linarith, by norm_num at a ⊢; linarith⟩
  have h := near_of (d := 1 / 2 ^ 48) (F64.add_near _ _ x1 normalR_val.1 (hq.trans (le_trans (by norm_num) huge))) hq (by norm_num)
  have b := abs_le.mp h.2
  have c := abs_le.mp hq
  refine ⟨h.1, abs_le.mpr ⟨by norm_num at b ⊢; linarith, by norm_num at b ⊢; linarith⟩, abs_le.mpr ⟨?_, ?_⟩⟩
  · norm_num at a b ⊢; linarith
  · norm_num at a b ⊢; linarith

/-- The two sides of the comparison. -/
theorem tailX_sq (lib : MathLib) (hl : LogOk lib) (m : Nat) (hm : m < 2 ^ 53) (hm0 : 0 < m) :
    (F64.mul (tailX lib m) (tailX lib m)).IsFin ∧ |rv (F64.mul (tailX lib m) (tailX lib m)) - (nlog m / rv normalR) ^ 2| ≤ 1 / 2 ^ 39 := by
  obtain ⟨x1, x2, x3, x4⟩ := tailX_near lib hl m hm hm0
  have a := abs_le.mp x2
  have h15 : |rv (tailX lib m)| ≤ 15 := abs_le.mpr ⟨by norm_num at a ⊢; linarith, by norm_num at a ⊢; linarith⟩
  have hq : |rv (tailX lib m) * rv (tailX lib m)| ≤ 225 := by
    rw [abs_mul]
    calc _ ≤ (15 : ℝ) * 15 := mul_le_mul h15 h15 (abs_nonneg _) (by norm_num)
      _ = _ := by norm_num
  have h := near_of (d := 1 / 2 ^ 44) (F64.mul_near _ _ x1 x1 (hq.trans (le_trans (by norm_num) huge))) hq (by norm_num)
  refine ⟨h.1, ?_⟩
  have h1 : |rv (tailX lib m) * rv (tailX lib m) - (nlog m / rv normalR) ^ 2| ≤ 1 / 2 ^ 45 * 29 := by
    rw [show rv (tailX lib m) * rv (tailX lib m) - (nlog m / rv normalR) ^ 2 =
      (rv (tailX lib m) - nlog m / rv normalR) * (rv (tailX lib m) + nlog m / rv normalR) by ring, abs_mul]
    refine mul_le_mul x2 ?_ (abs_nonneg _) (by norm_num)
    refine (abs_add_le _ _).trans ?_
    rw [abs_of_nonneg x3]
    linarith
  have h2 := h.2
  have h3 : (1 : ℝ) / 2 ^ 45 * 29 + 1 / 2 ^ 44 ≤ 1 / 2 ^ 39 := by norm_num
  rw [abs_le] at h1 h2 ⊢
  constructor <;> linarith [h1.1, h1.2, h2.1, h2.2]

theorem tailY (lib : MathLib) (hl : LogOk lib) (k : Nat) (hk : k < 2 ^ 53) (hk0 : 0 < k) :
    (F64.add (F64.neg (lib.log (unit k))) (F64.neg (lib.log (unit k)))).IsFin ∧
    |rv (F64.add (F64.neg (lib.log (unit k))) (F64.neg (lib.log (unit k)))) - 2 * nlog k| ≤ 1 / 2 ^ 42 := by
  obtain ⟨l1, l2, l3, l4⟩ := neg_log_near lib hl k hk hk0
  have a := abs_le.mp l4
  generalize F64.neg (lib.log (unit k)) = y at *
  have hq : |rv y + rv y| ≤ 108 := abs_le.mpr ⟨by norm_num at a ⊢; linarith, by norm_num at a ⊢; linarith⟩
  have h := near_of (d := 1 / 2 ^ 45) (F64.add_near _ _ l1 l1 (hq.trans (le_trans (by norm_num) huge))) hq (by norm_num)
  have b := abs_le.mp h.2
  refine ⟨h.1, abs_le.mpr ⟨?_, ?_⟩⟩
  · norm_num at a b ⊢; linarith
  · norm_num at a b ⊢; linarith

theorem tailAcc_zero (lib : MathLib) (hl : LogOk lib) (m : Nat) (h : (F64.mul (tailX lib m) (tailX lib m)).IsFin) : tailAcc lib m 0 := by
  have hu : unit 0 = .fin false 0 := by unfold unit; rw [Nat.zero_mul]
  unfold tailAcc
  rw [hu, hl.zero]
  generalize F64.mul (tailX lib m) (tailX lib m) = x at *
  match x, h with
  | .fin _ _, _ => rfl

/-- The probability that the candidate is accepted. -/
theorem tailAccShare_near (lib : MathLib) (hl : LogOk lib) (m : Nat) (hm : m < 2 ^ 53) (hm0 : 0 < m) :
    |tailAccShare lib m - psi (rv normalR) ((m : ℝ) / 2 ^ 53)| ≤ 1 / 2 ^ 37 := by
  obtain ⟨s1, s2⟩ := tailX_sq lib hl m hm hm0
  have hpsi : psi (rv normalR) ((m : ℝ) / 2 ^ 53) = Real.exp (-((nlog m / rv normalR) ^ 2 / 2)) := by
    unfold psi nlog
    refine congrArg Real.exp ?_
    ring
  rw [hpsi]
  obtain ⟨ξ, hξ⟩ : ∃ ξ, ξ = (nlog m / rv normalR) ^ 2 := ⟨_, rfl⟩
  have hξ0 : 0 ≤ ξ := by rw [hξ]; positivity
  rw [← hξ] at s2 ⊢
  have cs : (((2 : Nat) ^ 53 : Nat) : ℝ) = 2 ^ 53 := by rw [Nat.cast_pow, Nat.cast_ofNat]
  have key : ∀ k : Nat, k < 2 ^ 53 → 0 < k → (tailAcc lib m k → ξ - 1 / 2 ^ 38 ≤ 2 * nlog k) ∧ (¬ tailAcc lib m k → 2 * nlog k ≤ ξ + 1 / 2 ^ 38) := by
    intro k hk hk0
    obtain ⟨y1, y2⟩ := tailY lib hl k hk hk0
    have e := le_fin _ _ s1 y1
    have b1 := abs_le.mp s2
    have b2 := abs_le.mp y2
    have b3 : (1 : ℝ) / 2 ^ 39 + 1 / 2 ^ 42 ≤ 1 / 2 ^ 38 := by norm_num
    unfold tailAcc
    rw [e]
    constructor
    · intro h; linarith
    · intro h; linarith [not_le.mp h]
  have up := (count_above (2 ^ 53) (by positivity) (Real.exp (-(ξ / 2 + 1 / 2 ^ 39))) (Real.exp_pos _).le (fun k => ¬ tailAcc lib m k)).1
    (fun k hk hp => by
      rcases Nat.eq_zero_or_pos k with rfl | hk0
      · exact absurd (tailAcc_zero lib hl m s1) hp
      · have h := (key k hk hk0).2 hp
        have hpos : 0 < (k : ℝ) / 2 ^ 53 := div_pos (Nat.cast_pos.mpr hk0) two_pow_53
        rw [cs, ← Real.le_log_iff_exp_le hpos]
        have : nlog k = -Real.log ((k : ℝ) / 2 ^ 53) := rfl
        norm_num at h ⊢
        linarith)
  have lo := (count_above (2 ^ 53) (by positivity) (Real.exp (-(ξ / 2 - 1 / 2 ^ 38))) (Real.exp_pos _).le (fun k => ¬ tailAcc lib m k)).2
    (fun k hk hp hacc => by
      rw [cs] at hp
      have hpos : 0 < (k : ℝ) / 2 ^ 53 := lt_of_lt_of_le (Real.exp_pos _) hp
      have hk0 : 0 < k := by
        rcases Nat.eq_zero_or_pos k with rfl | h
        · rw [Nat.cast_zero, zero_div] at hpos; exact absurd hpos (lt_irrefl _)
        · exact h
      have h := (key k hk hk0).1 hacc
      rw [← Real.le_log_iff_exp_le hpos] at hp
      have : nlog k = -Real.log ((k : ℝ) / 2 ^ 53) := rfl
      norm_num at h hp
      linarith)
  rw [cs] at lo
  have hnot : (avg (2 ^ 53) fun k => ind (¬ tailAcc lib m k)) = 1 - tailAccShare lib m := by
    unfold tailAccShare
    rw [avg_congr fun k _ => ind_not (tailAcc lib m k), avg_sub, avg_const (by positivity)]
  rw [hnot] at up lo
  have l1 := abs_le.mp (min_exp_lip (ξ / 2 + 1 / 2 ^ 39) (ξ / 2))
  have l2 := abs_le.mp (min_exp_lip (ξ / 2 - 1 / 2 ^ 38) (ξ / 2))
  have n1 : |ξ / 2 + 1 / 2 ^ 39 - ξ / 2| = 1 / 2 ^ 39 := by rw [add_sub_cancel_left, abs_of_pos (by norm_num)]
  have n2 : |ξ / 2 - 1 / 2 ^ 38 - ξ / 2| = 1 / 2 ^ 38 := by rw [sub_sub_cancel_left, abs_neg, abs_of_pos (by norm_num)]
  have n3 : min (Real.exp (-(ξ / 2))) 1 = Real.exp (-(ξ / 2)) := min_eq_left (Real.exp_le_one_iff.mpr (by linarith))
  rw [n1, n3] at l1
  rw [n2, n3] at l2
  have k1 : (1 : ℝ) / 2 ^ 38 + 1 / 2 ^ 53 ≤ 1 / 2 ^ 37 := by norm_num
  have k2 : (1 : ℝ) / 2 ^ 39 ≤ 1 / 2 ^ 37 := by norm_num
  rw [abs_le]
  constructor <;> linarith [l1.1, l2.2]

end Crazy
