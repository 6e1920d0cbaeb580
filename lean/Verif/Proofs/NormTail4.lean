/-
The tail of the ziggurat of the normal distribution: the distribution of what it returns.
-/
import Verif.Proofs.NormTail3
set_option exponentiation.threshold 2200
set_option maxRecDepth 4000
namespace Crazy
open MeasureTheory Set intervalIntegral

/-- Of the numbers of moderate size, `S` holds of those up to `T`. -/
def SCut (T : ℝ) (S : F64 → Prop) : Prop := ∃ Q : ℝ → Prop, Upto T Q ∧ ∀ x : F64, x.IsFin → |rv x| ≤ 64 → (S x ↔ Q (rv x))

theorem avg_ind_zero (N : Nat) (hN : 0 < N) : avg N (fun m => ind (m = 0)) = 1 / N := by
  unfold avg
  obtain ⟨M, rfl⟩ : ∃ M, N = M + 1 := ⟨N - 1, by omega⟩
  rw [Finset.sum_range_succ', ind_true rfl, Finset.sum_eq_zero fun i _ => ind_false (by omega), zero_add]

theorem tailPart_near (lib : MathLib) (hl : LogOk lib) (T : ℝ) (S : F64 → Prop) (hS : SCut T S) :
    |tailPart lib S - alpha (rv normalR) * ∫ s in rv normalR..rv normalR + max (T - rv normalR) 0, gauss s| ≤ 1 / 2 ^ 36 := by
  obtain ⟨Q, hQ, hSQ⟩ := hS
  obtain ⟨r1, r2⟩ := normalR_bounds
  obtain ⟨R, hR⟩ : ∃ R, rv normalR = R := ⟨_, rfl⟩
  obtain ⟨Y, hY⟩ : ∃ Y, T - R = Y := ⟨_, rfl⟩
  have r0 : 0 < rv normalR := by linarith
  have key : ∀ m : Nat, m < 2 ^ 53 → 0 < m → (S (F64.add (tailX lib m) normalR) → nlog m ≤ R * (Y + 1 / 2 ^ 44)) ∧
      (nlog m ≤ R * (Y - 1 / 2 ^ 43) → S (F64.add (tailX lib m) normalR)) ∧ |tailAccShare lib m - psi R ((m : ℝ) / 2 ^ 53)| ≤ 1 / 2 ^ 37 := by
    intro m hm hm0
    obtain ⟨o1, o2, o3⟩ := tailOut_near lib hl m hm hm0
    have o4 := hSQ _ o1 o2
    have o5 := abs_le.mp o3
    have hacc := tailAccShare_near lib hl m hm hm0
    rw [hR] at o5 hacc r0
    refine ⟨fun h => ?_, fun h => ?_, hacc⟩
    · have := hQ.le (o4.mp h)
      have h1 : nlog m / R ≤ Y + 1 / 2 ^ 44 := by linarith
      rwa [div_le_iff₀ r0, mul_comm] at h1
    · refine o4.mpr (hQ.below _ ?_)
      have h1 : nlog m / R ≤ Y - 1 / 2 ^ 43 := by rwa [div_le_iff₀ r0, mul_comm]
      have h2 : (1 : ℝ) / 2 ^ 44 < 1 / 2 ^ 43 := by norm_num
      linarith
  rw [hR] at r0 r1 r2 ⊢
  rw [hY]
  have cs : (((2 : Nat) ^ 53 : Nat) : ℝ) = 2 ^ 53 := by rw [Nat.cast_pow, Nat.cast_ofNat]
  have up : tailPart lib S ≤ (avg (2 ^ 53) fun m => psiCut R (Real.exp (-(R * (Y + 1 / 2 ^ 44)))) ((m : ℝ) / 2 ^ 53)) + 1 / 2 ^ 37 + 1 / 2 ^ 53 := by
    have e : (avg (2 ^ 53) fun m => psiCut R (Real.exp (-(R * (Y + 1 / 2 ^ 44)))) ((m : ℝ) / 2 ^ 53)) + 1 / 2 ^ 37 + 1 / 2 ^ 53 =
        avg (2 ^ 53) fun m => psiCut R (Real.exp (-(R * (Y + 1 / 2 ^ 44)))) ((m : ℝ) / 2 ^ 53) + 1 / 2 ^ 37 + ind (m = 0) := by
      rw [avg_add, avg_add, avg_ind_zero _ (by positivity), avg_const (by positivity), cs]
    rw [e]
    unfold tailPart
    refine avg_mono fun m hm => ?_
    have b := psiCut_bounds R (Real.exp (-(R * (Y + 1 / 2 ^ 44)))) ((m : ℝ) / 2 ^ 53)
    have s := tailAccShare_bounds lib m
    rcases Nat.eq_zero_or_pos m with rfl | hm0
    · have h1 : ind (S (F64.add (tailX lib 0) normalR)) * tailAccShare lib 0 ≤ 1 := mul_le_one₀ (ind_le_one _) s.1 s.2
      rw [ind_true (P := (0 : Nat) = 0) rfl]
      have : (0 : ℝ) ≤ 1 / 2 ^ 37 := by norm_num
      linarith [b.1]
    · obtain ⟨k1, -, k3⟩ := key m hm hm0
      have h0 : (0 : ℝ) ≤ 1 / 2 ^ 37 := by norm_num
      rw [ind_false (P := m = 0) (by omega), add_zero]
      by_cases h : S (F64.add (tailX lib m) normalR)
      · have h1 := k1 h
        have hpos : 0 < (m : ℝ) / 2 ^ 53 := div_pos (Nat.cast_pos.mpr hm0) two_pow_53
        have h2 : Real.exp (-(R * (Y + 1 / 2 ^ 44))) ≤ (m : ℝ) / 2 ^ 53 := by
          rw [← Real.le_log_iff_exp_le hpos]
          have : nlog m = -Real.log ((m : ℝ) / 2 ^ 53) := rfl
          linarith
        have h3 : psiCut R (Real.exp (-(R * (Y + 1 / 2 ^ 44)))) ((m : ℝ) / 2 ^ 53) = psi R ((m : ℝ) / 2 ^ 53) := if_pos h2
        rw [ind_true h, one_mul, h3]
        linarith [(abs_le.mp k3).2]
      · rw [ind_false h, zero_mul]
        linarith [b.1]
  have lo : (avg (2 ^ 53) fun m => psiCut R (Real.exp (-(R * (Y - 1 / 2 ^ 43)))) ((m : ℝ) / 2 ^ 53)) - 1 / 2 ^ 37 ≤ tailPart lib S := by
    have e : (avg (2 ^ 53) fun m => psiCut R (Real.exp (-(R * (Y - 1 / 2 ^ 43)))) ((m : ℝ) / 2 ^ 53)) - 1 / 2 ^ 37 =
        avg (2 ^ 53) fun m => psiCut R (Real.exp (-(R * (Y - 1 / 2 ^ 43)))) ((m : ℝ) / 2 ^ 53) - 1 / 2 ^ 37 := by
      rw [avg_sub, avg_const (by positivity)]
    rw [e]
    unfold tailPart
    refine avg_mono fun m hm => ?_
    have s := tailAccShare_bounds lib m
    have h0 : (0 : ℝ) ≤ 1 / 2 ^ 37 := by norm_num
    have hnn : 0 ≤ ind (S (F64.add (tailX lib m) normalR)) * tailAccShare lib m := mul_nonneg (ind_nonneg _) s.1
    by_cases h : Real.exp (-(R * (Y - 1 / 2 ^ 43))) ≤ (m : ℝ) / 2 ^ 53
    · have hpos : 0 < (m : ℝ) / 2 ^ 53 := lt_of_lt_of_le (Real.exp_pos _) h
      have hm0 : 0 < m := by
        rcases Nat.eq_zero_or_pos m with rfl | h
        · rw [Nat.cast_zero, zero_div] at hpos; exact absurd hpos (lt_irrefl _)
        · exact h
      obtain ⟨-, k2, k3⟩ := key m hm hm0
      have h3 : psiCut R (Real.exp (-(R * (Y - 1 / 2 ^ 43)))) ((m : ℝ) / 2 ^ 53) = psi R ((m : ℝ) / 2 ^ 53) := if_pos h
      rw [← Real.le_log_iff_exp_le hpos] at h
      have h4 : nlog m = -Real.log ((m : ℝ) / 2 ^ 53) := rfl
      rw [ind_true (k2 (by linarith)), one_mul, h3]
      linarith [(abs_le.mp k3).1]
    · have h3 : psiCut R (Real.exp (-(R * (Y - 1 / 2 ^ 43)))) ((m : ℝ) / 2 ^ 53) = 0 := if_neg h
      rw [h3]
      linarith
  have i1 := abs_le.mp (psiCut_integral R (Y + 1 / 2 ^ 44) r0)
  have i2 := abs_le.mp (psiCut_integral R (Y - 1 / 2 ^ 43) r0)
  have l1 := alpha_lip R (Y + 1 / 2 ^ 44) Y r0
  have l2 := alpha_lip R (Y - 1 / 2 ^ 43) Y r0
  rw [add_sub_cancel_left, abs_of_pos (show (0 : ℝ) < 1 / 2 ^ 44 by norm_num)] at l1
  rw [sub_sub_cancel_left, abs_neg, abs_of_pos (show (0 : ℝ) < 1 / 2 ^ 43 by norm_num)] at l2
  have l1 := abs_le.mp l1
  have l2 := abs_le.mp l2
  have n1 : R * (1 / 2 ^ 44) ≤ 5 * (1 / 2 ^ 44) := mul_le_mul_of_nonneg_right r2 (by norm_num)
  have n2 : R * (1 / 2 ^ 43) ≤ 5 * (1 / 2 ^ 43) := mul_le_mul_of_nonneg_right r2 (by norm_num)
  have n3 : (5 : ℝ) * (1 / 2 ^ 44) + 1 / 2 ^ 37 + 1 / 2 ^ 53 + 1 / 2 ^ 53 ≤ 1 / 2 ^ 36 := by norm_num
  have n4 : (5 : ℝ) * (1 / 2 ^ 43) + 1 / 2 ^ 37 + 1 / 2 ^ 53 ≤ 1 / 2 ^ 36 := by norm_num
  rw [abs_le]
  constructor
  · linarith [l2.1, i2.1]
  · linarith [l1.2, i1.2]

/-- The area of the tail from `r` on. -/
noncomputable def gaussTail (r : ℝ) : ℝ := ∫ s in Ioi r, gauss s

theorem gauss_ion (r : ℝ) : IntegrableOn gauss (Ioi r) := gauss_integrable r

theorem gaussTail_split (r s : ℝ) (h : r ≤ s) : gaussTail r = (∫ x in r..s, gauss x) + gaussTail s := by
  unfold gaussTail
  rw [integral_of_le h, ← setIntegral_union Ioc_disjoint_Ioi_same measurableSet_Ioi ((gauss_ion r).mono_set Ioc_subset_Ioi_self) (gauss_ion s),
    Ioc_union_Ioi_eq_Ioi h]

theorem gaussTail_pos (r : ℝ) : 0 ≤ gaussTail r := setIntegral_nonneg measurableSet_Ioi fun x _ => (gauss_pos x).le

theorem gaussTail_mills (r : ℝ) (hr : 1 ≤ r) : r / (r ^ 2 + 1) * gauss r ≤ gaussTail r ∧ gaussTail r ≤ 1 / r * gauss r := by
  have h0 := (mills_bounds r hr 0).2
  have h1 := (mills_bounds r hr 1).1
  simp only [millsP, millsQ] at h0 h1
  constructor
  · refine le_trans (le_of_eq ?_) h1
    unfold gauss
    refine congrArg (· * Real.exp (-r ^ 2 / 2)) ?_
    congr 1
    · simp
    · simp; ring
  · exact h0

theorem alpha_pos (r : ℝ) (hr : 0 < r) : 0 < alpha r := by unfold alpha; positivity

theorem alpha_self (r : ℝ) : alpha r * gauss r = r := by
  unfold alpha gauss
  rw [mul_assoc, ← Real.exp_add, show r ^ 2 / 2 + -r ^ 2 / 2 = 0 by ring, Real.exp_zero, mul_one]

theorem alpha_tail (r : ℝ) (hr : 4 ≤ r) : 16 / 17 ≤ alpha r * gaussTail r := by
  have h := mul_le_mul_of_nonneg_left (gaussTail_mills r (by linarith)).1 (alpha_pos r (by linarith)).le
  refine le_trans ?_ h
  rw [show alpha r * (r / (r ^ 2 + 1) * gauss r) = r / (r ^ 2 + 1) * (alpha r * gauss r) by ring, alpha_self, div_mul_eq_mul_div,
    div_le_div_iff₀ (by norm_num) (by positivity)]
  nlinarith

theorem alpha_far (r : ℝ) (h4 : 4 ≤ r) (h5 : r ≤ 5) : alpha r * gaussTail 64 ≤ 1 / 2 ^ 40 := by
  have h := (gaussTail_mills 64 (by norm_num)).2
  have h1 : alpha r * gauss 64 ≤ 5 * (1 / 2 ^ 49) := by
    unfold alpha gauss
    rw [mul_assoc, ← Real.exp_add]
    refine mul_le_mul h5 ?_ (Real.exp_pos _).le (by norm_num)
    have h49 : Real.exp (-49) ≤ 1 / 2 ^ 49 := by
      have h : (2 : ℝ) ≤ Real.exp 1 := by have := Real.add_one_le_exp (1 : ℝ); linarith
      have h2 : (2 : ℝ) ^ 49 ≤ Real.exp 49 := by
        have : Real.exp 49 = Real.exp 1 ^ 49 := by rw [← Real.exp_nat_mul]; norm_num
        rw [this]
        exact pow_le_pow_left₀ (by norm_num) h 49
      rw [Real.exp_neg, one_div]
      exact inv_anti₀ (by norm_num) h2
    refine (Real.exp_le_exp.mpr ?_).trans h49
    nlinarith
  have h2 := mul_le_mul_of_nonneg_left h (alpha_pos r (by linarith)).le
  have h3 : alpha r * (1 / 64 * gauss 64) = 1 / 64 * (alpha r * gauss 64) := by ring
  have h4 : (1 : ℝ) / 64 * (5 * (1 / 2 ^ 49)) ≤ 1 / 2 ^ 40 := by norm_num
  rw [h3] at h2
  linarith

theorem tailPart_all (lib : MathLib) (hl : LogOk lib) :
    |(tailPart lib fun _ => True) - alpha (rv normalR) * gaussTail (rv normalR)| ≤ 1 / 2 ^ 35 := by
  obtain ⟨r1, r2⟩ := normalR_bounds
  have h := tailPart_near lib hl 64 (fun _ => True) ⟨fun x => x ≤ 64, ⟨fun x h => h.le, fun x h => not_le.mpr h⟩,
    fun x _ hx => ⟨fun _ => (abs_le.mp hx).2, fun _ => trivial⟩⟩
  rw [max_eq_left (by linarith), add_sub_cancel] at h
  have h2 := alpha_far _ r1 r2
  have h3 : 0 ≤ alpha (rv normalR) * gaussTail 64 := mul_nonneg (alpha_pos _ (by linarith)).le (gaussTail_pos _)
  rw [gaussTail_split (rv normalR) 64 (by linarith), mul_add]
  have h4 : (1 : ℝ) / 2 ^ 36 + 1 / 2 ^ 40 ≤ 1 / 2 ^ 35 := by norm_num
  rw [abs_le] at h ⊢
  constructor <;> linarith [h.1, h.2]

theorem tailPart_ge (lib : MathLib) (hl : LogOk lib) : 15 / 16 ≤ tailPart lib fun _ => True := by
  have h := (abs_le.mp (tailPart_all lib hl)).1
  have h2 := alpha_tail _ normalR_bounds.1
  norm_num at h ⊢
  linarith

/-- The share of the tail up to `T`. -/
noncomputable def tailRatio (T : ℝ) : ℝ := (∫ s in rv normalR..rv normalR + max (T - rv normalR) 0, gauss s) / gaussTail (rv normalR)

theorem ratio_close (a aS A J al e1 e2 : ℝ) (ha : 15 / 16 ≤ a) (hA : 0 < A) (hJ0 : 0 ≤ J) (hJ : J ≤ A)
    (h1 : |aS - al * J| ≤ e1) (h2 : |a - al * A| ≤ e2) : |aS / a - J / A| ≤ 16 / 15 * (e1 + e2) := by
  have ha0 : 0 < a := by linarith
  have e : aS / a - J / A = ((aS - al * J) - (a - al * A) * (J / A)) / a := by field_simp; ring
  have hr : |J / A| ≤ 1 := by rw [abs_of_nonneg (div_nonneg hJ0 hA.le), div_le_one hA]; exact hJ
  rw [e, abs_div, abs_of_pos ha0, div_le_iff₀ ha0]
  have h3 : |(a - al * A) * (J / A)| ≤ e2 := by
    rw [abs_mul]
    exact (mul_le_of_le_one_right (abs_nonneg _) hr).trans h2
  have h4 := abs_sub (aS - al * J) ((a - al * A) * (J / A))
  have h5 : 0 ≤ e1 + e2 := add_nonneg ((abs_nonneg _).trans h1) ((abs_nonneg _).trans h2)
  have h6 : (e1 + e2) ≤ 16 / 15 * (e1 + e2) * a := by nlinarith
  linarith

theorem tailRatio_num (T : ℝ) : 0 ≤ (∫ s in rv normalR..rv normalR + max (T - rv normalR) 0, gauss s) ∧
    (∫ s in rv normalR..rv normalR + max (T - rv normalR) 0, gauss s) ≤ gaussTail (rv normalR) := by
  have h : rv normalR ≤ rv normalR + max (T - rv normalR) 0 := by linarith [le_max_right (T - rv normalR) 0]
  refine ⟨integral_nonneg h fun x _ => (gauss_pos x).le, ?_⟩
  have := gaussTail_split _ _ h
  linarith [gaussTail_pos (rv normalR + max (T - rv normalR) 0)]

theorem gaussTail_R_pos : 0 < gaussTail (rv normalR) := by
  have h := alpha_tail _ normalR_bounds.1
  have h2 := alpha_pos _ normalR_rv_pos
  by_contra hc
  have := mul_nonpos_of_nonneg_of_nonpos h2.le (not_lt.mp hc)
  linarith

theorem tailPart_ratio (lib : MathLib) (hl : LogOk lib) (T : ℝ) (S : F64 → Prop) (hS : SCut T S) :
    |tailPart lib S / (tailPart lib fun _ => True) - tailRatio T| ≤ 1 / 2 ^ 34 := by
  have h := ratio_close _ _ _ _ _ _ _ (tailPart_ge lib hl) gaussTail_R_pos (tailRatio_num T).1 (tailRatio_num T).2
    (tailPart_near lib hl T S hS) (tailPart_all lib hl)
  refine h.trans ?_
  norm_num

/-- What the tail returns. -/
theorem tail_norm_near (lib : MathLib) (hl : LogOk lib) (T : ℝ) (S : F64 → Prop) (hS : SCut T S) (n : Nat) :
    |tailGives (normalZig lib) S n - tailRatio T| ≤ 1 / 2 ^ 34 + (1 / 16) ^ n := by
  have h1 := tail_norm_converge lib S (tailPart_ge lib hl) n
  have h2 := tailPart_ratio lib hl T S hS
  rw [abs_le] at h1 h2 ⊢
  constructor <;> linarith [h1.1, h1.2, h2.1, h2.2]

theorem tail_norm_near_not (lib : MathLib) (hl : LogOk lib) (T : ℝ) (S : F64 → Prop) (hS : SCut T fun x => ¬ S x) (n : Nat) :
    |tailGives (normalZig lib) S n - (1 - tailRatio T)| ≤ 1 / 2 ^ 34 + (1 / 16) ^ n := by
  have h1 := tail_norm_converge lib S (tailPart_ge lib hl) n
  have h2 := tailPart_ratio lib hl T (fun x => ¬ S x) hS
  have ha : 0 < tailPart lib fun _ => True := by linarith [tailPart_ge lib hl]
  rw [tailPart_not, sub_div, div_self ha.ne'] at h2
  rw [abs_le] at h1 h2 ⊢
  constructor <;> linarith [h1.1, h1.2, h2.1, h2.2]

end Crazy
