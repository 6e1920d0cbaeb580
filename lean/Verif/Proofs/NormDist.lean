/-
The layers of the ziggurat of the normal distribution.
-/
import Verif.Proofs.ExpoDist
import Verif.Proofs.FloatNear
set_option exponentiation.threshold 2200
set_option maxRecDepth 4000
namespace Crazy
open MeasureTheory Set intervalIntegral

theorem mul_exp_neg_le (a : ℝ) : a * Real.exp (-a) ≤ 1 := by
  have h := Real.add_one_le_exp a
  have h2 := Real.exp_pos (-a)
  have h3 : Real.exp a * Real.exp (-a) = 1 := by rw [← Real.exp_add, add_neg_cancel, Real.exp_zero]
  nlinarith

theorem norm_dens : Dens fun x => Real.exp (-x ^ 2 / 2) where
  cont := by fun_prop
  anti := fun x hx y _ h => Real.exp_le_exp.mpr (by
    have hx : (0 : ℝ) ≤ x := hx
    have : x ^ 2 ≤ y ^ 2 := pow_le_pow_left₀ hx h 2
    linarith)
  pos := fun x => Real.exp_pos _
  le_one := fun x h => Real.exp_le_one_iff.mpr (by nlinarith)
  lip := by
    intro a b ha hb
    have hd : ∀ x ∈ (univ : Set ℝ), HasDerivWithinAt (fun x : ℝ => Real.exp (-x ^ 2 / 2)) (-x * Real.exp (-x ^ 2 / 2)) univ x :=
      fun x _ => (gauss_deriv x).hasDerivWithinAt
    have hb' : ∀ x ∈ (univ : Set ℝ), ‖-x * Real.exp (-x ^ 2 / 2)‖ ≤ 1 := by
      intro x _
      rw [Real.norm_eq_abs, abs_mul, abs_neg, Real.abs_exp]
      have h1 := mul_exp_neg_le (x ^ 2 / 2)
      rw [show -(x ^ 2 / 2) = -x ^ 2 / 2 by ring] at h1
      have h2 := Real.exp_pos (-x ^ 2 / 2)
      have h3 : Real.exp (-x ^ 2 / 2) ≤ 1 := Real.exp_le_one_iff.mpr (by nlinarith [sq_nonneg x])
      have h4 : (|x| * Real.exp (-x ^ 2 / 2)) ^ 2 ≤ 1 := by
        have h6 := mul_exp_neg_le (x ^ 2)
        have h7 : Real.exp (-x ^ 2 / 2) ^ 2 = Real.exp (-x ^ 2) := by rw [← Real.exp_nat_mul]; congr 1; push_cast; ring
        rw [mul_pow, sq_abs, h7]
        exact h6
      exact (sq_le_one_iff₀ (by positivity)).mp h4
    have := convex_univ.norm_image_sub_le_of_norm_hasDerivWithin_le hd hb' (mem_univ b) (mem_univ a)
    rwa [one_mul] at this

theorem normal_cand_le (lib : MathLib) (i : Nat) (h : i < 1024) (j : Int) (hj : j.natAbs ≤ 2 ^ 53) :
    (cand (normalZig lib) i j).IsFin ∧ (cand (normalZig lib) i j).Valid ∧ |rv (cand (normalZig lib) i j)| ≤ 5 := by
  obtain ⟨f1, f2, f3, -⟩ := C40_normal.finite i h
  have hw := normal_x_le i h
  have h53 : zx normalW i ≤ 2 ^ 53 := (hw.trans (by norm_num)).trans pow53_11
  have e : cand (normalZig lib) i j = F64.mul (F64.ofInt j) normalW[i] := dif_pos h
  obtain ⟨k1, k2, k3⟩ := mul_isFin normalW i h f1 f2 f3 h53 j hj
  obtain ⟨p, c1, -, c3, -⟩ := candidate normalW i h f1 f2 f3 h53 j hj
  rw [e]
  exact ⟨k1, mul_fin_valid _ _ k1, by rw [c1]; exact c3.trans hw⟩

theorem half_eq : ∃ n, F64.ofDec 5 1 = .fin false n ∧ rv (F64.ofDec 5 1) = 1 / 2 := by
  have h := ofDec_row (5, 1) (2 ^ 52, 61) (by decide +kernel) (by decide)
  refine ⟨_, h, ?_⟩
  have h' : F64.ofDec 5 1 = .fin false (2 ^ 52 * 2 ^ (61 + 960)) := h
  obtain ⟨e, he⟩ : ∃ e, 1073 = e := ⟨_, rfl⟩
  rw [h', ← pow_add, show 52 + (61 + 960) = e by omega, rv_pos _ (e + 1) (by omega), Nat.cast_pow, Nat.cast_ofNat, pow_succ]
  field_simp

theorem rnd_sign (s : Bool) (a b : Nat) (h : (F64.rnd s a b).IsFin) : ∃ q, F64.rnd s a b = .fin s q := by
  unfold F64.rnd at h ⊢
  split at h
  · rename_i k; rw [if_pos k]; exact ⟨_, rfl⟩
  · exact h.elim

theorem rv_true_nonpos (n : Nat) : rv (.fin true n) ≤ 0 := by
  rw [rv_neg n 1074 rfl]
  exact neg_nonpos.mpr (div_nonneg (Nat.cast_nonneg _) (pow_nonneg zero_le_two _))

/-- The exponent of the density, as computed. -/
theorem pdf_arg (x : F64) (hx : x.IsFin) (h5 : |rv x| ≤ 5) :
    (F64.mul (F64.mul (F64.neg (F64.ofDec 5 1)) x) x).IsFin ∧ (F64.mul (F64.mul (F64.neg (F64.ofDec 5 1)) x) x).Valid ∧
    rv (F64.mul (F64.mul (F64.neg (F64.ofDec 5 1)) x) x) ≤ 0 ∧
    |rv (F64.mul (F64.mul (F64.neg (F64.ofDec 5 1)) x) x) - -rv x ^ 2 / 2| ≤ 3 * (rv x ^ 2 / 2) / 2 ^ 53 + 1 / 2 ^ 990 := by
  obtain ⟨n, hn, hv⟩ := half_eq
  obtain ⟨k, hk⟩ : ∃ k, 990 = k := ⟨_, rfl⟩
  have hbig : (2 : ℝ) ^ 10 ≤ 2 ^ 1000 := pow_le_pow_right₀ (by norm_num) (by norm_num)
  have e0 : rv (F64.neg (F64.ofDec 5 1)) = -(1 / 2) := by rw [rv_neg_eq, hv]
  have f0 : (F64.neg (F64.ofDec 5 1)).IsFin := by rw [hn]; trivial
  have n1 := F64.mul_near (F64.neg (F64.ofDec 5 1)) x f0 hx (by
    rw [e0, abs_mul, abs_neg, abs_of_pos (by norm_num : (0 : ℝ) < 1 / 2)]
    refine le_trans ?_ hbig
    norm_num
    linarith)
  rw [e0] at n1
  obtain ⟨a1, a2, a3⟩ := n1
  have hy1 : |rv (F64.mul (F64.neg (F64.ofDec 5 1)) x)| ≤ 4 := by
    have : |-(1 / 2 : ℝ) * rv x| ≤ 5 / 2 := by rw [abs_mul, abs_neg, abs_of_pos (by norm_num : (0 : ℝ) < 1 / 2)]; linarith
    have h3 := abs_sub_abs_le_abs_sub (rv (F64.mul (F64.neg (F64.ofDec 5 1)) x)) (-(1 / 2) * rv x)
    have h4 : |-(1 / 2 : ℝ) * rv x| / 2 ^ 53 ≤ 5 / 2 / 1 := div_le_div₀ (by norm_num) this (by norm_num) (by norm_num)
    have h5 : (1 : ℝ) / 2 ^ 1000 ≤ 1 / 8 := one_div_le_one_div_of_le (by norm_num) (by
      have := pow_le_pow_right₀ (one_le_two : (1 : ℝ) ≤ 2) (show 3 ≤ 1000 by norm_num); linarith)
    have h6 : |-(1 / 2 : ℝ) * rv x| / 2 ^ 53 ≤ 1 / 8 := by
      refine (div_le_div_of_nonneg_right this (by norm_num)).trans (by norm_num)
    linarith
  have n2 := F64.mul_near _ x a1 hx (by
    rw [abs_mul]
    refine le_trans ?_ hbig
    have : |rv (F64.mul (F64.neg (F64.ofDec 5 1)) x)| * |rv x| ≤ 4 * 5 := mul_le_mul hy1 h5 (abs_nonneg _) (by norm_num)
    linarith)
  obtain ⟨b1, b2, b3⟩ := n2
  refine ⟨b1, b2, ?_, ?_⟩
  · match x, hx with
    | .fin s m, _ =>
      rw [hn] at a1 b1 ⊢
      obtain ⟨q, hq⟩ := rnd_sign _ _ _ a1
      have hq' : F64.mul (F64.neg (.fin false n)) (.fin s m) = .fin (!s) q := by
        refine Eq.trans hq ?_
        cases s <;> rfl
      rw [hq'] at b1 ⊢
      obtain ⟨q2, hq2⟩ := rnd_sign _ _ _ b1
      have : F64.mul (.fin (!s) q) (.fin s m) = .fin true q2 := by
        refine Eq.trans hq2 ?_
        cases s <;> rfl
      rw [this]
      exact rv_true_nonpos q2
  · generalize rv (F64.mul (F64.mul (F64.neg (F64.ofDec 5 1)) x) x) = y2 at *
    generalize rv (F64.mul (F64.neg (F64.ofDec 5 1)) x) = y1 at *
    generalize rv x = c at *
    have t0 : (0 : ℝ) < 1 / 2 ^ 1000 := by positivity
    have t1 : 20 * (1 / 2 ^ 1000 : ℝ) ≤ 1 / 2 ^ k := by
      rw [mul_one_div, div_le_div_iff₀ (by positivity) (by positivity), one_mul, show 1000 = 10 + k by omega, pow_add]
      have : (0 : ℝ) < 2 ^ k := by positivity
      nlinarith
    rw [hk]
    generalize (1 : ℝ) / 2 ^ 1000 = η at *
    -- multiply the first error by c
    have c1 : |y1 * c - -(1 / 2) * c * c| ≤ (c ^ 2 / 2) / 2 ^ 53 + 5 * η := by
      rw [← sub_mul, abs_mul]
      have : |y1 - -(1 / 2) * c| * |c| ≤ (|-(1 / 2) * c| / 2 ^ 53 + η) * |c| := mul_le_mul_of_nonneg_right a3 (abs_nonneg _)
      refine this.trans ?_
      rw [add_mul, abs_mul, abs_neg, abs_of_pos (by norm_num : (0 : ℝ) < 1 / 2)]
      have e1 : 1 / 2 * |c| / 2 ^ 53 * |c| = (c ^ 2 / 2) / 2 ^ 53 := by rw [← sq_abs c]; ring
      rw [e1]
      have : η * |c| ≤ η * 5 := mul_le_mul_of_nonneg_left h5 t0.le
      linarith
    have c2 : |y1 * c| ≤ 2 * (c ^ 2 / 2) + 5 * η := by
      have h3 := abs_sub_abs_le_abs_sub (y1 * c) (-(1 / 2) * c * c)
      have h4 : |-(1 / 2) * c * c| = c ^ 2 / 2 := by
        rw [show -(1 / 2) * c * c = -(c ^ 2 / 2) by ring, abs_neg, abs_of_nonneg (by positivity)]
      have h6 : (c ^ 2 / 2) / 2 ^ 53 ≤ c ^ 2 / 2 := div_le_self (by positivity) (by norm_num)
      linarith
    have c3 : |y1 * c| / 2 ^ 53 ≤ 2 * (c ^ 2 / 2) / 2 ^ 53 + 5 * η := by
      refine (div_le_div_of_nonneg_right c2 (by norm_num)).trans ?_
      rw [add_div]
      have : 5 * η / 2 ^ 53 ≤ 5 * η := div_le_self (by positivity) (by norm_num)
      linarith
    have e2 : -(1 / 2) * c * c = -c ^ 2 / 2 := by ring
    rw [e2] at c1
    have e3 : 3 * (c ^ 2 / 2) / 2 ^ 53 = (c ^ 2 / 2) / 2 ^ 53 + 2 * (c ^ 2 / 2) / 2 ^ 53 := by ring
    rw [e3]
    rw [abs_le] at b3 c1 ⊢
    constructor <;> linarith [b3.1, b3.2, c1.1, c1.2]

theorem exp_near (a y : ℝ) (ha : 0 ≤ a) (h15 : a ≤ 15) (h : |y - -a| ≤ 3 * a / 2 ^ 53 + 1 / 2 ^ 990) : |Real.exp y - Real.exp (-a)| ≤ 7 / 2 ^ 53 := by
  have hη : (1 : ℝ) / 2 ^ 990 ≤ 1 / 2 ^ 60 := one_div_le_one_div_of_le (by norm_num) (pow_le_pow_right₀ (by norm_num) (by norm_num))
  have h' : |y - -a| ≤ 3 * a / 2 ^ 53 + 1 / 2 ^ 60 := h.trans (by linarith)
  have hd : |y - -a| ≤ 1 := by
    refine h'.trans ?_
    have : 3 * a / 2 ^ 53 ≤ 3 * 15 / 2 ^ 53 := div_le_div_of_nonneg_right (by linarith) (by norm_num)
    refine (add_le_add_left this _).trans ?_
    norm_num
  have e1 : Real.exp y = Real.exp (-a) * Real.exp (y - -a) := by rw [← Real.exp_add]; congr 1; ring
  have h1 := Real.abs_exp_sub_one_le hd
  have h2 := Real.exp_pos (-a)
  have h3 := mul_exp_neg_le a
  have h4 : Real.exp (-a) ≤ 1 := Real.exp_le_one_iff.mpr (by linarith)
  rw [e1, ← mul_sub_one, abs_mul, abs_of_pos h2]
  calc Real.exp (-a) * |Real.exp (y - -a) - 1| ≤ Real.exp (-a) * (2 * (3 * a / 2 ^ 53 + 1 / 2 ^ 60)) :=
        mul_le_mul_of_nonneg_left (h1.trans (by linarith)) h2.le
    _ = 6 / 2 ^ 53 * (a * Real.exp (-a)) + 2 / 2 ^ 60 * Real.exp (-a) := by ring
    _ ≤ 6 / 2 ^ 53 * 1 + 2 / 2 ^ 60 * 1 := by
        refine add_le_add (mul_le_mul_of_nonneg_left h3 (by norm_num)) (mul_le_mul_of_nonneg_left h4 (by norm_num))
    _ ≤ 7 / 2 ^ 53 := by norm_num

/-- The density that the code computes. -/
theorem normalPDF_near (lib : MathLib) (he : ExpOk lib) (x : F64) (c1 : x.IsFin) (c4 : |rv x| ≤ 5) :
    (normalPDF lib x).IsFin ∧ |rv (normalPDF lib x) - Real.exp (-rv x ^ 2 / 2)| ≤ 1 / 2 ^ 49 := by
  obtain ⟨p1, p2, p3, p4⟩ := pdf_arg x c1 c4
  have hsq : rv x ^ 2 / 2 ≤ 15 := by
    have : rv x ^ 2 ≤ 5 ^ 2 := sq_le_sq' (by linarith [(abs_le.mp c4).1]) (abs_le.mp c4).2
    linarith
  have hnear := exp_near (rv x ^ 2 / 2) (rv (F64.mul (F64.mul (F64.neg (F64.ofDec 5 1)) x) x)) (by positivity) hsq (by
    rwa [show -(rv x ^ 2 / 2) = -rv x ^ 2 / 2 by ring])
  rw [show -(rv x ^ 2 / 2) = -rv x ^ 2 / 2 by ring] at hnear
  have hlo : -32 ≤ rv (F64.mul (F64.mul (F64.neg (F64.ofDec 5 1)) x) x) := by
    have := (abs_le.mp p4).1
    have h1 : 3 * (rv x ^ 2 / 2) / 2 ^ 53 ≤ 3 * 15 / 2 ^ 53 := div_le_div_of_nonneg_right (by linarith) (by norm_num)
    have h2 : (1 : ℝ) / 2 ^ 990 ≤ 1 := by rw [div_le_one (by positivity)]; exact one_le_pow₀ (by norm_num)
    have h3 : (3 : ℝ) * 15 / 2 ^ 53 ≤ 1 := by norm_num
    have h4 : -rv x ^ 2 / 2 = -(rv x ^ 2 / 2) := by ring
    rw [h4] at this
    linarith
  have e1 := he _ p1 p2 hlo p3
  refine ⟨e1.1, ?_⟩
  show |rv (lib.exp (F64.mul (F64.mul (F64.neg (F64.ofDec 5 1)) x) x)) - _| ≤ _
  have e2 : Real.exp (rv (F64.mul (F64.mul (F64.neg (F64.ofDec 5 1)) x) x)) / 2 ^ 50 ≤ 1 / 2 ^ 50 :=
    div_le_div_of_nonneg_right (Real.exp_le_one_iff.mpr p3) (by norm_num)
  have e3 := e1.2
  have e4 : (1 : ℝ) / 2 ^ 50 + 7 / 2 ^ 53 ≤ 1 / 2 ^ 49 := by norm_num
  rw [abs_le] at e3 hnear ⊢
  constructor <;> linarith [e3.1, e3.2, hnear.1, hnear.2]

theorem normal_ok (lib : MathLib) (he : ExpOk lib) (fused : Bool) :
    ZigOk 11 (normalZig lib) fused (fun _ => True) (fun x => Real.exp (-x ^ 2 / 2)) where
  dens := norm_dens
  zig := C40_normal
  big := pow53_11
  wid := fun i h => (normal_x_le i h).trans (by norm_num)
  k0 := normalK_zero
  wedge := fun i hi h0 m hm => weaken_wedge (wedge_unit normal_rowsOf normalRows_D C40_normal fused i hi h0 m hm)
  pdf := by
    intro i hi j hj _
    obtain ⟨c1, -, c4⟩ := normal_cand_le lib i hi j hj
    rw [sq_abs]
    generalize cand (normalZig lib) i j = x at *
    exact normalPDF_near lib he x c1 c4

end Crazy
