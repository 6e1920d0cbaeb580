/-
The distribution of what the ziggurat of the normal distribution draws.
-/
import Verif.Proofs.NormTail4
import Mathlib.Analysis.Real.Pi.Bounds
set_option exponentiation.threshold 2200
set_option maxRecDepth 4000
namespace Crazy
open MeasureTheory Set intervalIntegral

theorem gaussTail_zero : gaussTail 0 = Real.sqrt (2 * Real.pi) / 2 := by
  have h := integral_gaussian_Ioi (1 / 2)
  unfold gaussTail gauss
  rw [show Real.pi / (1 / 2) = 2 * Real.pi by ring] at h
  rw [← h]
  refine setIntegral_congr_fun measurableSet_Ioi fun x _ => ?_
  show Real.exp (-x ^ 2 / 2) = Real.exp (-(1 / 2) * x ^ 2)
  refine congrArg Real.exp ?_
  ring

theorem area_ge : 12529 / 10000 ≤ gaussTail 0 := by
  rw [gaussTail_zero, le_div_iff₀ (by norm_num)]
  refine Real.le_sqrt_of_sq_le ?_
  have := Real.pi_gt_d2
  norm_num at this ⊢
  linarith

theorem normalRows_V : normalRows[0]!.w * normalRows[1023]!.f * 1020 * 10000 ≤ 12528 * 2 ^ 175 := by decide +kernel

theorem normal_V : 1020 * zv normalW normalF ≤ 12528 / 10000 := by
  have h := normalRows_V
  rw [zv_rows normal_rowsOf]
  obtain ⟨a, ha⟩ : ∃ a, normalRows[0]!.w * normalRows[1023]!.f = a := ⟨_, rfl⟩
  rw [ha] at h ⊢
  clear ha
  have h2 : (a : ℝ) * 1020 * 10000 ≤ 12528 * 2 ^ 175 := by exact_mod_cast h
  rw [mul_div_assoc', div_le_iff₀ (by norm_num), div_mul_eq_mul_div, le_div_iff₀ (by norm_num)]
  linarith

theorem gauss_even (T : ℝ) : ∫ s in (0 : ℝ)..-T, gauss s = -∫ s in (0 : ℝ)..T, gauss s := by
  have h := intervalIntegral.integral_comp_neg (a := 0) (b := T) gauss
  have e : ∀ s, gauss (-s) = gauss s := fun s => by unfold gauss; rw [neg_sq]
  simp only [e] at h
  rw [h, neg_zero, intervalIntegral.integral_symm]

theorem gauss_signed (T : ℝ) : (∫ s in (0 : ℝ)..max T 0, gauss s) - (∫ s in (0 : ℝ)..max (-T) 0, gauss s) = ∫ s in (0 : ℝ)..T, gauss s := by
  rcases le_total T 0 with h | h
  · rw [max_eq_right h, max_eq_left (by linarith), gauss_even, integral_same]; ring
  · rw [max_eq_left h, max_eq_right (by linarith), integral_same]; ring

theorem gauss_pieces (T R : ℝ) (hR : 0 < R) :
    (∫ s in (0 : ℝ)..min (max T 0) R, gauss s) + (∫ s in R..R + max (T - R) 0, gauss s) = ∫ s in (0 : ℝ)..max T 0, gauss s := by
  rcases le_total T R with h | h
  · rw [min_eq_left (max_le h hR.le), max_eq_right (by linarith : T - R ≤ 0), add_zero, integral_same, add_zero]
  · rw [min_eq_right (le_max_of_le_left h), max_eq_left (by linarith : 0 ≤ T - R), max_eq_left (by linarith : 0 ≤ T), add_sub_cancel,
      integral_add_adjacent_intervals (gauss_ii _ _) (gauss_ii _ _)]

theorem gauss_lip (a b : ℝ) : |∫ s in a..b, gauss s| ≤ |b - a| := by
  have := norm_integral_le_of_norm_le_const (f := gauss) (a := a) (b := b) (C := 1) (fun s _ => by
    rw [Real.norm_eq_abs, abs_of_pos (gauss_pos s)]; exact gauss_le_one s)
  rwa [one_mul] at this

theorem R_close : 0 ≤ zx normalW 1023 - rv normalR ∧ zx normalW 1023 - rv normalR ≤ 1 / 2 ^ 47 := by
  have h := C40_normalR
  change rv normalR ≤ zx normalW 1023 ∧ zx normalW 1023 ≤ rv normalR + 1 / 2 ^ 47 at h
  constructor <;> linarith [h.1, h.2]

theorem R_cut (T R R' : ℝ) (h : R' ≤ R) (d : ℝ) (hd : R - R' ≤ d) :
    |(∫ s in R..R + max (T - R) 0, gauss s) - ∫ s in R'..R' + max (T - R') 0, gauss s| ≤ d := by
  rcases le_total T R with h1 | h1
  · rw [max_eq_right (by linarith : T - R ≤ 0), add_zero, integral_same, zero_sub, abs_neg]
    refine (gauss_lip _ _).trans ?_
    rw [add_sub_cancel_left, abs_of_nonneg (le_max_right _ _)]
    exact max_le (by linarith) (by linarith)
  · rw [max_eq_left (by linarith : 0 ≤ T - R), max_eq_left (by linarith : 0 ≤ T - R'), add_sub_cancel, add_sub_cancel,
      ← integral_add_adjacent_intervals (gauss_ii R' R) (gauss_ii R T), sub_add_cancel_right, abs_neg]
    refine (gauss_lip _ _).trans ?_
    rw [abs_of_nonneg (by linarith)]
    exact hd

theorem tail_area_small : gaussTail (zx normalW 1023) ≤ 1 / 2 ^ 10 := by
  have h4 : 4 ≤ zx normalW 1023 := by linarith [R_close.1, normalR_bounds.1]
  have h1 : gaussTail (zx normalW 1023) ≤ gaussTail 4 := by
    rw [gaussTail_split 4 _ h4]
    linarith [integral_nonneg (f := gauss) (μ := volume) h4 fun x _ => (gauss_pos x).le]
  have h2 := (gaussTail_mills 4 (by norm_num)).2
  have h3 : gauss 4 ≤ 1 / 2 ^ 8 := by
    unfold gauss
    have h : (2 : ℝ) ≤ Real.exp 1 := by have := Real.add_one_le_exp (1 : ℝ); linarith
    have h2 : (2 : ℝ) ^ 8 ≤ Real.exp 8 := by
      have : Real.exp 8 = Real.exp 1 ^ 8 := by rw [← Real.exp_nat_mul]; norm_num
      rw [this]
      exact pow_le_pow_left₀ (by norm_num) h 8
    rw [show (-(4 : ℝ) ^ 2 / 2) = -8 by norm_num, Real.exp_neg, one_div]
    exact inv_anti₀ (by norm_num) h2
  have h5 : (1 : ℝ) / 4 * gauss 4 ≤ 1 / 4 * (1 / 2 ^ 8) := mul_le_mul_of_nonneg_left h3 (by norm_num)
  refine (h1.trans (h2.trans h5)).trans ?_
  norm_num

/-- The area of the tail, times the share up to `T`, is the area of the tail up to `T`. -/
theorem tailRatio_area (T : ℝ) : 0 ≤ tailRatio T ∧ tailRatio T ≤ 1 ∧
    |gaussTail (zx normalW 1023) * tailRatio T - ∫ s in zx normalW 1023..zx normalW 1023 + max (T - zx normalW 1023) 0, gauss s| ≤ 1 / 2 ^ 46 := by
  obtain ⟨n1, n2⟩ := tailRatio_num T
  have hp := gaussTail_R_pos
  have t0 : 0 ≤ tailRatio T := div_nonneg n1 hp.le
  have t1 : tailRatio T ≤ 1 := by unfold tailRatio; rw [div_le_one hp]; exact n2
  obtain ⟨c1, c2⟩ := R_close
  refine ⟨t0, t1, ?_⟩
  have h1 := R_cut T (zx normalW 1023) (rv normalR) (by linarith) _ c2
  have h2 : gaussTail (rv normalR) * tailRatio T = ∫ s in rv normalR..rv normalR + max (T - rv normalR) 0, gauss s := by
    unfold tailRatio
    rw [mul_div_cancel₀ _ hp.ne']
  have h3 : |gaussTail (rv normalR) * tailRatio T - gaussTail (zx normalW 1023) * tailRatio T| ≤ 1 / 2 ^ 47 := by
    rw [← sub_mul, abs_mul, abs_of_nonneg t0, gaussTail_split (rv normalR) (zx normalW 1023) (by linarith), add_sub_cancel_right]
    refine (mul_le_of_le_one_right (abs_nonneg _) t1).trans ((gauss_lip _ _).trans ?_)
    rw [abs_of_nonneg c1]
    exact c2
  rw [← h2] at h1
  have h4 : (1 : ℝ) / 2 ^ 47 + 1 / 2 ^ 47 = 1 / 2 ^ 46 := by norm_num
  rw [abs_le] at h1 h3 ⊢
  constructor <;> linarith [h1.1, h1.2, h3.1, h3.2]

/-- One side of the layers. -/
theorem norm_side (lib : MathLib) (he : ExpOk lib) (fused : Bool) (o : Nat → Int) (ho : Side (fun _ => True) o) (T : ℝ) (Q : ℝ → Prop)
    (hQ : Upto T Q) :
    |zv normalW normalF * sideSum (normalZig lib) fused o Q - ∫ s in (0 : ℝ)..min (max T 0) (zx normalW 1023), gauss s| ≤ 1 / 2 ^ 33 := by
  have hz := normal_ok lib he fused
  have hR0 : 0 < zx normalW 1023 := (C40_normal.finite 1023 (by omega)).2.2.1
  rcases le_total 0 T with hT | hT
  · rw [max_eq_left hT]
    exact hz.side ho hT hQ
  · rcases eq_or_lt_of_le hT with rfl | hT
    · rw [max_self]
      exact hz.side ho le_rfl hQ
    · have h := hz.side ho (T := 0) (Q := fun x => x < 0) le_rfl ⟨fun x h => h, fun x h => not_lt.mpr h.le⟩
      rw [max_eq_right hT.le]
      rw [sideSum_congr (normalZig lib) fused o Q (fun x => x < 0) fun i hi l hl =>
        ⟨fun h => absurd h (hQ.above _ (lt_of_lt_of_le hT (abs_nonneg _))), fun h => absurd h (not_lt.mpr (abs_nonneg _))⟩]
      exact h

theorem upto_neg {T : ℝ} {Q : ℝ → Prop} (h : Upto T Q) : Upto (-T) fun y => ¬ Q (-y) :=
  ⟨fun x hx => h.above _ (by linarith), fun x hx => not_not.mpr (h.below _ (by linarith))⟩

/-- The share of the normal distribution up to `T`. -/
noncomputable def Phi (T : ℝ) : ℝ := (gaussTail 0 + ∫ s in (0 : ℝ)..T, gauss s) / (2 * gaussTail 0)

theorem gauss_upto_le (T : ℝ) : |∫ s in (0 : ℝ)..T, gauss s| ≤ gaussTail 0 := by
  have h : ∀ T, 0 ≤ T → |∫ s in (0 : ℝ)..T, gauss s| ≤ gaussTail 0 := by
    intro T hT
    rw [abs_of_nonneg (integral_nonneg hT fun x _ => (gauss_pos x).le), gaussTail_split 0 T hT]
    linarith [gaussTail_pos T]
  rcases le_total 0 T with hT | hT
  · exact h T hT
  · have := h (-T) (by linarith)
    rwa [gauss_even, abs_neg] at this

theorem Phi_bounds (T : ℝ) : 0 ≤ Phi T ∧ Phi T ≤ 1 := by
  have hA : 0 < gaussTail 0 := by linarith [area_ge]
  have h := abs_le.mp (gauss_upto_le T)
  unfold Phi
  constructor
  · exact div_nonneg (by linarith) (by linarith)
  · rw [div_le_one (by linarith)]; linarith

/-- The recursion over the rounds of the mirrored ziggurat. -/
theorem norm_round (lib : MathLib) (he : ExpOk lib) (fused : Bool) (S : F64 → Prop) (Q : ℝ → Prop)
    (hSQ : ∀ x : F64, x.IsFin → |rv x| ≤ 64 → (S x ↔ Q (rv x))) (n : Nat) :
    gives (normalZig lib) fused S (n + 1) =
      (((sideSum (normalZig lib) fused (fun l => (l : Int)) Q + tailShare (normalZig lib) (fun l => (l : Int)) * tailGives (normalZig lib) S n) +
        (sideSum (normalZig lib) fused (fun l => -((l + 1 : Nat) : Int)) (fun y => Q (-y)) +
          tailShare (normalZig lib) (fun l => -((l + 1 : Nat) : Int)) * tailGives (normalZig lib) (fun r => S (F64.neg r)) n)) / 2 +
      (1024 - ((sideSum (normalZig lib) fused (fun l => (l : Int)) (fun _ => True) + tailShare (normalZig lib) (fun l => (l : Int))) +
        (sideSum (normalZig lib) fused (fun l => -((l + 1 : Nat) : Int)) (fun _ => True) +
          tailShare (normalZig lib) (fun l => -((l + 1 : Nat) : Int)))) / 2) * gives (normalZig lib) fused S n) / 1024 := by
  have hz := normal_ok lib he fused
  have hcand : ∀ i < 1024, ∀ j : Int, j.natAbs ≤ 2 ^ 53 → (S (cand (normalZig lib) i j) ↔ Q (rv (cand (normalZig lib) i j))) := by
    intro i hi j hj
    obtain ⟨c1, -, c3⟩ := normal_cand_le lib i hi j hj
    exact hSQ _ c1 (c3.trans (by norm_num))
  have hu := round_side (normalZig lib) fused (fun l => (l : Int)) S Q n (tailGives (normalZig lib) S n) (fun i hi l hl => by
      rw [(hz.cand i hi (l : Int) (by omega)).2.1 (by omega)]
      exact hcand i hi _ (by omega)) (fun l => by
      have : ¬ (l : Int) < 0 := by omega
      simp only [if_neg this])
  have hd := round_side (normalZig lib) fused (fun l => -((l + 1 : Nat) : Int)) S (fun y => Q (-y)) n (tailGives (normalZig lib) (fun r => S (F64.neg r)) n)
    (fun i hi l hl => by
      show _ ↔ Q (-|_|)
      rw [(hz.cand i hi (-((l + 1 : Nat) : Int)) (by omega)).2.2.1 (by omega), neg_neg]
      exact hcand i hi _ (by omega)) (fun l => by
      have : -((l + 1 : Nat) : Int) < 0 := by omega
      simp only [if_pos this])
  rw [gives_succ_mirrored _ rfl]
  have e : (avg 1024 fun i => ((avg (2 ^ 53) fun l => term (normalZig lib) fused S n i l) +
      avg (2 ^ 53) fun l => term (normalZig lib) fused S n i (-((l + 1 : Nat) : Int))) / 2) =
      ((avg 1024 fun i => avg (2 ^ 53) fun l => term (normalZig lib) fused S n i l) +
        avg 1024 fun i => avg (2 ^ 53) fun l => term (normalZig lib) fused S n i (-((l + 1 : Nat) : Int))) / 2 := by
    rw [← avg_add, div_eq_mul_inv, ← avg_mul_right]
    exact avg_congr fun i _ => div_eq_mul_inv _ _
  rw [e, hu, hd]
  ring

/-- A tail, times its share, against its area. -/
theorem tail_side (t V Aτ τ q J ε : ℝ) (hτ0 : 0 ≤ τ) (hτ1 : τ ≤ 1) (hA : 0 ≤ Aτ) (hA1 : Aτ ≤ 1 / 2 ^ 10) (h1 : |V * t - Aτ| ≤ 1 / 2 ^ 41)
    (h2 : |τ - q| ≤ 1 / 2 ^ 34 + ε) (h3 : |Aτ * q - J| ≤ 1 / 2 ^ 46) : |V * (t * τ) - J| ≤ 1 / 2 ^ 40 + 1 / 2 ^ 10 * ε := by
  have hε : 0 ≤ 1 / 2 ^ 34 + ε := (abs_nonneg _).trans h2
  have a1 : |V * (t * τ) - Aτ * τ| ≤ 1 / 2 ^ 41 := by
    rw [← mul_assoc, ← sub_mul, abs_mul, abs_of_nonneg hτ0]
    exact (mul_le_of_le_one_right (abs_nonneg _) hτ1).trans h1
  have a2 : |Aτ * τ - Aτ * q| ≤ 1 / 2 ^ 10 * (1 / 2 ^ 34 + ε) := by
    rw [← mul_sub, abs_mul, abs_of_nonneg hA]
    exact mul_le_mul hA1 h2 (abs_nonneg _) (by norm_num)
  have a3 : (1 : ℝ) / 2 ^ 41 + 1 / 2 ^ 10 * (1 / 2 ^ 34) + 1 / 2 ^ 46 ≤ 1 / 2 ^ 40 := by norm_num
  rw [mul_add] at a2
  rw [abs_le] at a1 a2 h3 ⊢
  constructor <;> linarith [a1.1, a1.2, a2.1, a2.2, h3.1, h3.2]

/-- The distribution of what the ziggurat draws within `n` rounds. -/
theorem norm_gives (lib : MathLib) (hl : LogOk lib) (he : ExpOk lib) (fused : Bool) (T : ℝ) (S : F64 → Prop) (hS : SCut T S) (n : Nat) :
    |gives (normalZig lib) fused S n - Phi T| ≤ 17 / 8 * (5 / 4 * (1 / 2 ^ 33)) + (1 / 16) ^ n := by
  have hz := normal_ok lib he fused
  obtain ⟨Q, hQ, hSQ⟩ := hS
  have hU : Side (fun _ => True) (fun l => (l : Int)) := side_up fun _ _ => trivial
  have hD : Side (fun _ => True) (fun l => -((l + 1 : Nat) : Int)) := side_down
  have hA := area_ge
  have hA0 : 0 < gaussTail 0 := by linarith
  have hV := zigV_pos C40_normal
  have hR0 : 0 < zx normalW 1023 := (C40_normal.finite 1023 (by omega)).2.2.1
  -- the areas
  have aU := hz.side_all hU
  have aD := hz.side_all hD
  have tU := hz.tail_area hU
  have tD := hz.tail_area hD
  change |zv normalW normalF * _ - ∫ s in (0 : ℝ)..zx normalW 1023, gauss s| ≤ _ at aU
  change |zv normalW normalF * _ - ∫ s in (0 : ℝ)..zx normalW 1023, gauss s| ≤ _ at aD
  change |zv normalW normalF * _ - gaussTail (zx normalW 1023)| ≤ _ at tU
  change |zv normalW normalF * _ - gaussTail (zx normalW 1023)| ≤ _ at tD
  have sU := norm_side lib he fused _ hU T Q hQ
  have sD := norm_side lib he fused _ hD (-T) _ (upto_neg hQ)
  rw [sideSum_not, mul_sub] at sD
  have hsplit := gaussTail_split 0 (zx normalW 1023) hR0.le
  have hts := tail_area_small
  have htp := gaussTail_pos (zx normalW 1023)
  -- the tails
  have hSneg : SCut (-T) fun x => ¬ S (F64.neg x) := ⟨fun y => ¬ Q (-y), upto_neg hQ, fun x hx h64 => by
    show ¬ S (F64.neg x) ↔ ¬ Q (-rv x)
    rw [hSQ _ (neg_fin hx) (by rwa [rv_neg_eq, abs_neg]), rv_neg_eq]⟩
  have uT : ∀ n, |zv normalW normalF * (tailShare (normalZig lib) (fun l => (l : Int)) * tailGives (normalZig lib) S n) -
      ∫ s in zx normalW 1023..zx normalW 1023 + max (T - zx normalW 1023) 0, gauss s| ≤ 1 / 2 ^ 40 + 1 / 2 ^ 10 * (1 / 16) ^ n := by
    intro n
    obtain ⟨b1, b2⟩ := tailGives_bounds (normalZig lib) S n
    exact tail_side _ _ _ _ _ _ _ b1 b2 htp hts tU (tail_norm_near lib hl T S ⟨Q, hQ, hSQ⟩ n) (tailRatio_area T).2.2
  have dT : ∀ n, |zv normalW normalF * (tailShare (normalZig lib) (fun l => -((l + 1 : Nat) : Int)) * tailGives (normalZig lib) (fun r => S (F64.neg r)) n) -
      (gaussTail (zx normalW 1023) - ∫ s in zx normalW 1023..zx normalW 1023 + max (-T - zx normalW 1023) 0, gauss s)| ≤
        1 / 2 ^ 40 + 1 / 2 ^ 10 * (1 / 16) ^ n := by
    intro n
    obtain ⟨b1, b2⟩ := tailGives_bounds (normalZig lib) (fun r => S (F64.neg r)) n
    refine tail_side _ _ _ _ _ _ _ b1 b2 htp hts tD (tail_norm_near_not lib hl (-T) (fun r => S (F64.neg r)) hSneg n) ?_
    have := (tailRatio_area (-T)).2.2
    rw [abs_le] at this ⊢
    constructor <;> linarith [this.1, this.2]
  have pU := gauss_pieces T _ hR0
  have pD := gauss_pieces (-T) _ hR0
  have pS := gauss_signed T
  obtain ⟨F, hF⟩ : ∃ F, F = Phi T := ⟨_, rfl⟩
  have hFA : F * (2 * gaussTail 0) = gaussTail 0 + ∫ s in (0 : ℝ)..T, gauss s := by
    rw [hF, Phi, div_mul_cancel₀ _ (by positivity)]
  have hFb := Phi_bounds T
  rw [← hF] at hFb ⊢
  have hround := norm_round lib he fused S Q hSQ
  have leU := sideSum_le (normalZig lib) fused (fun l => (l : Int))
  have leD := sideSum_le (normalZig lib) fused (fun l => -((l + 1 : Nat) : Int))
  have hnV := normal_V
  generalize sideSum (normalZig lib) fused (fun l => (l : Int)) Q = SU at *
  generalize sideSum (normalZig lib) fused (fun l => -((l + 1 : Nat) : Int)) (fun y => Q (-y)) = SD at *
  generalize sideSum (normalZig lib) fused (fun l => (l : Int)) (fun _ => True) = AU at *
  generalize sideSum (normalZig lib) fused (fun l => -((l + 1 : Nat) : Int)) (fun _ => True) = AD at *
  generalize tailShare (normalZig lib) (fun l => (l : Int)) = TU at *
  generalize tailShare (normalZig lib) (fun l => -((l + 1 : Nat) : Int)) = TD at *
  generalize gaussTail (zx normalW 1023) = GT at *
  generalize gaussTail 0 = A at *
  generalize zv normalW normalF = V at *
  refine converge (fun n => gives (normalZig lib) fused S n)
    (fun n => (SU + TU * tailGives (normalZig lib) S n + (SD + TD * tailGives (normalZig lib) (fun r => S (F64.neg r)) n)) / 2)
    ((AU + TU + (AD + TD)) / 2) (V / A) F (5 / 4 * (1 / 2 ^ 33)) (1 / 256) (1 / 16) (1 / 2 ^ 10) (gives_zero _ _ _) hround hFb.1 hFb.2
    (div_pos hV hA0) (by norm_num) (by norm_num) (by linarith) ?_ (by norm_num) (by norm_num) ?_ ?_ (by norm_num) le_rfl (by norm_num) n
  · have e : V / A * ((AU + TU + (AD + TD)) / 2) - 1 = (V * AU + V * TU + (V * AD + V * TD) - 2 * A) / (2 * A) := by
      field_simp
    rw [e, abs_div, abs_of_pos (by linarith : 0 < 2 * A), div_le_iff₀ (by linarith)]
    have k : (2 : ℝ) * (1 / 2 ^ 33) + 2 * (1 / 2 ^ 41) ≤ 5 / 4 * (1 / 2 ^ 33) * (2 * (12529 / 10000)) := by norm_num
    have k2 : (5 : ℝ) / 4 * (1 / 2 ^ 33) * (2 * (12529 / 10000)) ≤ 5 / 4 * (1 / 2 ^ 33) * (2 * A) :=
      mul_le_mul_of_nonneg_left (by linarith) (by norm_num)
    rw [abs_le] at aU aD tU tD ⊢
    constructor <;> linarith [aU.1, aU.2, aD.1, aD.2, tU.1, tU.2, tD.1, tD.2]
  · intro n
    have hu := uT n
    have hd := dT n
    have hσ : (0 : ℝ) ≤ (1 / 16) ^ n := by positivity
    generalize tailGives (normalZig lib) S n = τU at *
    generalize tailGives (normalZig lib) (fun r => S (F64.neg r)) n = τD at *
    generalize ((1 : ℝ) / 16) ^ n = σ at *
    have e : V / A * ((SU + TU * τU + (SD + TD * τD)) / 2) - F =
        (V * SU + V * (TU * τU) + (V * SD + V * (TD * τD)) - F * (2 * A)) / (2 * A) := by
      field_simp
    show |V / A * ((SU + TU * τU + (SD + TD * τD)) / 2) - F| ≤ _
    rw [e, abs_div, abs_of_pos (by linarith : 0 < 2 * A), div_le_iff₀ (by linarith), hFA]
    have k : (3 : ℝ) * (1 / 2 ^ 33) + 2 * (1 / 2 ^ 40) ≤ 5 / 4 * (1 / 2 ^ 33) * (2 * (12529 / 10000)) := by norm_num
    have k2 : (5 / 4 * (1 / 2 ^ 33) + 1 / 2 ^ 10 * σ) * (2 * (12529 / 10000)) ≤ (5 / 4 * (1 / 2 ^ 33) + 1 / 2 ^ 10 * σ) * (2 * A) :=
      mul_le_mul_of_nonneg_left (by linarith) (by positivity)
    rw [add_mul] at k2
    have k3 : 2 * (1 / 2 ^ 10 * σ) ≤ 1 / 2 ^ 10 * σ * (2 * (12529 / 10000)) := by linarith
    rw [abs_le] at aU aD sU sD hu hd ⊢
    constructor <;> linarith [aU.1, aU.2, aD.1, aD.2, sU.1, sU.2, sD.1, sD.2, hu.1, hu.2, hd.1, hd.2]
  · rw [mul_div_assoc', div_mul_eq_mul_div, div_le_iff₀ hA0]
    have k : (12528 : ℝ) / 10000 ≤ (1 - 5 / 4 * (1 / 2 ^ 33)) * (12529 / 10000) := by norm_num
    have k2 : (1 - 5 / 4 * (1 / 2 ^ 33) : ℝ) * (12529 / 10000) ≤ (1 - 5 / 4 * (1 / 2 ^ 33)) * A := mul_le_mul_of_nonneg_left hA (by norm_num)
    linarith

end Crazy
