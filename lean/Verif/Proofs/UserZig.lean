/-
A ziggurat filled in for any decreasing density: its estimates, and the limit of the recursion over the rounds.
-/
import Verif.Spec.UserZig
import Verif.Proofs.NormGives
set_option exponentiation.threshold 2200
set_option maxRecDepth 4000
namespace Crazy
open MeasureTheory Set intervalIntegral

theorem Decreasing.dens {f : ℝ → ℝ} (hf : Decreasing f) : Dens fun x => f |x| := by
  have hlip : ∀ a b, |f (|a|) - f (|b|)| ≤ |a - b| := fun a b =>
    (hf.slope _ _ (abs_nonneg a) (abs_nonneg b)).trans (abs_abs_sub_abs_le a b)
  refine ⟨?_, ?_, fun x => hf.pos _ (abs_nonneg x), ?_, fun a b _ _ => hlip a b⟩
  · refine Metric.continuous_iff.mpr fun b ε hε => ⟨ε, hε, fun a h => ?_⟩
    rw [Real.dist_eq] at h ⊢
    exact lt_of_le_of_lt (hlip a b) h
  · intro x hx y hy h
    show f |y| ≤ f |x|
    rw [abs_of_nonneg (show 0 ≤ x from hx), abs_of_nonneg (show 0 ≤ y from hy)]
    exact hf.anti hx hy h
  · intro x hx
    rw [abs_of_nonneg hx, ← hf.top]
    exact hf.anti (mem_Ici.mpr le_rfl) hx hx

theorem IsZiggurat.even {f : ℝ → ℝ} {K : Vector U64 1024} {W F : Vector F64 1024} (h : IsZiggurat f K W F) :
    IsZiggurat (fun x => f |x|) K W F := by
  have hx : ∀ i (_ : i < 1024), f |zx W i| = f (zx W i) := fun i hi => by rw [abs_of_pos (h.finite i hi).2.2.1]
  refine ⟨h.finite, h.x_lt, h.f_zero, h.f_lt, ?_, h.area, ?_, h.k_one, h.k_ratio, h.k_base⟩
  · intro i hi h1
    show |zf F i - f (|zx W i|)| ≤ f (|zx W i|) / 2 ^ 49
    rw [hx i hi]
    exact h.f_pdf i hi h1
  · have e : (∫ t in Ioi (zx W 1023), f |t|) = ∫ t in Ioi (zx W 1023), f t := by
      refine setIntegral_congr_fun measurableSet_Ioi fun t ht => ?_
      have : 0 < t := lt_trans (h.finite 1023 (by omega)).2.2.1 ht
      show f |t| = f t
      rw [abs_of_pos this]
    show |zv W F - (zx W 1023 * f |zx W 1023| + ∫ t in Ioi (zx W 1023), f |t|)| ≤ _
    rw [hx 1023 (by omega), e]
    exact h.base

theorem rv_zf (F : Vector F64 1024) (i : Nat) (h : i < 1024) : rv F[i] = zf F i := rfl

theorem sub_near (x y : F64) (hx : x.IsFin) (hy : y.IsFin) (h : |rv x - rv y| ≤ 2 ^ 1000) : F64.Near (F64.sub x y) (rv x - rv y) := by
  have e : F64.sub x y = F64.add x (F64.neg y) := by
    match x, y, hx, hy with
    | .fin _ _, .fin _ _, _, _ => rfl
  rw [e]
  have := F64.add_near x (F64.neg y) hx (neg_fin hy)
  rw [rv_neg_eq, ← sub_eq_add_neg] at this
  exact this h

theorem wedge_err (u a b d p s η : ℝ) (hη : η ≤ 1 / 2 ^ 60) (hu0 : 0 ≤ u) (hu1 : u ≤ 1) (hb : 0 ≤ b) (hb1 : a ≤ 1) (hab : b ≤ a)
    (h1 : |d - (a - b)| ≤ |a - b| / 2 ^ 53 + η) (h2 : |p - u * d| ≤ |u * d| / 2 ^ 53 + η) (h3 : |s - (p + b)| ≤ |p + b| / 2 ^ 53 + η) :
    |s - (b + u * (a - b))| ≤ 1 / 2 ^ 51 := by
  rw [abs_of_nonneg (by linarith : 0 ≤ a - b)] at h1
  have e1 : (a - b) / 2 ^ 53 ≤ 1 / 2 ^ 53 := div_le_div_of_nonneg_right (by linarith) (by norm_num)
  have e4 : |u * d - u * (a - b)| ≤ 1 / 2 ^ 53 + η := by
    rw [← mul_sub, abs_mul, abs_of_nonneg hu0]
    exact (mul_le_of_le_one_left (abs_nonneg _) hu1).trans (by linarith)
  have u1 : u * (a - b) ≤ a - b := mul_le_of_le_one_left (by linarith) hu1
  have u0 : 0 ≤ u * (a - b) := mul_nonneg hu0 (by linarith)
  have d2 : |u * d| ≤ 17 / 16 := by
    have h := abs_le.mp e4
    rw [abs_le]
    constructor <;> linarith [h.1, h.2]
  have e2 : |u * d| / 2 ^ 53 ≤ 17 / 16 / 2 ^ 53 := div_le_div_of_nonneg_right d2 (by norm_num)
  have p1 : |p + b| ≤ 9 / 8 := by
    have k := abs_le.mp h2
    have k2 := abs_le.mp e4
    rw [abs_le]
    constructor <;> linarith [k.1, k.2, k2.1, k2.2]
  have e3 : |p + b| / 2 ^ 53 ≤ 9 / 8 / 2 ^ 53 := div_le_div_of_nonneg_right p1 (by norm_num)
  rw [abs_le] at h2 h3 e4 ⊢
  constructor <;> linarith [h2.1, h2.2, h3.1, h3.2, e4.1, e4.2]

theorem wedge_any {f : ℝ → ℝ} {K : Vector U64 1024} {W F : Vector F64 1024} (h : IsZiggurat f K W F)
    (fused : Bool) (i : Nat) (hi : i < 1024) (hi0 : i ≠ 0) (m : Nat) (hm : m < 2 ^ 53) :
    (F64.mulAdd fused (unit m) (F64.sub F[i - 1] F[i]) F[i]).IsFin ∧
    |rv (F64.mulAdd fused (unit m) (F64.sub F[i - 1] F[i]) F[i]) -
      (zf F i + (m : ℝ) / 2 ^ 53 * (zf F (i - 1) - zf F i))| ≤ 1 / 2 ^ 51 := by
  obtain ⟨-, -, -, a1, -, a3⟩ := h.finite (i - 1) (by omega)
  obtain ⟨-, -, -, b1, -, b3⟩ := h.finite i hi
  have hlt := h.f_lt i hi (by omega)
  have hb : ∀ k (hk : k < 1024), zf F k ≤ 1 := by
    intro k hk
    rw [← h.f_zero]
    induction k with
    | zero => exact le_rfl
    | succ k ih => exact (h.f_lt (k + 1) hk (by omega)).le.trans (ih (by omega))
  have hb1 := hb (i - 1) (by omega)
  rw [← rv_zf F (i - 1) (by omega)] at hlt a3 hb1 ⊢
  rw [← rv_zf F i hi] at hlt b3 ⊢
  have u1 : (unit m).IsFin := trivial
  have u2 := rv_unit m
  rw [← u2]
  have u3 : 0 ≤ rv (unit m) := by rw [u2]; positivity
  have u4 : rv (unit m) ≤ 1 := by
    rw [u2, div_le_one (by positivity)]
    exact_mod_cast hm.le
  generalize unit m = u at *
  generalize F[i - 1] = x at *
  generalize F[i] = y at *
  have big : (4 : ℝ) ≤ 2 ^ 1000 := by
    have := pow_le_pow_right₀ (show (1 : ℝ) ≤ 2 by norm_num) (show 2 ≤ 1000 by norm_num)
    rwa [show (2 : ℝ) ^ 2 = 4 by norm_num] at this
  have tiny : (1 : ℝ) / 2 ^ 1000 ≤ 1 / 2 ^ 60 :=
    one_div_le_one_div_of_le (by positivity) (pow_le_pow_right₀ (by norm_num) (by norm_num))
  obtain ⟨d1, -, d3⟩ := sub_near x y a1 b1 (le_trans (by rw [abs_of_nonneg (by linarith)]; linarith) big)
  obtain ⟨η, hη⟩ : ∃ η : ℝ, 1 / 2 ^ 1000 = η := ⟨_, rfl⟩
  rw [hη] at tiny d3
  obtain ⟨B, hB⟩ : ∃ B : ℝ, 2 ^ 1000 = B := ⟨_, rfl⟩
  rw [hB] at big
  have dd : |rv (F64.sub x y)| ≤ 17 / 16 := by
    rw [abs_of_nonneg (by linarith : 0 ≤ rv x - rv y)] at d3
    have k0 : (rv x - rv y) / 2 ^ 53 ≤ 1 / 2 ^ 53 := div_le_div_of_nonneg_right (by linarith) (by norm_num)
    have k := abs_le.mp d3
    rw [abs_le]
    constructor <;> linarith [k.1, k.2]
  generalize F64.sub x y = d at *
  have ud : |rv u * rv d| ≤ 17 / 16 := by
    rw [abs_mul, abs_of_nonneg u3]
    exact (mul_le_of_le_one_left (abs_nonneg _) u4).trans dd
  cases fused
  · rw [mulAdd_false]
    obtain ⟨p1, -, p3⟩ := F64.mul_near u d u1 d1 (by rw [hB]; linarith)
    rw [hη] at p3
    generalize F64.mul u d = p at *
    obtain ⟨s1, -, s3⟩ := F64.add_near p y p1 b1 (by
      rw [hB]
      have k1 := abs_le.mp p3
      have k2 := abs_le.mp ud
      rw [abs_le]
      constructor <;> linarith [k1.1, k1.2, k2.1, k2.2])
    rw [hη] at s3
    exact ⟨s1, wedge_err _ _ _ _ _ _ η tiny u3 u4 b3.le hb1 hlt.le d3 p3 s3⟩
  · rw [mulAdd_true]
    have η0 : 0 ≤ η := by rw [← hη]; positivity
    obtain ⟨s1, -, s3⟩ := F64.fma_near u d y u1 d1 b1 (by
      rw [hB]
      have k2 := abs_le.mp ud
      rw [abs_le]
      constructor <;> linarith [k2.1, k2.2])
    rw [hη] at s3
    refine ⟨s1, wedge_err _ _ _ _ _ _ η tiny u3 u4 b3.le hb1 hlt.le d3 ?_ s3⟩
    rw [sub_self, abs_zero]
    positivity

/-- The estimates for a ziggurat that is filled in for a decreasing density. -/
theorem ZigFor.ok {z : Ziggurat (List U64)} {f : ℝ → ℝ} {X : ℝ} (hf : Decreasing f) (hz : ZigFor z f X) (hX : X ≤ 2 ^ 18) (fused : Bool) :
    ZigOk X z fused (fun j => z.mirrored = true ∨ 0 ≤ j) (fun x => f |x|) where
  dens := hf.dens
  zig := hz.tables.even
  big := hX.trans (by norm_num)
  wid := hz.width
  k0 := hz.base
  wedge := fun i hi h0 m hm => wedge_any hz.tables.even fused i hi h0 m hm
  pdf := by
    intro i hi j hj hd
    obtain ⟨f1, f2, f3, -⟩ := hz.tables.finite i hi
    have h53 := (hz.width i hi).trans (hX.trans (by norm_num : (2 : ℝ) ^ 18 ≤ 2 ^ 53))
    have e : cand z i j = F64.mul (F64.ofInt j) z.W[i] := dif_pos hi
    obtain ⟨k1, k2, k3⟩ := mul_isFin z.W i hi f1 f2 f3 h53 j hj
    obtain ⟨p, c1, -, c3, -⟩ := candidate z.W i hi f1 f2 f3 h53 j hj
    have k4 := mul_fin_valid _ _ k1
    rw [← c1] at c3
    rw [← e] at k1 k2 k4 c3
    show _ ∧ |rv (z.pdf (cand z i j)) - f (|(|rv (cand z i j)|)|)| ≤ _
    rw [abs_abs]
    exact hz.pdf _ k1 k4 (hd.imp id k2) (c3.trans (hz.width i hi))

/-- The recursion over the rounds, in the limit. -/
theorem converge_limit (p A : ℕ → ℝ) (B V S F e0 e1 : ℝ) (hp : ∀ n, p (n + 1) = (A n + (1024 - B) * p n) / 1024)
    (hF0 : 0 ≤ F) (hF1 : F ≤ 1) (hV : 0 < V) (hB : B ≤ 1024) (he0 : e0 < S) (hVB : |V * B - S| ≤ e0)
    (he1 : 0 ≤ e1) (hA : TendsNear (fun n => V * A n) (S * F) e1) : TendsNear p F ((e0 + e1) / (S - e0)) := by
  have h0 : 0 ≤ e0 := (abs_nonneg _).trans hVB
  have hD : 0 < S - e0 := by linarith
  have b1 : S - e0 ≤ V * B := by linarith [(abs_le.mp hVB).1]
  have hB0 : 0 < B := by
    by_contra hc
    rw [not_lt] at hc
    nlinarith
  intro ε hε
  obtain ⟨N, hN⟩ := hA (ε / 2 * (S - e0)) (by positivity)
  obtain ⟨q, hq⟩ : ∃ q, q = 1 - B / 1024 := ⟨_, rfl⟩
  have q0 : 0 ≤ q := by rw [hq]; linarith
  have q1 : q < 1 := by rw [hq]; linarith [div_pos hB0 (show (0 : ℝ) < 1024 by norm_num)]
  obtain ⟨c, hc⟩ : ∃ c, c = (e0 + e1) / (S - e0) + ε / 2 := ⟨_, rfl⟩
  have hc0 : 0 ≤ c := by
    rw [hc]
    have := div_nonneg (add_nonneg h0 he1) hD.le
    linarith
  have hcD : c * (S - e0) = e0 + e1 + ε / 2 * (S - e0) := by
    rw [hc, add_mul, div_mul_cancel₀ _ hD.ne']
  have step : ∀ k, |p (N + k) - F| ≤ c + q ^ k * |p N - F| := by
    intro k
    induction k with
    | zero => rw [pow_zero, one_mul, add_zero]; linarith
    | succ k ih =>
      have e : p (N + (k + 1)) - F = (A (N + k) - B * F) / 1024 + q * (p (N + k) - F) := by
        rw [← add_assoc, hp, hq]; ring
      have h1 := hN (N + k) (by omega)
      have h2 : |V * B * F - S * F| ≤ e0 := by
        rw [← sub_mul, abs_mul, abs_of_nonneg hF0]
        exact (mul_le_of_le_one_right (abs_nonneg _) hF1).trans hVB
      have h3 : |A (N + k) - B * F| * V ≤ c * (V * B) := by
        have : |A (N + k) - B * F| * V = |V * A (N + k) - V * B * F| := by
          rw [show V * A (N + k) - V * B * F = (A (N + k) - B * F) * V by ring, abs_mul, abs_of_pos hV]
        rw [this]
        have h4 : |V * A (N + k) - V * B * F| ≤ e0 + e1 + ε / 2 * (S - e0) := by
          rw [abs_le] at h1 h2 ⊢
          constructor <;> linarith [h1.1, h1.2, h2.1, h2.2]
        refine h4.trans ?_
        rw [← hcD]
        exact mul_le_mul_of_nonneg_left b1 hc0
      have h4 : |A (N + k) - B * F| ≤ c * B := le_of_mul_le_mul_right (by linarith) hV
      rw [e]
      refine (abs_add_le _ _).trans ?_
      rw [abs_div, abs_of_pos (show (0 : ℝ) < 1024 by norm_num), abs_mul, abs_of_nonneg q0]
      have h5 : |A (N + k) - B * F| / 1024 ≤ c * B / 1024 := div_le_div_of_nonneg_right h4 (by norm_num)
      have h6 : q * |p (N + k) - F| ≤ q * (c + q ^ k * |p N - F|) := mul_le_mul_of_nonneg_left ih q0
      have h7 : c * B / 1024 + q * c = c := by rw [hq]; ring
      rw [mul_add] at h6
      rw [pow_succ']
      nlinarith
  obtain ⟨K, hK⟩ : ∃ K, ∀ k ≥ K, q ^ k * |p N - F| ≤ ε / 2 := by
    have hM : 0 < |p N - F| + 1 := by linarith [abs_nonneg (p N - F)]
    obtain ⟨K, hK⟩ := exists_pow_lt_of_lt_one (show 0 < ε / 2 / (|p N - F| + 1) by positivity) q1
    refine ⟨K, fun k hk => ?_⟩
    have h1 : q ^ k ≤ q ^ K := pow_le_pow_of_le_one q0 q1.le hk
    have h2 : q ^ k ≤ ε / 2 / (|p N - F| + 1) := h1.trans hK.le
    rw [le_div_iff₀ hM] at h2
    exact le_trans (mul_le_mul_of_nonneg_left (by linarith) (pow_nonneg q0 k)) h2
  refine ⟨N + K, fun n hn => ?_⟩
  obtain ⟨k, rfl⟩ : ∃ k, n = N + k := ⟨n - N, by omega⟩
  have h1 := step k
  have h2 := hK k (by omega)
  rw [hc] at h1
  linarith

end Crazy
