/-
C39, continued: what the wedge test compares with is the density.
-/
import Verif.Proofs.NormDist
import Verif.Proofs.ExpoDist
namespace Crazy

/-- C39: for the exponential distribution the wedge test accepts the candidate `y` when the height is below `d`, and `d` is the density
`e^-y` up to `2^-50` (if `math.Exp` is accurate). -/
theorem C39_expo_density (lib : MathLib) (he : ExpOk lib) (fused : Bool) (src : Source σ) (fuel : Nat) (s s1 s2 : σ) (x : U64) (u : F64)
    (h : RNG.uint64 src s = .ok (x, s1)) (hk : (expoK[zlayer x]'(zlayer_lt x)).toNat ≤ (zoffset false x).natAbs)
    (h0 : zlayer x ≠ 0) (hu : uniform01 src s1 = .ok (u, s2)) :
    ∃ y h d, (expoZig lib).genNext fused src (fuel + 1) s =
        (if F64.lt h d then .ok (y, s2) else (expoZig lib).genNext fused src fuel s2) ∧
      y.IsFin ∧ h.IsFin ∧ d.IsFin ∧ |rv d - Real.exp (-rv y)| ≤ 1 / 2 ^ 50 ∧
      |rv h - (zf expoF (zlayer x) (zlayer_lt x) + rv u * (zf expoF (zlayer x - 1) (by have := zlayer_lt x; omega) -
        zf expoF (zlayer x) (zlayer_lt x)))| ≤ 1 / 2 ^ 52 := by
  obtain ⟨h', y, e, w1, w2, w3, w4, w5, -, -, w6⟩ := expo_wedge lib fused src fuel s s1 s2 x u h hk h0 hu
  have hv : y.Valid := by
    have := mul_fin_valid (F64.ofInt (zoffset false x)) (expoW[zlayer x]'(zlayer_lt x))
    rw [← e] at this
    exact this w2
  have h11 := w4.trans (expo_x_le _ _)
  have e1 := he (F64.neg y) (neg_fin w2) (neg_valid hv) (by rw [rv_neg_eq]; linarith) (by rw [rv_neg_eq]; linarith)
  rw [rv_neg_eq] at e1
  refine ⟨y, h', _, w1, w2, w5, e1.1, e1.2.trans ?_, w6⟩
  exact div_le_div_of_nonneg_right (Real.exp_le_one_iff.mpr (by linarith)) (by norm_num)

/-- C39: for the normal distribution `d` is the density `e^(-y^2/2)` up to `2^-49`. -/
theorem C39_normal_density (lib : MathLib) (he : ExpOk lib) (fused : Bool) (src : Source σ) (fuel : Nat) (s s1 s2 : σ) (x : U64) (u : F64)
    (h : RNG.uint64 src s = .ok (x, s1)) (hk : (normalK[zlayer x]'(zlayer_lt x)).toNat ≤ (zoffset true x).natAbs)
    (h0 : zlayer x ≠ 0) (hu : uniform01 src s1 = .ok (u, s2)) :
    ∃ y h d, (normalZig lib).genNext fused src (fuel + 1) s =
        (if F64.lt h d then .ok (y, s2) else (normalZig lib).genNext fused src fuel s2) ∧
      y.IsFin ∧ h.IsFin ∧ d.IsFin ∧ |rv d - Real.exp (-rv y ^ 2 / 2)| ≤ 1 / 2 ^ 49 ∧
      |rv h - (zf normalF (zlayer x) (zlayer_lt x) + rv u * (zf normalF (zlayer x - 1) (by have := zlayer_lt x; omega) -
        zf normalF (zlayer x) (zlayer_lt x)))| ≤ 1 / 2 ^ 52 := by
  obtain ⟨h', y, e, w1, w2, -, -, w4, w5, -, -, w6⟩ := normal_wedge lib fused src fuel s s1 s2 x u h hk h0 hu
  obtain ⟨d1, d2⟩ := normalPDF_near lib he y w2 (w4.trans (normal_x_le _ _))
  exact ⟨y, h', _, w1, w2, w5, d1, d2, w6⟩

/-- Non-vacuity: words of layer 2 that go to the wedge. -/
example : zlayer 0x009fffffffffffff#64 ≠ 0 ∧ (expoK[2]).toNat ≤ (zoffset false 0x009fffffffffffff#64).natAbs ∧
    (normalK[2]).toNat ≤ (zoffset true 0x00a0000000000000#64).natAbs ∧ zlayer 0x00a0000000000000#64 = 2 := by
  decide +kernel

end Crazy
