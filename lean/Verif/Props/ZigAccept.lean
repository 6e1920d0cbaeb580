/-
C39: what the ziggurat accepts lies under the curve.
-/
import Verif.Props.ZigTables
import Verif.Props.ZigSplit
set_option exponentiation.threshold 2200
namespace Crazy
open F64

variable {σ : Type}

theorem rv_pos (n e : Nat) (he : 1074 = e) : rv (.fin false n) = (n : ℝ) / 2 ^ e := by
  unfold rv
  rw [val_eq n e he]
  push_cast
  rfl

theorem rv_neg (n e : Nat) (he : 1074 = e) : rv (.fin true n) = -((n : ℝ) / 2 ^ e) := by
  have : (F64.fin true n).val = -((n : ℚ) / 2 ^ e) := by
    rw [← he]
    show (-1 : ℚ) * ((n : ℚ) / 2 ^ 1074) = _
    ring
  unfold rv
  rw [this]
  push_cast
  rfl

theorem lt_limit_of_le (n e : Nat) (h : n ≤ 2 ^ e) (he : e ≤ 2097) : n < limit := by
  obtain ⟨l, hl⟩ : ∃ l, 2098 = l := ⟨_, rfl⟩
  rw [limit_eq l hl]
  exact lt_of_le_of_lt h (Nat.pow_lt_pow_right (by decide) (by omega))

theorem ofInt_exact (j : Int) (hj : j.natAbs ≤ 2 ^ 53) : F64.ofInt j = .fin (decide (j < 0)) (j.natAbs * F64.one) := by
  obtain ⟨e, he⟩ : ∃ e, 1074 = e := ⟨_, rfl⟩
  have hone : F64.one = 2 ^ e := by rw [← he]; rfl
  have hv : (F64.fin (decide (j < 0)) (j.natAbs * 2 ^ e)).Valid := by
    refine ⟨short_of_le hj, lt_limit_of_le _ (53 + e) ?_ (by omega)⟩
    rw [pow_add]
    exact Nat.mul_le_mul_right _ hj
  unfold F64.ofInt
  rw [hone]
  have := rnd_exact (decide (j < 0)) (j.natAbs * 2 ^ e) 1 (by decide) hv
  rwa [Nat.mul_one] at this

theorem short_mul_pow (n k : Nat) (h : Short n) : Short (n * 2 ^ k) := by
  obtain ⟨m, l, hm, rfl⟩ := h
  exact ⟨m, l + k, hm, by rw [pow_add, Nat.mul_assoc]⟩

/-- The product of an offset and a width. -/
theorem mul_offset (j : Int) (hj : j.natAbs ≤ 2 ^ 53) (n : Nat) (hn : Short n) (hn' : n ≤ F64.one) :
    F64.mul (F64.ofInt j) (.fin false n) = .fin (decide (j < 0)) (rndNat (j.natAbs * n) 1) ∧
      rndNat (j.natAbs * n) 1 ≤ n * 2 ^ 53 ∧ j.natAbs * n ≤ rndNat (j.natAbs * n) 1 + n ∧
      rndNat (j.natAbs * n) 1 ≤ j.natAbs * n + n := by
  have hle : rndNat (j.natAbs * n) 1 ≤ n * 2 ^ 53 := by
    refine rndNat_le _ _ _ (by decide) (short_mul_pow n 53 hn) ?_
    rw [Nat.mul_one, Nat.mul_comm n]
    exact Nat.mul_le_mul_right _ hj
  refine ⟨?_, hle, ?_⟩
  · rw [ofInt_exact j hj]
    show F64.rnd (decide (j < 0) ^^ false) (j.natAbs * F64.one * n) F64.one = _
    obtain ⟨e, he⟩ : ∃ e, 1074 = e := ⟨_, rfl⟩
    have hone : F64.one = 2 ^ e := by rw [← he]; rfl
    rw [Bool.xor_false, Nat.mul_right_comm]
    nth_rw 2 [← Nat.one_mul F64.one]
    rw [rnd_scale _ _ _ _ one_pos]
    unfold F64.rnd
    rw [if_pos]
    refine lt_limit_of_le _ (e + 53) (hle.trans ?_) (by omega)
    rw [pow_add, ← hone]
    exact Nat.mul_le_mul_right _ hn'
  · have he := rndNat_error (j.natAbs * n) 1 (by decide)
    have ha : j.natAbs * n ≤ 2 ^ 53 * n := Nat.mul_le_mul_right _ hj
    generalize j.natAbs * n = a at *
    generalize rndNat a 1 = p at *
    rw [Nat.cast_one, Int.mul_one] at he
    rcases abs_cases ((a : ℤ) - p) with ⟨h1, h2⟩ | ⟨h1, h2⟩ <;> rw [h1] at he <;> omega

/-- A candidate of a ziggurat: the offset times the width of the layer, in float arithmetic. -/
theorem candidate (W : Vector F64 1024) (i : Nat) (h : i < 1024) (hf : W[i].IsFin) (hv : W[i].Valid) (h0 : 0 < zx W i)
    (h1 : zx W i ≤ 2 ^ 53) (j : Int) (hj : j.natAbs ≤ 2 ^ 53) :
    ∃ p, F64.mul (F64.ofInt j) W[i] = .fin (decide (j < 0)) p ∧ p < limit ∧ |rv (.fin (decide (j < 0)) p)| ≤ zx W i ∧
      |rv (.fin (decide (j < 0)) p)| = rv (.fin false p) ∧
      |rv (.fin false p) - j.natAbs * (zx W i / 2 ^ 53)| ≤ zx W i / 2 ^ 53 := by
  obtain ⟨e, he⟩ : ∃ e, 1074 = e := ⟨_, rfl⟩
  have hone : F64.one = 2 ^ e := by rw [← he]; rfl
  unfold zx at *
  match hw : W[i], hf, hv with
  | .fin true n, _, _ =>
    exfalso
    have h2 := rv_neg n e he
    unfold rv at h2
    rw [hw, h2] at h0
    have : (0 : ℝ) ≤ (n : ℝ) / 2 ^ e := by positivity
    linarith
  | .fin false n, _, hv =>
    have h2 := rv_pos n e he
    unfold rv at h2
    rw [hw, h2] at h0 h1
    rw [h2]
    have hn : n ≤ F64.one := by
      have : (n : ℝ) / 2 ^ e ≤ 1 := by linarith
      rw [div_le_one (by positivity)] at this
      rw [hone]
      exact_mod_cast this
    obtain ⟨a1, a2, a3, a4⟩ := mul_offset j hj n hv.1 hn
    have hlim : rndNat (j.natAbs * n) 1 < limit := by
      refine lt_limit_of_le _ (e + 53) (a2.trans ?_) (by omega)
      rw [pow_add, ← hone]
      exact Nat.mul_le_mul_right _ hn
    refine ⟨_, a1, hlim, ?_⟩
    generalize rndNat (j.natAbs * n) 1 = p at *
    have hp : |rv (.fin (decide (j < 0)) p)| = rv (.fin false p) := by
      have h3 : (0 : ℝ) ≤ (p : ℝ) / 2 ^ e := by positivity
      cases decide (j < 0)
      · rw [rv_pos p e he, abs_of_nonneg h3]
      · rw [rv_pos p e he, rv_neg p e he, abs_neg, abs_of_nonneg h3]
    have s : (0 : ℝ) < 2 ^ e := by positivity
    have e1 : (2 : ℝ) ^ 53 * (n / 2 ^ e) = (n * 2 ^ 53 : ℝ) / 2 ^ e := by ring
    have e2 : (2 : ℝ) ^ 53 * (n / 2 ^ e) / 2 ^ 53 = n / 2 ^ e := by field_simp
    refine ⟨?_, hp, ?_⟩
    · rw [hp, rv_pos p e he, e1]
      exact div_le_div_of_nonneg_right (by exact_mod_cast a2) s.le
    · rw [rv_pos p e he, e2]
      have e3 : (p : ℝ) / 2 ^ e - j.natAbs * (n / 2 ^ e) = (p - j.natAbs * n) / 2 ^ e := by ring
      rw [e3, abs_div, abs_of_pos s]
      refine div_le_div_of_nonneg_right ?_ s.le
      have a3' : (j.natAbs * n : ℝ) ≤ p + n := by exact_mod_cast a3
      have a4' : (p : ℝ) ≤ j.natAbs * n + n := by exact_mod_cast a4
      rw [abs_le]
      constructor <;> linarith

/-- A finite positive number and its natural numerator. -/
theorem fin_of_pos (x : F64) (hf : x.IsFin) (h : 0 < ((x.val : ℚ) : ℝ)) : ∃ n, x = .fin false n := by
  match x, hf with
  | .fin false n, _ => exact ⟨n, rfl⟩
  | .fin true n, _ =>
    exfalso
    have h2 := rv_neg n 1074 rfl
    unfold rv at h2
    rw [h2] at h
    have : (0 : ℝ) ≤ (n : ℝ) / 2 ^ 1074 := by positivity
    linarith

/-- A candidate is at most the abscissa of any layer at which the exact product is. -/
theorem candidate_le (W : Vector F64 1024) (i i' : Nat) (h : i < 1024) (h' : i' < 1024) (hf : W[i].IsFin) (hv : W[i].Valid)
    (h0 : 0 < zx W i) (h1 : zx W i ≤ 2 ^ 53) (hf' : W[i'].IsFin) (hv' : W[i'].Valid) (h0' : 0 < zx W i')
    (j : Int) (hj : j.natAbs ≤ 2 ^ 53) (hle : j.natAbs * zx W i ≤ 2 ^ 53 * zx W i') :
    |rv (F64.mul (F64.ofInt j) W[i])| ≤ zx W i' := by
  obtain ⟨e, he⟩ : ∃ e, 1074 = e := ⟨_, rfl⟩
  have hone : F64.one = 2 ^ e := by rw [← he]; rfl
  unfold zx at *
  obtain ⟨n, hn⟩ := fin_of_pos W[i] hf (by linarith)
  obtain ⟨n', hn'⟩ := fin_of_pos W[i'] hf' (by linarith)
  have e1 := rv_pos n e he
  have e2 := rv_pos n' e he
  unfold rv at e1 e2
  rw [hn] at hv h0 h1 hle ⊢
  rw [hn'] at hv' h0' hle ⊢
  rw [e1] at h0 h1 hle
  rw [e2] at hle ⊢
  have s : (0 : ℝ) < 2 ^ e := by positivity
  have hn1 : n ≤ F64.one := by
    have : (n : ℝ) / 2 ^ e ≤ 1 := by linarith
    rw [div_le_one s] at this
    rw [hone]
    exact_mod_cast this
  rw [(mul_offset j hj n hv.1 hn1).1]
  have hle' : j.natAbs * n ≤ n' * 2 ^ 53 := by
    have e3 : (j.natAbs : ℝ) * (2 ^ 53 * (n / 2 ^ e)) = (j.natAbs * n) * (2 ^ 53 / 2 ^ e) := by ring
    have e4 : (2 : ℝ) ^ 53 * (2 ^ 53 * (n' / 2 ^ e)) = (n' * 2 ^ 53) * (2 ^ 53 / 2 ^ e) := by ring
    rw [e3, e4] at hle
    have := le_of_mul_le_mul_right hle (by positivity)
    exact_mod_cast this
  have hr := rndNat_le (j.natAbs * n) 1 (n' * 2 ^ 53) (by decide) (short_mul_pow n' 53 hv'.1) (by rw [Nat.mul_one]; exact hle')
  generalize rndNat (j.natAbs * n) 1 = p at *
  have hp : |rv (.fin (decide (j < 0)) p)| = (p : ℝ) / 2 ^ e := by
    have h3 : (0 : ℝ) ≤ (p : ℝ) / 2 ^ e := by positivity
    cases decide (j < 0)
    · rw [rv_pos p e he, abs_of_nonneg h3]
    · rw [rv_neg p e he, abs_neg, abs_of_nonneg h3]
  rw [hp, show (2 : ℝ) ^ 53 * (n' / 2 ^ e) = (n' * 2 ^ 53) / 2 ^ e by ring]
  exact div_le_div_of_nonneg_right (by exact_mod_cast hr) s.le

theorem zoffset_le (m : Bool) (x : U64) : (zoffset m x).natAbs ≤ 2 ^ 53 := by
  unfold zoffset
  rw [Int.bmod_def]
  cases m <;> simp only [Bool.false_eq_true, if_false, if_true] <;> push_cast <;> omega

/-- What `GenNext` does with the word it has read, in terms of its layer and its offset. -/
theorem genNext_word (z : Ziggurat σ) (fused : Bool) (src : Source σ) (fuel : Nat) (s s1 : σ) (x : U64)
    (h : RNG.uint64 src s = .ok (x, s1)) :
    z.genNext fused src (fuel + 1) s =
      if (zoffset z.mirrored x).natAbs < (z.K[zlayer x]'(zlayer_lt x)).toNat then
        .ok (F64.mul (F64.ofInt (zoffset z.mirrored x)) (z.W[zlayer x]'(zlayer_lt x)), s1)
      else if zlayer x ≠ 0 then (do
        let (u, s2) ← uniform01 src s1
        if F64.lt (F64.mulAdd fused u (F64.sub (z.F[zlayer x - 1]'(by have := zlayer_lt x; omega)) (z.F[zlayer x]'(zlayer_lt x)))
              (z.F[zlayer x]'(zlayer_lt x)))
            (z.pdf (F64.mul (F64.ofInt (zoffset z.mirrored x)) (z.W[zlayer x]'(zlayer_lt x)))) then
          return (F64.mul (F64.ofInt (zoffset z.mirrored x)) (z.W[zlayer x]'(zlayer_lt x)), s2)
        else z.genNext fused src fuel s2)
      else (do
        let (y, s2) ← z.tail src fuel s1
        if zoffset z.mirrored x < 0 then return (F64.neg y, s2) else return (y, s2)) := by
  obtain ⟨⟨i', j'⟩, hs⟩ : ∃ ij, Ziggurat.split z.mirrored x = ij := ⟨_, rfl⟩
  have hL := (C38_layer z.mirrored x).1
  have hO : _ = zoffset z.mirrored x := split_offset z.mirrored x
  rw [hs] at hL hO
  have hL' : i' = zlayer x := hL
  simp only at hO
  have hi : i' < 1024 := by rw [hL']; exact zlayer_lt x
  rw [genNext_step z fused src fuel s s1 x h i' j' hs hi]
  subst hL'
  rw [← hO]

theorem ends_base (R : List ZRow) (K : Vector U64 1024) (W F : Vector F64 1024) (hR : RowsOf R K W F)
    (h : chkEnds R[0]! R[1023]! = true) (j : Nat) (hj : j < K[0].toNat) : j * zx W 0 ≤ 2 ^ 53 * zx W 1023 := by
  have hl := hR.len
  rw [getElem!_pos R 0 (by omega), getElem!_pos R 1023 (by omega)] at h
  unfold chkEnds at h
  simp only [Bool.and_eq_true, Nat.ble_eq] at h
  have h2 := h.1.2
  rw [hR.k 0 (by decide)] at hj
  rw [hR.w 0 (by decide), hR.w 1023 (by decide)]
  generalize (R[0]'(by omega)).w = w0 at *
  generalize (R[1023]'(by omega)).w = w1 at *
  generalize (R[0]'(by omega)).1 = k at *
  have h3 : j * w0 ≤ 2 ^ 53 * w1 := (Nat.mul_le_mul_right _ (by omega)).trans h2
  have h4 : (j * w0 : ℝ) ≤ 2 ^ 53 * w1 := by exact_mod_cast h3
  rw [← mul_div_assoc, ← mul_div_assoc]
  exact div_le_div_of_nonneg_right h4 (by positivity)

/-- An offset below `K` gives a candidate that is hardly beyond the layer above. -/
theorem fast_inner {pdf : ℝ → ℝ} {K : Vector U64 1024} {W F : Vector F64 1024} (hz : IsZiggurat pdf K W F) (i : Nat)
    (hi : i < 1024) (h1 : 1 ≤ i) (hw : zx W i ≤ 2 ^ 53) (j : Int) (hj : j.natAbs ≤ 2 ^ 53) (hk : j.natAbs < K[i].toNat) :
    2 ≤ i ∧ |rv (F64.mul (F64.ofInt j) W[i])| ≤ zx W (i - 1) + 3 * (zx W i / 2 ^ 53) := by
  have hi2 : 2 ≤ i := by
    by_contra hc
    obtain rfl : i = 1 := by omega
    rw [hz.k_one] at hk
    exact absurd hk (Nat.not_lt_zero _)
  obtain ⟨f1, f2, f3, -⟩ := hz.finite i hi
  obtain ⟨p, c1, -, -, c4, c5⟩ := candidate W i hi f1 f2 f3 hw j hj
  rw [c1, c4]
  have h2 := hz.k_ratio i hi hi2
  refine ⟨hi2, ?_⟩
  have h3 := abs_lt.1 h2
  have h4 := abs_le.1 c5
  have hj' : (j.natAbs : ℝ) + 1 ≤ (K[i].toNat : ℝ) := by exact_mod_cast hk
  generalize zx W (i - 1) = a at *
  generalize zx W i = b at *
  generalize rv (F64.fin false p) = r at *
  generalize (j.natAbs : ℝ) = t at *
  generalize (K[i].toNat : ℝ) = k at *
  have e1 : (2 : ℝ) ^ 53 * (a / b) * (b / 2 ^ 53) = a := by field_simp
  have hb : 0 < b / 2 ^ 53 := by positivity
  have h5 : (t + 1) * (b / 2 ^ 53) ≤ (2 ^ 53 * (a / b) + 3) * (b / 2 ^ 53) :=
    mul_le_mul_of_nonneg_right (by linarith) hb.le
  rw [add_mul, add_mul, e1] at h5
  linarith

theorem fast_base {pdf : ℝ → ℝ} {R : List ZRow} {K : Vector U64 1024} {W F : Vector F64 1024} (hz : IsZiggurat pdf K W F)
    (hR : RowsOf R K W F) (hc : chkEnds R[0]! R[1023]! = true) (i : Nat) (hi : i < 1024) (h0 : i = 0)
    (hw : zx W i ≤ 2 ^ 53) (j : Int) (hj : j.natAbs ≤ 2 ^ 53) (hk : j.natAbs < K[i].toNat) :
    |rv (F64.mul (F64.ofInt j) W[i])| ≤ zx W 1023 := by
  subst h0
  have hle := ends_base _ _ _ _ hR hc j.natAbs hk
  obtain ⟨f1, f2, f3, -⟩ := hz.finite 0 hi
  obtain ⟨g1, g2, g3, -⟩ := hz.finite 1023 (by decide)
  exact candidate_le W 0 1023 hi (by decide) f1 f2 f3 hw g1 g2 g3 j hj hle

theorem pow53_11 : (11 : ℝ) ≤ 2 ^ 53 := by norm_num

theorem expo_under (a b r F : ℝ) (hb : b ≤ 11) (hr : r ≤ a + 3 * (b / 2 ^ 53)) (hF : |F - Real.exp (-a)| ≤ Real.exp (-a) / 2 ^ 49) :
    F ≤ Real.exp (-r) * (1 + 1 / 2 ^ 45) := by
  have h1 : F ≤ Real.exp (-a) * (1 + 1 / 2 ^ 49) := by
    have := (abs_le.1 hF).2
    linarith
  have h2 : Real.exp (-a) * (1 - 1 / 2 ^ 47) ≤ Real.exp (-r) := by
    have h3 : Real.exp (-r) = Real.exp (-a) * Real.exp (a - r) := by rw [← Real.exp_add]; ring_nf
    rw [h3]
    refine mul_le_mul_of_nonneg_left ?_ (Real.exp_pos _).le
    have h4 := Real.add_one_le_exp (a - r)
    norm_num at hr ⊢
    linarith
  have hp := Real.exp_pos (-a)
  generalize Real.exp (-a) = E at *
  generalize Real.exp (-r) = G at *
  norm_num at *
  linarith

theorem normal_under (a b r F : ℝ) (ha' : a ≤ 5) (hb : b ≤ 5) (hb0 : 0 < b) (hr : |r| ≤ a + 3 * (b / 2 ^ 53))
    (hF : |F - Real.exp (-a ^ 2 / 2)| ≤ Real.exp (-a ^ 2 / 2) / 2 ^ 49) :
    F ≤ Real.exp (-r ^ 2 / 2) * (1 + 1 / 2 ^ 45) := by
  have h1 : F ≤ Real.exp (-a ^ 2 / 2) * (1 + 1 / 2 ^ 49) := by
    have := (abs_le.1 hF).2
    linarith
  have hδ : 3 * (b / 2 ^ 53) ≤ 15 / 2 ^ 53 := by
    have : b / 2 ^ 53 ≤ 5 / 2 ^ 53 := div_le_div_of_nonneg_right hb (by positivity)
    linarith
  have hδ0 : 0 ≤ 3 * (b / 2 ^ 53) := by positivity
  generalize 3 * (b / 2 ^ 53) = δ at *
  have hsq : r ^ 2 ≤ (a + δ) ^ 2 := by
    rw [← sq_abs r]
    exact pow_le_pow_left₀ (abs_nonneg r) hr 2
  have h2 : Real.exp (-a ^ 2 / 2) * (1 - 1 / 2 ^ 46) ≤ Real.exp (-r ^ 2 / 2) := by
    have h3 : Real.exp (-r ^ 2 / 2) = Real.exp (-a ^ 2 / 2) * Real.exp ((a ^ 2 - r ^ 2) / 2) := by rw [← Real.exp_add]; ring_nf
    rw [h3]
    refine mul_le_mul_of_nonneg_left ?_ (Real.exp_pos _).le
    have h4 := Real.add_one_le_exp ((a ^ 2 - r ^ 2) / 2)
    have h5 : a * δ ≤ 5 * δ := mul_le_mul_of_nonneg_right ha' hδ0
    have h7 : δ ≤ 1 := hδ.trans (by norm_num)
    have h6 : δ ^ 2 ≤ δ := by nlinarith
    have h8 : r ^ 2 ≤ a ^ 2 + 2 * (a * δ) + δ ^ 2 := by linarith [show (a + δ) ^ 2 = a ^ 2 + 2 * (a * δ) + δ ^ 2 by ring]
    norm_num at hδ ⊢
    linarith
  have hp := Real.exp_pos (-a ^ 2 / 2)
  generalize Real.exp (-a ^ 2 / 2) = E at *
  generalize Real.exp (-r ^ 2 / 2) = G at *
  norm_num at h1 h2 ⊢
  linarith

theorem mul_isFin (W : Vector F64 1024) (i : Nat) (h : i < 1024) (hf : W[i].IsFin) (hv : W[i].Valid) (h0 : 0 < zx W i)
    (h1 : zx W i ≤ 2 ^ 53) (j : Int) (hj : j.natAbs ≤ 2 ^ 53) :
    (F64.mul (F64.ofInt j) W[i]).IsFin ∧ (0 ≤ j → 0 ≤ rv (F64.mul (F64.ofInt j) W[i])) ∧
      (j ≤ 0 → rv (F64.mul (F64.ofInt j) W[i]) ≤ 0) := by
  obtain ⟨p, c1, -⟩ := candidate W i h hf hv h0 h1 j hj
  obtain ⟨e, he⟩ : ∃ e, 1074 = e := ⟨_, rfl⟩
  have hp : (0 : ℝ) ≤ (p : ℝ) / 2 ^ e := by positivity
  rw [c1]
  refine ⟨trivial, fun h => ?_, fun h => ?_⟩
  · rw [decide_eq_false (by omega), rv_pos p e he]; exact hp
  · by_cases hj : j < 0
    · rw [decide_eq_true hj, rv_neg p e he]; linarith
    · have hj0 : j = 0 := by omega
      subst hj0
      obtain ⟨n, hn⟩ := fin_of_pos W[i] hf (by unfold zx at h0; linarith)
      rw [hn, ofInt_exact 0 (by decide)] at c1
      rw [show F64.mul (F64.fin (decide ((0 : Int) < 0)) ((0 : Int).natAbs * F64.one)) (F64.fin false n) =
        F64.rnd false (0 * F64.one * n) F64.one from rfl] at c1
      unfold F64.rnd at c1
      rw [Nat.zero_mul, Nat.zero_mul, rndNat_zero _ one_pos, if_pos limit_pos] at c1
      have : p = 0 := by injection c1 with _ h; exact h.symm
      rw [this, decide_eq_false (by omega), rv_pos 0 e he]
      simp

theorem expo_fast_aux (i : Nat) (hi : i < 1024) (j : Int) (hj0 : 0 ≤ j) (hj : j.natAbs ≤ 2 ^ 53) (hk : j.natAbs < expoK[i].toNat) :
    (F64.mul (F64.ofInt j) expoW[i]).IsFin ∧ 0 ≤ rv (F64.mul (F64.ofInt j) expoW[i]) ∧
    (i = 0 → rv (F64.mul (F64.ofInt j) expoW[i]) ≤ zx expoW 1023) ∧
    (i ≠ 0 → zf expoF (i - 1) ≤ Real.exp (-rv (F64.mul (F64.ofInt j) expoW[i])) * (1 + 1 / 2 ^ 45)) := by
  have hz := C40_expo
  obtain ⟨f1, f2, f3, -⟩ := hz.finite i hi
  have hw : zx expoW i ≤ 2 ^ 53 := (expo_x_le i hi).trans pow53_11
  obtain ⟨m1, m2, -⟩ := mul_isFin expoW i hi f1 f2 f3 hw j hj
  refine ⟨m1, m2 hj0, fun h0 => ?_, fun h0 => ?_⟩
  · have := fast_base hz expo_rowsOf expoRows_ends i hi h0 hw j hj hk
    exact (abs_le.1 this).2
  · obtain ⟨h2, h3⟩ := fast_inner hz i hi (by omega) hw j hj hk
    exact expo_under _ _ _ _ (expo_x_le i hi) ((le_abs_self _).trans h3) (expo_pdf (i - 1) (by omega) (by omega))

theorem normal_fast_aux (i : Nat) (hi : i < 1024) (j : Int) (hj : j.natAbs ≤ 2 ^ 53) (hk : j.natAbs < normalK[i].toNat) :
    (F64.mul (F64.ofInt j) normalW[i]).IsFin ∧ (0 ≤ j → 0 ≤ rv (F64.mul (F64.ofInt j) normalW[i])) ∧
    (j ≤ 0 → rv (F64.mul (F64.ofInt j) normalW[i]) ≤ 0) ∧
    (i = 0 → |rv (F64.mul (F64.ofInt j) normalW[i])| ≤ zx normalW 1023) ∧
    (i ≠ 0 → zf normalF (i - 1) ≤ Real.exp (-rv (F64.mul (F64.ofInt j) normalW[i]) ^ 2 / 2) * (1 + 1 / 2 ^ 45)) := by
  have hz := C40_normal
  obtain ⟨f1, f2, f3, -⟩ := hz.finite i hi
  have h5 : (5 : ℝ) ≤ 2 ^ 53 := by norm_num
  have hw : zx normalW i ≤ 2 ^ 53 := (normal_x_le i hi).trans h5
  obtain ⟨m1, m2, m3⟩ := mul_isFin normalW i hi f1 f2 f3 hw j hj
  refine ⟨m1, m2, m3, fun h0 => ?_, fun h0 => ?_⟩
  · have := fast_base hz normal_rowsOf normalRows_ends i hi h0 hw j hj hk
    exact this
  · obtain ⟨h2, h3⟩ := fast_inner hz i hi (by omega) hw j hj hk
    exact normal_under _ _ _ _ (normal_x_le _ _) (normal_x_le i hi) f3 h3 (normal_pdf (i - 1) (by omega) (by omega))

/-- C39, the exponential distribution: a word whose offset is below the `K` of its layer is turned into a variate at once,
without evaluating the density, and rightly so. In the base layer the variate is in the rectangle, at most `x[1023]`. In every
other layer the whole of the layer's strip at the variate lies below the curve, up to a relative error of `2^-45`. -/
theorem C39_expo_fast (lib : MathLib) (fused : Bool) (src : Source σ) (fuel : Nat) (s s1 : σ) (x : U64)
    (h : RNG.uint64 src s = .ok (x, s1)) (hk : (zoffset false x).natAbs < (expoK[zlayer x]'(zlayer_lt x)).toNat) :
    ∃ r, (expoZig lib).genNext fused src (fuel + 1) s = .ok (r, s1) ∧ r.IsFin ∧ 0 ≤ rv r ∧
      (zlayer x = 0 → rv r ≤ zx expoW 1023) ∧
      (zlayer x ≠ 0 → zf expoF (zlayer x - 1) (by have := zlayer_lt x; omega) ≤ Real.exp (-rv r) * (1 + 1 / 2 ^ 45)) := by
  have hj0 : 0 ≤ zoffset false x := by
    show (0 : Int) ≤ ((x.toNat % 2 ^ 53 : Nat) : Int)
    exact Int.natCast_nonneg _
  rw [genNext_word _ _ _ _ _ _ _ h]
  exact ⟨_, if_pos hk, expo_fast_aux _ (zlayer_lt x) _ hj0 (zoffset_le false x) hk⟩

/-- C39, the normal distribution: likewise, on both sides of 0. -/
theorem C39_normal_fast (lib : MathLib) (fused : Bool) (src : Source σ) (fuel : Nat) (s s1 : σ) (x : U64)
    (h : RNG.uint64 src s = .ok (x, s1)) (hk : (zoffset true x).natAbs < (normalK[zlayer x]'(zlayer_lt x)).toNat) :
    ∃ r, (normalZig lib).genNext fused src (fuel + 1) s = .ok (r, s1) ∧ r.IsFin ∧
      (0 ≤ zoffset true x → 0 ≤ rv r) ∧ (zoffset true x ≤ 0 → rv r ≤ 0) ∧
      (zlayer x = 0 → |rv r| ≤ zx normalW 1023) ∧
      (zlayer x ≠ 0 → zf normalF (zlayer x - 1) (by have := zlayer_lt x; omega) ≤ Real.exp (-rv r ^ 2 / 2) * (1 + 1 / 2 ^ 45)) := by
  rw [genNext_word _ _ _ _ _ _ _ h]
  exact ⟨_, if_pos hk, normal_fast_aux _ (zlayer_lt x) _ (zoffset_le true x) hk⟩

/-! ### The wedges -/

theorem chkD_short (r0 r : ZRow) (h : chkD r0 r = true) (hlt : r.f < r0.f) : Short (r0.f - r.f) := by
  unfold chkD at h
  simp only [Bool.and_eq_true, Nat.ble_eq, Nat.blt_eq] at h
  obtain ⟨⟨⟨h1, h2⟩, -⟩, -⟩ := h
  unfold ZRow.f at *
  obtain ⟨a0, b0, m0, k0⟩ := r0
  obtain ⟨a1, b1, m, k⟩ := r
  simp only at *
  obtain ⟨d, rfl⟩ := Nat.exists_eq_add_of_le h1
  refine ⟨m0 * 2 ^ d - m, k, ?_, ?_⟩
  · have : (m0 * 2 ^ d) * 2 ^ k < (m + 2 ^ 53) * 2 ^ k := by
      rw [Nat.add_mul, ← pow_add, Nat.mul_assoc, ← pow_add, Nat.add_comm d]
      exact h2
    have := Nat.lt_of_mul_lt_mul_right this
    omega
  · rw [Nat.sub_mul, Nat.mul_assoc, ← pow_add, Nat.add_comm d]

/-- The ordinates of two consecutive layers. -/
theorem ordinates {R : List ZRow} {K : Vector U64 1024} {W F : Vector F64 1024} (hR : RowsOf R K W F) (hD : pairsAll chkD R = true)
    {pdf : ℝ → ℝ} (hz : IsZiggurat pdf K W F) (i : Nat) (hi : i < 1024) (h0 : i ≠ 0) :
    ∃ a b, F[i - 1] = .fin false a ∧ F[i] = .fin false b ∧ Short a ∧ Short b ∧ Short (a - b) ∧ 2 ^ 53 ≤ b ∧ b < a ∧ a ≤ F64.one := by
  obtain ⟨e, he⟩ : ∃ e, 960 = e := ⟨_, rfl⟩
  have hone : F64.one = 2 ^ 114 * 2 ^ e := by rw [← he, ← pow_add]; rfl
  obtain ⟨-, -, -, f1, f2, f3⟩ := hz.finite i hi
  obtain ⟨-, -, -, g1, g2, g3⟩ := hz.finite (i - 1) (by omega)
  obtain ⟨b, hb⟩ := fin_of_pos F[i] f1 f3
  obtain ⟨a, ha⟩ := fin_of_pos F[i - 1] g1 g3
  have hl := hR.len
  have eb := hR.f i hi
  have ea := hR.f (i - 1) (by omega)
  have hc := pairsAll_get _ _ hD (i - 1) (by omega)
  simp only [show i - 1 + 1 = i by omega] at hc
  have key : ∀ n m : Nat, ((((F64.fin false n).val : ℚ)) : ℝ) = (m : ℝ) / 2 ^ 114 → n = m * 2 ^ e := by
    intro n m h
    have h1 := rv_pos n (114 + e) (by rw [← he])
    unfold rv at h1
    rw [h1, pow_add, div_eq_div_iff (by positivity) (by positivity)] at h
    have h2 : (n : ℝ) * 2 ^ 114 = (m * 2 ^ e) * 2 ^ 114 := by rw [h]; ring
    exact_mod_cast mul_right_cancel₀ (by positivity) h2
  unfold zf at ea eb
  rw [ha] at ea g2
  rw [hb] at eb f2
  have ka := key _ _ ea
  have kb := key _ _ eb
  have hlt := hz.f_lt i hi (by omega)
  unfold zf at hlt
  rw [ha, hb, ea, eb, div_lt_div_iff_of_pos_right (by positivity)] at hlt
  have hlt' : (R[i]'(by omega)).f < (R[i - 1]'(by omega)).f := by exact_mod_cast hlt
  have hs := chkD_short _ _ hc hlt'
  unfold chkD at hc
  simp only [Bool.and_eq_true, Nat.ble_eq, Nat.blt_eq] at hc
  obtain ⟨⟨-, c1⟩, c2⟩ := hc
  have hp : 0 < 2 ^ e := Nat.two_pow_pos e
  refine ⟨a, b, ha, hb, g2.1, f2.1, ?_, ?_, ?_, ?_⟩
  · rw [ka, kb, ← Nat.sub_mul]
    exact short_mul_pow _ _ hs
  · rw [kb]
    exact c1.trans (Nat.le_mul_of_pos_right _ hp)
  · rw [ka, kb]
    exact Nat.mul_lt_mul_of_pos_right hlt' hp
  · rw [ka, hone]
    exact Nat.mul_le_mul_right _ c2

theorem err_le (a b : Nat) (hb : 0 < b) (c : Nat) (hc : 2 ^ 53 ≤ c) (ha : a ≤ c * b) :
    |(a : ℝ) / b - rndNat a b| ≤ c / 2 ^ 53 := by
  have hb' : (0 : ℝ) < b := by exact_mod_cast hb
  have e1 : (a : ℝ) / b - rndNat a b = ((a : ℝ) - rndNat a b * b) / b := by field_simp
  rw [e1, abs_div, abs_of_pos hb', div_le_iff₀ hb']
  have ha' : (a : ℝ) ≤ c * b := by exact_mod_cast ha
  have hc' : (2 : ℝ) ^ 53 ≤ c := by exact_mod_cast hc
  rcases rndNat_error a b hb with h | ⟨h, -⟩
  · have h' : |(a : ℝ) - rndNat a b * b| * 2 ^ 53 ≤ a := by exact_mod_cast h
    have : |(a : ℝ) - rndNat a b * b| ≤ (c * b) / 2 ^ 53 := by
      rw [le_div_iff₀ (by positivity)]
      linarith
    calc _ ≤ (c * b : ℝ) / 2 ^ 53 := this
      _ = _ := by ring
  · have h' : |(a : ℝ) - rndNat a b * b| * 2 ≤ b := by exact_mod_cast h
    have h2 : (1 : ℝ) ≤ c / 2 ^ 53 := by rw [le_div_iff₀ (by positivity)]; linarith
    have h3 : (b : ℝ) ≤ c / 2 ^ 53 * b := by nlinarith
    linarith

theorem fma_pos (n m l : Nat) : F64.fma (.fin false n) (.fin false m) (.fin false l) =
    F64.rndInt false (((n * m : Nat) : Int) + ((l * F64.one : Nat) : Int)) F64.one := by
  unfold F64.fma F64.sint
  simp only [Bool.false_bne, Bool.and_false, Bool.false_eq_true, if_false]

theorem mulAdd_true (x y z : F64) : F64.mulAdd true x y z = F64.fma x y z := if_pos rfl
theorem mulAdd_false (x y z : F64) : F64.mulAdd false x y z = F64.add (F64.mul x y) z := if_neg Bool.false_ne_true

theorem wedge_aux (fused : Bool) (a b m e B : Nat) (he : 1021 = e) (hB : F64.one = B) (hsa : Short a) (hsb : Short b) (hs : Short (a - b)) (hb : 2 ^ 53 ≤ b)
    (hlt : b < a) (ha : a ≤ B) (hm : m < 2 ^ 53) :
    ∃ h, F64.mulAdd fused (.fin false (m * 2 ^ e)) (F64.sub (.fin false a) (.fin false b)) (.fin false b) = .fin false h ∧
      h < limit ∧ b ≤ h ∧ h ≤ a ∧ |(h : ℝ) - (b + m / 2 ^ 53 * ((a : ℝ) - b))| ≤ 2 * ((B : ℝ) / 2 ^ 53) := by
  have hone : B = 2 ^ 53 * 2 ^ e := by rw [← hB, ← he, ← pow_add]; rfl
  have hp : 0 < 2 ^ e := Nat.two_pow_pos e
  have hlim : ∀ n, n ≤ a → n < limit := fun n hn => lt_limit_of_le n (53 + e) (by rw [pow_add, ← hone]; omega) (by omega)
  have hsub : F64.sub (.fin false a) (.fin false b) = .fin false (a - b) := by
    show F64.rndInt (false && true) ((a : Int) + -(b : Int)) 1 = _
    rw [show (a : Int) + -(b : Int) = ((a - b : Nat) : Int) by omega, rndInt_of_nonneg _ _ _ (by omega)]
    have := rnd_exact false (a - b) 1 (by decide) ⟨hs, hlim _ (by omega)⟩
    rwa [Nat.mul_one] at this
  rw [hsub]
  obtain ⟨d, hd⟩ : ∃ d, a - b = d := ⟨_, rfl⟩
  rw [hd] at hs ⊢
  have had : a = b + d := by omega
  have hd0 : 0 < d := by omega
  have hmd : m * d ≤ d * 2 ^ 53 := by rw [Nat.mul_comm]; exact Nat.mul_le_mul_left _ hm.le
  have hc : (a : ℝ) ≤ B := by exact_mod_cast ha
  have e53 : (((2 : Nat) ^ 53 : Nat) : ℝ) = 2 ^ 53 := by rw [Nat.cast_pow, Nat.cast_ofNat]
  have hone' : 2 ^ 53 ≤ B := hb.trans (hlt.le.trans ha)
  cases fused with
  | false =>
    have hpr : rndNat (m * d) (2 ^ 53) ≤ d := rndNat_le _ _ _ (by decide) hs hmd
    have e1 := err_le (m * d) (2 ^ 53) (by decide) B hone'
      (hmd.trans (Nat.mul_le_mul_right _ (by omega)))
    have hmul : F64.mul (.fin false (m * 2 ^ e)) (.fin false d) = .fin false (rndNat (m * d) (2 ^ 53)) := by
      show F64.rnd false (m * 2 ^ e * d) F64.one = _
      rw [hB, Nat.mul_right_comm, hone, rnd_scale _ _ _ _ hp]
      unfold F64.rnd
      rw [if_pos (hlim _ (by omega))]
    rw [mulAdd_false, hmul]
    rw [e53] at e1
    generalize rndNat (m * d) (2 ^ 53) = p at *
    have h1 : b ≤ rndNat (p + b) 1 := le_rndNat _ _ _ (by decide) hsb (by omega)
    have h2 : rndNat (p + b) 1 ≤ a := rndNat_le _ _ _ (by decide) hsa (by omega)
    have e2 := err_le (p + b) 1 (by decide) B hone' (by omega)
    refine ⟨rndNat (p + b) 1, ?_, hlim _ h2, h1, h2, ?_⟩
    · show F64.rndInt (false && false) ((p : Int) + (b : Int)) 1 = _
      rw [show (p : Int) + (b : Int) = ((p + b : Nat) : Int) by omega, rndInt_of_nonneg _ _ _ (by omega)]
      unfold F64.rnd
      rw [if_pos (hlim _ h2)]
    · generalize rndNat (p + b) 1 = h at *
      have had' : (a : ℝ) - b = d := by rw [had]; push_cast; ring
      rw [had']
      rw [Nat.cast_mul] at e1
      rw [Nat.cast_one, div_one, Nat.cast_add] at e2
      rw [abs_sub_comm]
      have e3 : (b + m / 2 ^ 53 * (d : ℝ)) - h = (m * d / 2 ^ 53 - p) + (p + b - h) := by ring
      rw [e3]
      refine (abs_add_le _ _).trans ?_
      linarith
  | true =>
    have h1 : b ≤ rndNat (m * d + b * 2 ^ 53) (2 ^ 53) := le_rndNat _ _ _ (by decide) hsb (by omega)
    have hle : m * d + b * 2 ^ 53 ≤ a * 2 ^ 53 := by rw [had, Nat.add_mul]; omega
    have h2 : rndNat (m * d + b * 2 ^ 53) (2 ^ 53) ≤ a := rndNat_le _ _ _ (by decide) hsa hle
    have e2 := err_le (m * d + b * 2 ^ 53) (2 ^ 53) (by decide) B hone' (hle.trans (Nat.mul_le_mul_right _ ha))
    have h3 : m * 2 ^ e * d + b * (2 ^ 53 * 2 ^ e) = (m * d + b * 2 ^ 53) * 2 ^ e := by
      rw [Nat.add_mul, Nat.mul_right_comm, Nat.mul_assoc b]
    refine ⟨_, ?_, hlim _ h2, h1, h2, ?_⟩
    · rw [mulAdd_true, fma_pos, hB, ← Int.natCast_add, rndInt_of_nonneg, hone]
      · rw [h3, rnd_scale _ _ _ _ hp]
        unfold F64.rnd
        rw [if_pos (hlim _ h2)]
      · have hb0 : 0 < b := lt_of_lt_of_le (by decide) hb
        have : 0 < b * B := Nat.mul_pos hb0 (lt_of_lt_of_le (by decide) hone')
        exact Nat.lt_of_lt_of_le this (Nat.le_add_left _ _)
    · rw [e53] at e2
      generalize rndNat (m * d + b * 2 ^ 53) (2 ^ 53) = h at *
      have had' : (a : ℝ) - b = d := by rw [had]; push_cast; ring
      rw [had', abs_sub_comm]
      rw [Nat.cast_add, Nat.cast_mul, Nat.cast_mul, e53] at e2
      have e3 : (b + m / 2 ^ 53 * (d : ℝ)) - h = (m * d + b * 2 ^ 53) / 2 ^ 53 - h := by field_simp; ring
      rw [e3]
      have : (0 : ℝ) ≤ (B : ℝ) / 2 ^ 53 := by positivity
      linarith

/-- The height at which a wedge is probed, computed in floating point, lies between the ordinates of the layer; it differs by
at most `2^-52` from the exact one. -/
theorem wedge {R : List ZRow} {K : Vector U64 1024} {W F : Vector F64 1024} (hR : RowsOf R K W F) (hD : pairsAll chkD R = true)
    {pdf : ℝ → ℝ} (hz : IsZiggurat pdf K W F) (i : Nat) (hi : i < 1024) (h0 : i ≠ 0) (fused : Bool) (src : Source σ) (s s' : σ)
    (u : F64) (hu : uniform01 src s = .ok (u, s')) :
    ∃ h, F64.mulAdd fused u (F64.sub F[i - 1] F[i]) F[i] = h ∧ h.IsFin ∧ zf F i ≤ rv h ∧ rv h ≤ zf F (i - 1) ∧
      |rv h - (zf F i + rv u * (zf F (i - 1) - zf F i))| ≤ 1 / 2 ^ 52 := by
  obtain ⟨e, he⟩ : ∃ e, 1021 = e := ⟨_, rfl⟩
  have hone : F64.one = 2 ^ (53 + e) := by rw [← he]; rfl
  obtain ⟨m, hm, rfl⟩ : ∃ m, m < 2 ^ 53 ∧ u = .fin false (m * 2 ^ e) := by
    cases hr : src.read (zeros 8) s with
    | error p => rw [uniform01_error src s p hr] at hu; contradiction
    | ok r =>
      rw [uniform01_eq src s r.2 r.1 hr, he, Except.ok.injEq, Prod.mk.injEq] at hu
      exact ⟨_, Nat.mod_lt _ (by decide), hu.1.symm⟩
  obtain ⟨a, b, ha, hb, hsa, hsb, hs, hb53, hlt, hao⟩ := ordinates hR hD hz i hi h0
  obtain ⟨h, h1, -, h3, h4, h5⟩ := wedge_aux fused a b m e _ he rfl hsa hsb hs hb53 hlt hao hm
  have e1 := rv_pos a (53 + e) (by omega)
  have e2 := rv_pos b (53 + e) (by omega)
  have e3 := rv_pos h (53 + e) (by omega)
  have e4 := rv_pos (m * 2 ^ e) (53 + e) (by omega)
  have s : (0 : ℝ) < 2 ^ (53 + e) := by positivity
  have z1 : zf F i = (b : ℝ) / 2 ^ (53 + e) := by unfold zf; rw [hb]; exact e2
  have z2 : zf F (i - 1) = (a : ℝ) / 2 ^ (53 + e) := by unfold zf; rw [ha]; exact e1
  have e5 : rv (.fin false (m * 2 ^ e)) = (m : ℝ) / 2 ^ 53 := by
    rw [e4, pow_add, Nat.cast_mul, Nat.cast_pow, Nat.cast_ofNat, mul_div_mul_right _ _ (by positivity)]
  refine ⟨.fin false h, by rw [ha, hb]; exact h1, trivial, ?_, ?_, ?_⟩
  · rw [z1, e3]; exact div_le_div_of_nonneg_right (by exact_mod_cast h3) s.le
  · rw [z2, e3]; exact div_le_div_of_nonneg_right (by exact_mod_cast h4) s.le
  · rw [z1, z2, e3, e5]
    rw [show (h : ℝ) / 2 ^ (53 + e) - (b / 2 ^ (53 + e) + m / 2 ^ 53 * (a / 2 ^ (53 + e) - b / 2 ^ (53 + e))) =
      (h - (b + m / 2 ^ 53 * ((a : ℝ) - b))) / 2 ^ (53 + e) by ring, abs_div, abs_of_pos s, div_le_iff₀ s]
    rw [hone, Nat.cast_pow, Nat.cast_ofNat] at h5
    refine h5.trans_eq ?_
    generalize (2 : ℝ) ^ (53 + e) = B
    ring

/-- The step of `C39_expo_wedge`, with the candidate named. -/
theorem expo_wedge (lib : MathLib) (fused : Bool) (src : Source σ) (fuel : Nat) (s s1 s2 : σ) (x : U64) (u : F64)
    (h : RNG.uint64 src s = .ok (x, s1)) (hk : (expoK[zlayer x]'(zlayer_lt x)).toNat ≤ (zoffset false x).natAbs)
    (h0 : zlayer x ≠ 0) (hu : uniform01 src s1 = .ok (u, s2)) :
    ∃ h, ∃ y, y = F64.mul (F64.ofInt (zoffset false x)) (expoW[zlayer x]'(zlayer_lt x)) ∧ (expoZig lib).genNext fused src (fuel + 1) s =
        (if F64.lt h (lib.exp (F64.neg y)) then .ok (y, s2) else (expoZig lib).genNext fused src fuel s2) ∧
      y.IsFin ∧ 0 ≤ rv y ∧ rv y ≤ zx expoW (zlayer x) (zlayer_lt x) ∧
      h.IsFin ∧ zf expoF (zlayer x) (zlayer_lt x) ≤ rv h ∧ rv h ≤ zf expoF (zlayer x - 1) (by have := zlayer_lt x; omega) ∧
      |rv h - (zf expoF (zlayer x) (zlayer_lt x) + rv u * (zf expoF (zlayer x - 1) (by have := zlayer_lt x; omega) -
        zf expoF (zlayer x) (zlayer_lt x)))| ≤ 1 / 2 ^ 52 := by
  have hj0 : 0 ≤ zoffset false x := by
    show (0 : Int) ≤ ((x.toNat % 2 ^ 53 : Nat) : Int)
    exact Int.natCast_nonneg _
  have hi := zlayer_lt x
  obtain ⟨f1, f2, f3, -⟩ := C40_expo.finite (zlayer x) hi
  have hw : zx expoW (zlayer x) hi ≤ 2 ^ 53 := (expo_x_le _ hi).trans pow53_11
  obtain ⟨m1, m2, -⟩ := mul_isFin expoW _ hi f1 f2 f3 hw _ (zoffset_le false x)
  obtain ⟨p, c1, -, c3, -⟩ := candidate expoW _ hi f1 f2 f3 hw _ (zoffset_le false x)
  obtain ⟨h', w1, w2⟩ := wedge expo_rowsOf expoRows_D C40_expo (zlayer x) hi h0 fused src s1 s2 u hu
  refine ⟨h', F64.mul (F64.ofInt (zoffset false x)) (expoW[zlayer x]'hi), rfl, ?_, m1, m2 hj0, ?_, w2⟩
  · rw [genNext_word _ _ _ _ _ _ _ h]
    show (if (zoffset false x).natAbs < (expoK[zlayer x]'(zlayer_lt x)).toNat then _ else _) = _
    rw [if_neg (by omega), if_pos h0]
    simp only [hu, bind, Except.bind, pure, Except.pure]
    rw [← w1]
    rfl
  · rw [c1]
    exact (le_abs_self _).trans c3

/-- C39, the exponential distribution: a word of another layer than the base whose offset is not below `K` is turned into a
candidate `y` within the layer's width, and the density at `y` is compared with a height `h` drawn within the layer's strip. -/
theorem C39_expo_wedge (lib : MathLib) (fused : Bool) (src : Source σ) (fuel : Nat) (s s1 s2 : σ) (x : U64) (u : F64)
    (h : RNG.uint64 src s = .ok (x, s1)) (hk : (expoK[zlayer x]'(zlayer_lt x)).toNat ≤ (zoffset false x).natAbs)
    (h0 : zlayer x ≠ 0) (hu : uniform01 src s1 = .ok (u, s2)) :
    ∃ y h, (expoZig lib).genNext fused src (fuel + 1) s =
        (if F64.lt h (lib.exp (F64.neg y)) then .ok (y, s2) else (expoZig lib).genNext fused src fuel s2) ∧
      y.IsFin ∧ 0 ≤ rv y ∧ rv y ≤ zx expoW (zlayer x) (zlayer_lt x) ∧
      h.IsFin ∧ zf expoF (zlayer x) (zlayer_lt x) ≤ rv h ∧ rv h ≤ zf expoF (zlayer x - 1) (by have := zlayer_lt x; omega) ∧
      |rv h - (zf expoF (zlayer x) (zlayer_lt x) + rv u * (zf expoF (zlayer x - 1) (by have := zlayer_lt x; omega) -
        zf expoF (zlayer x) (zlayer_lt x)))| ≤ 1 / 2 ^ 52 :=
  have ⟨h', y, _, w⟩ := expo_wedge lib fused src fuel s s1 s2 x u h hk h0 hu
  ⟨y, h', w⟩

/-- The step of `C39_normal_wedge`, with the candidate named. -/
theorem normal_wedge (lib : MathLib) (fused : Bool) (src : Source σ) (fuel : Nat) (s s1 s2 : σ) (x : U64) (u : F64)
    (h : RNG.uint64 src s = .ok (x, s1)) (hk : (normalK[zlayer x]'(zlayer_lt x)).toNat ≤ (zoffset true x).natAbs)
    (h0 : zlayer x ≠ 0) (hu : uniform01 src s1 = .ok (u, s2)) :
    ∃ h, ∃ y, y = F64.mul (F64.ofInt (zoffset true x)) (normalW[zlayer x]'(zlayer_lt x)) ∧ (normalZig lib).genNext fused src (fuel + 1) s =
        (if F64.lt h (normalPDF lib y) then .ok (y, s2) else (normalZig lib).genNext fused src fuel s2) ∧
      y.IsFin ∧ (0 ≤ zoffset true x → 0 ≤ rv y) ∧ (zoffset true x ≤ 0 → rv y ≤ 0) ∧ |rv y| ≤ zx normalW (zlayer x) (zlayer_lt x) ∧
      h.IsFin ∧ zf normalF (zlayer x) (zlayer_lt x) ≤ rv h ∧ rv h ≤ zf normalF (zlayer x - 1) (by have := zlayer_lt x; omega) ∧
      |rv h - (zf normalF (zlayer x) (zlayer_lt x) + rv u * (zf normalF (zlayer x - 1) (by have := zlayer_lt x; omega) -
        zf normalF (zlayer x) (zlayer_lt x)))| ≤ 1 / 2 ^ 52 := by
  have hi := zlayer_lt x
  obtain ⟨f1, f2, f3, -⟩ := C40_normal.finite (zlayer x) hi
  have h5 : (5 : ℝ) ≤ 2 ^ 53 := by norm_num
  have hw : zx normalW (zlayer x) hi ≤ 2 ^ 53 := (normal_x_le _ hi).trans h5
  obtain ⟨m1, m2, m3⟩ := mul_isFin normalW _ hi f1 f2 f3 hw _ (zoffset_le true x)
  obtain ⟨p, c1, -, c3, -⟩ := candidate normalW _ hi f1 f2 f3 hw _ (zoffset_le true x)
  obtain ⟨h', w1, w2⟩ := wedge normal_rowsOf normalRows_D C40_normal (zlayer x) hi h0 fused src s1 s2 u hu
  refine ⟨h', F64.mul (F64.ofInt (zoffset true x)) (normalW[zlayer x]'hi), rfl, ?_, m1, m2, m3, ?_, w2⟩
  · rw [genNext_word _ _ _ _ _ _ _ h]
    show (if (zoffset true x).natAbs < (normalK[zlayer x]'(zlayer_lt x)).toNat then _ else _) = _
    rw [if_neg (by omega), if_pos h0]
    simp only [hu, bind, Except.bind, pure, Except.pure]
    rw [← w1]
    rfl
  · rw [c1]
    exact c3

/-- C39, the normal distribution: likewise. -/
theorem C39_normal_wedge (lib : MathLib) (fused : Bool) (src : Source σ) (fuel : Nat) (s s1 s2 : σ) (x : U64) (u : F64)
    (h : RNG.uint64 src s = .ok (x, s1)) (hk : (normalK[zlayer x]'(zlayer_lt x)).toNat ≤ (zoffset true x).natAbs)
    (h0 : zlayer x ≠ 0) (hu : uniform01 src s1 = .ok (u, s2)) :
    ∃ y h, (normalZig lib).genNext fused src (fuel + 1) s =
        (if F64.lt h (normalPDF lib y) then .ok (y, s2) else (normalZig lib).genNext fused src fuel s2) ∧
      y.IsFin ∧ (0 ≤ zoffset true x → 0 ≤ rv y) ∧ (zoffset true x ≤ 0 → rv y ≤ 0) ∧ |rv y| ≤ zx normalW (zlayer x) (zlayer_lt x) ∧
      h.IsFin ∧ zf normalF (zlayer x) (zlayer_lt x) ≤ rv h ∧ rv h ≤ zf normalF (zlayer x - 1) (by have := zlayer_lt x; omega) ∧
      |rv h - (zf normalF (zlayer x) (zlayer_lt x) + rv u * (zf normalF (zlayer x - 1) (by have := zlayer_lt x; omega) -
        zf normalF (zlayer x) (zlayer_lt x)))| ≤ 1 / 2 ^ 52 :=
  have ⟨h', y, _, w⟩ := normal_wedge lib fused src fuel s s1 s2 x u h hk h0 hu
  ⟨y, h', w⟩

/-- Non-vacuity of C39: a word of layer 2 that is accepted at once, one of layer 2 that is not, and one of the base layer. -/
example : zlayer 0x0080000000000005#64 = 2 ∧ zoffset false 0x0080000000000005#64 = 5 ∧ 5 < (expoK[2]).toNat ∧
    zlayer 0x009fffffffffffff#64 = 2 ∧ (expoK[2]).toNat ≤ (zoffset false 0x009fffffffffffff#64).natAbs ∧
    zlayer 0x003ffffffffffffe#64 = 0 ∧ zoffset true 0x003ffffffffffffe#64 = -2 ∧ 2 < (normalK[0]).toNat := by
  decide +kernel

end Crazy
