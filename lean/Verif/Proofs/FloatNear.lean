/-
The rounding errors of float arithmetic, in terms of the real numbers the floats stand for.
-/
import Verif.Proofs.ExpoDist
set_option exponentiation.threshold 2200
set_option maxRecDepth 4000
namespace Crazy
namespace F64

/-- `r` is the real number `v` up to one rounding. -/
def Near (r : F64) (v : ℝ) : Prop := r.IsFin ∧ r.Valid ∧ |rv r - v| ≤ |v| / 2 ^ 53 + 1 / 2 ^ 1000

theorem rnd_near (s : Bool) (a b : Nat) (hb : 0 < b) (v : ℝ) (hv : v = (if s then -1 else 1) * ((a : ℝ) / b / 2 ^ 1074))
    (hle : |v| ≤ 2 ^ 1000) : Near (rnd s a b) v := by
  unfold Near
  obtain ⟨e, he⟩ : ∃ e, 1074 = e := ⟨_, rfl⟩
  obtain ⟨k, hk⟩ : ∃ k, 1000 = k := ⟨_, rfl⟩
  obtain ⟨l, hl⟩ : ∃ l, 2098 = l := ⟨_, rfl⟩
  have hlim := limit_eq l hl
  rw [he] at hv
  rw [hk] at hle ⊢
  have s0 : (0 : ℝ) < 2 ^ e := by positivity
  have b0 : (0 : ℝ) < b := Nat.cast_pos.mpr hb
  have hav : |v| = (a : ℝ) / b / 2 ^ e := by
    have : (0 : ℝ) ≤ (a : ℝ) / b / 2 ^ e := by positivity
    rw [hv, abs_mul, abs_of_nonneg this]
    cases s <;> simp
  have her := rndNat_error a b hb
  have hval := valid_rnd s a b hb
  have herr : |((rndNat a b : Nat) : ℝ) / 2 ^ e - (a : ℝ) / b / 2 ^ e| ≤ (a : ℝ) / b / 2 ^ e / 2 ^ 53 + 1 / 2 ^ (k + 1) := by
    generalize rndNat a b = q at *
    have e1 : (q : ℝ) / 2 ^ e - (a : ℝ) / b / 2 ^ e = -(((a : ℝ) - q * b) / (b * 2 ^ e)) := by field_simp; ring
    have n0 : (0 : ℝ) ≤ (a : ℝ) / b / 2 ^ e / 2 ^ 53 := by positivity
    have n1 : (0 : ℝ) < 1 / 2 ^ (k + 1) := by positivity
    rw [e1, abs_neg, abs_div, abs_of_pos (show (0 : ℝ) < b * 2 ^ e by positivity)]
    rcases her with h | ⟨h, -⟩
    · have h' : |(a : ℝ) - q * b| * 2 ^ 53 ≤ a := by exact_mod_cast h
      rw [← le_div_iff₀ (by norm_num)] at h'
      have : |(a : ℝ) - q * b| / (b * 2 ^ e) ≤ (a : ℝ) / 2 ^ 53 / (b * 2 ^ e) := div_le_div_of_nonneg_right h' (by positivity)
      have h2 : (a : ℝ) / 2 ^ 53 / (b * 2 ^ e) = (a : ℝ) / b / 2 ^ e / 2 ^ 53 := by field_simp
      linarith
    · have h' : |(a : ℝ) - q * b| * 2 ≤ b := by exact_mod_cast h
      have h2 : |(a : ℝ) - q * b| ≤ b / 2 := by linarith
      have : |(a : ℝ) - q * b| / (b * 2 ^ e) ≤ (b : ℝ) / 2 / (b * 2 ^ e) := div_le_div_of_nonneg_right h2 (by positivity)
      have h3 : (b : ℝ) / 2 / (b * 2 ^ e) = 1 / 2 ^ (1 + e) := by rw [pow_add]; field_simp
      have h4 : (1 : ℝ) / 2 ^ (1 + e) ≤ 1 / 2 ^ (k + 1) :=
        one_div_le_one_div_of_le (by positivity) (pow_le_pow_right₀ (by norm_num) (by omega))
      linarith
  have k1 : (1 : ℝ) / 2 ^ (k + 1) ≤ 1 / 2 ^ k := one_div_le_one_div_of_le (by positivity) (pow_le_pow_right₀ (by norm_num) (by omega))
  have hlt : rndNat a b < limit := by
    by_contra hc
    rw [not_lt, hlim] at hc
    have h1 : (2 : ℝ) ^ l ≤ ((rndNat a b : Nat) : ℝ) := by exact_mod_cast hc
    have h2 : (2 : ℝ) ^ (k + 2) ≤ ((rndNat a b : Nat) : ℝ) / 2 ^ e := by
      rw [le_div_iff₀ s0, ← pow_add]
      exact (pow_le_pow_right₀ (by norm_num) (by omega)).trans h1
    have h3 := (abs_le.mp herr).2
    rw [← hav] at h3
    have h4 : |v| / 2 ^ 53 ≤ |v| := div_le_self (abs_nonneg v) (by norm_num)
    have h5 : (1 : ℝ) / 2 ^ (k + 1) ≤ 2 ^ k := by
      rw [div_le_iff₀ (by positivity), ← pow_add]
      exact one_le_pow₀ (by norm_num)
    have h6 : (2 : ℝ) ^ (k + 2) = 4 * 2 ^ k := by rw [pow_add]; ring
    have h7 : (0 : ℝ) < 2 ^ k := by positivity
    linarith
  unfold rnd at hval ⊢
  rw [if_pos hlt] at hval ⊢
  refine ⟨trivial, hval, ?_⟩
  rw [hav]
  cases s
  · rw [rv_pos _ e he, hv, if_neg Bool.false_ne_true, one_mul]
    linarith
  · rw [rv_neg _ e he, hv, if_pos rfl, neg_one_mul, neg_sub_neg, abs_sub_comm]
    linarith

theorem rndInt_near (s : Bool) (z : Int) (b : Nat) (hb : 0 < b) (v : ℝ) (hv : v = (z : ℝ) / b / 2 ^ 1074)
    (hle : |v| ≤ 2 ^ 1000) : Near (rndInt s z b) v := by
  unfold rndInt
  split
  · next h =>
    rw [h, Int.cast_zero, zero_div, zero_div] at hv
    rw [hv]
    refine ⟨trivial, ⟨short_zero, limit_pos⟩, ?_⟩
    obtain ⟨e, he⟩ : ∃ e, 1074 = e := ⟨_, rfl⟩
    obtain ⟨k, hk⟩ : ∃ k, 1000 = k := ⟨_, rfl⟩
    rw [hk]
    have : rv (.fin s 0) = 0 := by
      cases s
      · rw [rv_pos _ e he]; simp
      · rw [rv_neg _ e he]; simp
    rw [this, sub_zero, abs_zero, zero_div, zero_add]
    positivity
  · next h =>
    refine rnd_near _ _ _ hb v ?_ hle
    rw [hv]
    obtain ⟨e, he⟩ : ∃ e, 1074 = e := ⟨_, rfl⟩
    rw [he]
    have : (z : ℝ) = (if decide (z < 0) = true then -1 else 1) * (z.natAbs : ℝ) := by
      rcases lt_or_ge z 0 with h | h
      · rw [decide_eq_true h, if_pos rfl]
        have : (z : ℝ) = -((z.natAbs : ℤ) : ℝ) := by rw [← Int.cast_neg]; congr 1; omega
        rw [this, Int.cast_natCast]; ring
      · rw [decide_eq_false (by omega), if_neg Bool.false_ne_true]
        have : (z : ℝ) = ((z.natAbs : ℤ) : ℝ) := by congr 1; omega
        rw [this, Int.cast_natCast]; ring
    rw [this]
    ring

theorem rv_fin (s : Bool) (n : Nat) : rv (.fin s n) = (if s then -1 else 1) * ((n : ℝ) / 2 ^ 1074) := by
  obtain ⟨e, he⟩ : ∃ e, 1074 = e := ⟨_, rfl⟩
  rw [he]
  cases s
  · rw [rv_pos _ e he, if_neg Bool.false_ne_true, one_mul]
  · rw [rv_neg _ e he, if_pos rfl, neg_one_mul]

theorem sign_mul (a b : Bool) : ((if (a ^^ b) = true then -1 else 1 : ℝ)) = (if a = true then -1 else 1) * (if b = true then -1 else 1) := by
  cases a <;> cases b <;> norm_num

theorem sint_cast (s : Bool) (n : Nat) : ((sint s n : Int) : ℝ) = (if s = true then -1 else 1) * (n : ℝ) := by
  unfold sint
  cases s <;> simp

theorem mul_near (x y : F64) (hx : x.IsFin) (hy : y.IsFin) (h : |rv x * rv y| ≤ 2 ^ 1000) : Near (mul x y) (rv x * rv y) := by
  match x, y, hx, hy with
  | .fin a n, .fin b m, _, _ =>
    show Near (rnd (a ^^ b) (n * m) one) _
    obtain ⟨e, he⟩ : ∃ e, 1074 = e := ⟨_, rfl⟩
    have hone : one = 2 ^ e := by rw [← he]; rfl
    refine rnd_near _ _ _ one_pos _ ?_ h
    rw [rv_fin, rv_fin, hone, he, sign_mul, Nat.cast_mul, Nat.cast_pow, Nat.cast_ofNat]
    ring

theorem div_near (x y : F64) (hx : x.IsFin) (hy : y.IsFin) (h0 : rv y ≠ 0) (h : |rv x / rv y| ≤ 2 ^ 1000) :
    Near (div x y) (rv x / rv y) := by
  match x, y, hx, hy with
  | .fin a n, .fin b m, _, _ =>
    obtain ⟨e, he⟩ : ∃ e, 1074 = e := ⟨_, rfl⟩
    have hm : m ≠ 0 := by
      rintro rfl
      refine h0 ?_
      rw [rv_fin, he, Nat.cast_zero, zero_div, mul_zero]
    have hdiv : div (.fin a n) (.fin b m) = rnd (a ^^ b) (n * one) m := by
      show (if m = 0 then _ else _) = _
      exact if_neg hm
    rw [hdiv]
    have hone : one = 2 ^ e := by rw [← he]; rfl
    refine rnd_near _ _ _ (by omega) _ ?_ h
    rw [rv_fin, rv_fin, hone, he, sign_mul, Nat.cast_mul, Nat.cast_pow, Nat.cast_ofNat]
    have hm' : (m : ℝ) ≠ 0 := Nat.cast_ne_zero.mpr hm
    have hb : ((if b = true then -1 else 1 : ℝ)) ≠ 0 := by cases b <;> norm_num
    have hb2 : (1 : ℝ) / (if b = true then -1 else 1 : ℝ) = (if b = true then -1 else 1) := by cases b <;> norm_num
    rw [mul_div_mul_comm, div_eq_mul_one_div (if a = true then (-1 : ℝ) else 1), hb2]
    field_simp

theorem add_near (x y : F64) (hx : x.IsFin) (hy : y.IsFin) (h : |rv x + rv y| ≤ 2 ^ 1000) : Near (add x y) (rv x + rv y) := by
  match x, y, hx, hy with
  | .fin a n, .fin b m, _, _ =>
    show Near (rndInt (a && b) (sint a n + sint b m) 1) _
    obtain ⟨e, he⟩ : ∃ e, 1074 = e := ⟨_, rfl⟩
    refine rndInt_near _ _ _ Nat.one_pos _ ?_ h
    rw [rv_fin, rv_fin, he, Int.cast_add, sint_cast, sint_cast, Nat.cast_one]
    ring

theorem fma_near (x y z : F64) (hx : x.IsFin) (hy : y.IsFin) (hz : z.IsFin) (h : |rv x * rv y + rv z| ≤ 2 ^ 1000) :
    Near (fma x y z) (rv x * rv y + rv z) := by
  match x, y, z, hx, hy, hz with
  | .fin a n, .fin b m, .fin c l, _, _, _ =>
    have : fma (.fin a n) (.fin b m) (.fin c l) = rndInt ((a ^^ b) && c) (sint (a ^^ b) (n * m) + sint c (l * one)) one := by
      unfold fma; rfl
    rw [this]
    obtain ⟨e, he⟩ : ∃ e, 1074 = e := ⟨_, rfl⟩
    have hone : one = 2 ^ e := by rw [← he]; rfl
    refine rndInt_near _ _ _ one_pos _ ?_ h
    rw [rv_fin, rv_fin, rv_fin, he, Int.cast_add, sint_cast, sint_cast, hone, sign_mul, Nat.cast_mul, Nat.cast_mul, Nat.cast_pow, Nat.cast_ofNat]
    field_simp

end F64
end Crazy
