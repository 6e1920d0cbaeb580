/-
Facts about the `float64` model.
-/
import Verif.Spec.Float
import Mathlib.Tactic.Ring
import Mathlib.Tactic.Linarith
import Mathlib.Tactic.Positivity
import Mathlib.Tactic.FieldSimp
import Mathlib.Tactic.NormNum
namespace Crazy
namespace F64

theorem place_zero (q : Nat) (h : q < 2 ^ 53) : place q = 0 := by
  unfold place
  have : q.log2 < 53 := by
    by_cases h0 : q = 0
    · subst h0; decide
    · exact (Nat.log2_lt h0).mpr h
  omega

/-- Between two neighbours on the grid of a place there is no other number of 53 bits. -/
theorem Short.gap {y m k : Nat} (hy : Short y) (hk : k = 0 ∨ 2 ^ 52 ≤ m) : y ≤ m * 2 ^ k ∨ (m + 1) * 2 ^ k ≤ y := by
  obtain ⟨a, e, ha, rfl⟩ := hy
  by_cases hc : k ≤ e
  · obtain ⟨d, rfl⟩ := Nat.exists_eq_add_of_le hc
    rw [pow_add, Nat.mul_comm (2 ^ k), ← Nat.mul_assoc]
    rcases Nat.lt_or_ge m (a * 2 ^ d) with h | h
    · right; exact Nat.mul_le_mul_right _ h
    · left; exact Nat.mul_le_mul_right _ h
  · left
    rcases hk with rfl | hk
    · omega
    · obtain ⟨d, rfl⟩ := Nat.exists_eq_add_of_lt (Nat.lt_of_not_le hc)
      have h1 : a * 2 ^ e ≤ 2 ^ 53 * 2 ^ e := Nat.mul_le_mul_right _ ha.le
      have h2 : 2 ^ 53 * 2 ^ e ≤ m * 2 ^ (e + d + 1) := by
        calc 2 ^ 53 * 2 ^ e = 2 ^ 52 * (2 ^ e * 2) := by ring
          _ ≤ m * (2 ^ e * 2) := Nat.mul_le_mul_right _ hk
          _ ≤ m * (2 ^ e * 2 * 2 ^ d) := Nat.mul_le_mul_left _ (Nat.le_mul_of_pos_right _ (Nat.two_pow_pos d))
          _ = m * 2 ^ (e + d + 1) := by ring
      omega

/-- What `rndNat` computes with. -/
structure Grid (a b m k r : Nat) : Prop where
  eq : a = b * 2 ^ k * m + r
  lt : r < b * 2 ^ k
  le : m < 2 ^ 53
  ge : k = 0 ∨ 2 ^ 52 ≤ m

theorem grid (a b : Nat) (hb : 0 < b) :
    Grid a b (a / (b * 2 ^ place (a / b))) (place (a / b)) (a % (b * 2 ^ place (a / b))) := by
  have hd : 0 < b * 2 ^ place (a / b) := Nat.mul_pos hb (Nat.two_pow_pos _)
  refine ⟨(Nat.div_add_mod _ _).symm, Nat.mod_lt _ hd, ?_, ?_⟩
  · rw [← Nat.div_div_eq_div_mul]
    generalize a / b = q
    rw [Nat.div_lt_iff_lt_mul (Nat.two_pow_pos _), ← pow_add]
    by_cases h0 : q = 0
    · subst h0; exact Nat.two_pow_pos _
    · rw [← Nat.log2_lt h0]
      unfold place
      omega
  · rw [← Nat.div_div_eq_div_mul]
    generalize a / b = q
    by_cases hk : place q = 0
    · left; exact hk
    · right
      rw [Nat.le_div_iff_mul_le (Nat.two_pow_pos _), ← pow_add]
      have h0 : q ≠ 0 := by rintro rfl; exact hk (by decide)
      rw [← Nat.le_log2 h0]
      unfold place at *
      omega

theorem rndNat_cases (a b : Nat) (hb : 0 < b) : ∃ m k r, Grid a b m k r ∧
    ((rndNat a b = m * 2 ^ k ∧ 2 * r ≤ b * 2 ^ k ∧ (2 * r = b * 2 ^ k → m % 2 = 0)) ∨
      (rndNat a b = (m + 1) * 2 ^ k ∧ b * 2 ^ k ≤ 2 * r ∧ (2 * r = b * 2 ^ k → m % 2 = 1))) := by
  refine ⟨_, _, _, grid a b hb, ?_⟩
  unfold rndNat
  simp only
  split
  · rename_i h
    right
    refine ⟨rfl, ?_, ?_⟩ <;> omega
  · rename_i h
    left
    refine ⟨rfl, ?_, ?_⟩ <;> omega

theorem short_of_le {m k : Nat} (h : m ≤ 2 ^ 53) : Short (m * 2 ^ k) := by
  rcases Nat.lt_or_ge m (2 ^ 53) with h1 | h1
  · exact ⟨m, k, h1, rfl⟩
  · have : m = 2 ^ 53 := by omega
    subst this
    exact ⟨1, 53 + k, by norm_num, by rw [pow_add, Nat.one_mul]⟩

theorem short_rndNat (a b : Nat) (hb : 0 < b) : Short (rndNat a b) := by
  obtain ⟨m, k, r, hg, ⟨h, -, -⟩ | ⟨h, -, -⟩⟩ := rndNat_cases a b hb
  · rw [h]; exact short_of_le (by have := hg.le; omega)
  · rw [h]; exact short_of_le (by have := hg.le; omega)

/-- A number of 53 bits that is not below `a / b` is not below the rounded one. -/
theorem rndNat_le (a b y : Nat) (hb : 0 < b) (hy : Short y) (h : a ≤ y * b) : rndNat a b ≤ y := by
  obtain ⟨m, k, r, hg, hc⟩ := rndNat_cases a b hb
  have hp := Nat.two_pow_pos k
  have h1 := hg.eq
  rcases hy.gap hg.ge with h2 | h2
  · have h3 : y * b ≤ b * 2 ^ k * m := by
      calc y * b ≤ m * 2 ^ k * b := Nat.mul_le_mul_right _ h2
        _ = _ := by ring
    have hr : r = 0 := by omega
    have hy : m * 2 ^ k ≤ y := by
      refine Nat.le_of_mul_le_mul_right ?_ hb
      calc m * 2 ^ k * b = b * 2 ^ k * m := by ring
        _ ≤ y * b := by omega
    rcases hc with ⟨h, -, -⟩ | ⟨h, h', -⟩
    · omega
    · have := hg.lt
      have : 0 < b * 2 ^ k := Nat.mul_pos hb hp
      omega
  · rcases hc with ⟨h, -, -⟩ | ⟨h, h', -⟩
    · rw [h]
      exact le_trans (Nat.mul_le_mul_right _ (Nat.le_succ m)) h2
    · omega

/-- A number of 53 bits that is not above `a / b` is not above the rounded one. -/
theorem le_rndNat (a b y : Nat) (hb : 0 < b) (hy : Short y) (h : y * b ≤ a) : y ≤ rndNat a b := by
  obtain ⟨m, k, r, hg, hc⟩ := rndNat_cases a b hb
  have h1 := hg.eq
  rcases hy.gap hg.ge with h2 | h2
  · rcases hc with ⟨h, -, -⟩ | ⟨h, h', -⟩
    · omega
    · rw [h]
      exact le_trans h2 (Nat.mul_le_mul_right _ (Nat.le_succ m))
  · exfalso
    have h3 : b * 2 ^ k * m + b * 2 ^ k ≤ y * b := by
      calc b * 2 ^ k * m + b * 2 ^ k = (m + 1) * 2 ^ k * b := by ring
        _ ≤ y * b := Nat.mul_le_mul_right _ h2
    have := hg.lt
    omega

theorem rndNat_exact (n b : Nat) (hb : 0 < b) (hn : Short n) : rndNat (n * b) b = n :=
  Nat.le_antisymm (rndNat_le _ _ _ hb hn le_rfl) (le_rndNat _ _ _ hb hn le_rfl)

/-- The distance from `a / b`, multiplied by `b`. -/
theorem rndNat_dist (a b y : Nat) (hb : 0 < b) (hy : Short y) :
    |(a : ℤ) - rndNat a b * b| ≤ |(a : ℤ) - y * b| := by
  obtain ⟨m, k, r, hg, hc⟩ := rndNat_cases a b hb
  have h1 := hg.eq
  have hlt := hg.lt
  obtain ⟨D, hD⟩ : ∃ D, D = b * 2 ^ k := ⟨_, rfl⟩
  obtain ⟨M, hM⟩ : ∃ M, M = b * 2 ^ k * m := ⟨_, rfl⟩
  have e1 : m * 2 ^ k * b = M := by rw [hM]; ring
  have e2 : (m + 1) * 2 ^ k * b = M + D := by rw [hM, hD]; ring
  have hyb : y * b ≤ M ∨ M + D ≤ y * b := by
    rcases hy.gap hg.ge with h | h
    · left; rw [← e1]; exact Nat.mul_le_mul_right _ h
    · right; rw [← e2]; exact Nat.mul_le_mul_right _ h
  rw [← hM] at h1
  rw [← hD] at hlt hc
  rcases hc with ⟨h, h', -⟩ | ⟨h, h', -⟩
  · have e3 : ((rndNat a b : ℤ)) * b = (M : ℤ) := by rw [h, ← e1]; push_cast; ring
    rw [e3, abs_of_nonneg (by omega)]
    have : ((y : ℤ)) * b = ((y * b : Nat) : ℤ) := by push_cast; ring
    rw [this]
    rcases hyb with h2 | h2
    · rw [abs_of_nonneg (by omega)]; omega
    · rw [abs_of_nonpos (by omega)]; omega
  · have e3 : ((rndNat a b : ℤ)) * b = ((M + D : Nat) : ℤ) := by rw [h, ← e2]; push_cast; ring
    rw [e3, abs_of_nonpos (by omega)]
    have : ((y : ℤ)) * b = ((y * b : Nat) : ℤ) := by push_cast; ring
    rw [this]
    rcases hyb with h2 | h2
    · rw [abs_of_nonneg (by omega)]; omega
    · rw [abs_of_nonpos (by omega)]; omega

/-- What is nearer to a number of 53 bits than half its last place is rounded to it. -/
theorem rndNat_of_close (a b m k : Nat) (hb : 0 < b) (hm : 2 ^ 52 < m) (hm' : m < 2 ^ 53) (h1 : 2 * a < (2 * m + 1) * 2 ^ k * b)
    (h2 : (2 * m - 1) * 2 ^ k * b < 2 * a) : rndNat a b = m * 2 ^ k := by
  obtain ⟨j, rfl⟩ : ∃ j, m = j + 1 := ⟨m - 1, by omega⟩
  have hd := rndNat_dist a b ((j + 1) * 2 ^ k) hb ⟨j + 1, k, hm', rfl⟩
  have hs := short_rndNat a b hb
  have g1 := hs.gap (m := j) (k := k) (Or.inr (by omega))
  have g2 := hs.gap (m := j + 1) (k := k) (Or.inr (by omega))
  generalize rndNat a b = r at hd g1 g2 ⊢
  by_contra hne
  obtain ⟨D, hD⟩ : ∃ D, D = b * 2 ^ k := ⟨_, rfl⟩
  have hDpos : 0 < D := by rw [hD]; exact Nat.mul_pos hb (Nat.two_pow_pos k)
  obtain ⟨M, hM⟩ : ∃ M, M = (j + 1) * 2 ^ k * b := ⟨_, rfl⟩
  obtain ⟨R, hR⟩ : ∃ R, R = r * b := ⟨_, rfl⟩
  have e1 : (2 * (j + 1) + 1) * 2 ^ k * b = 2 * M + D := by rw [hM, hD]; ring
  have e2 : (2 * (j + 1) - 1) * 2 ^ k * b + D = 2 * M := by
    rw [show 2 * (j + 1) - 1 = 2 * j + 1 by omega, hM, hD]; ring
  have e3 : (((j + 1) * 2 ^ k : Nat) : ℤ) * b = (M : ℤ) := by rw [hM]; push_cast; ring
  have e4 : (r : ℤ) * b = (R : ℤ) := by rw [hR]; push_cast; ring
  rw [e3, e4] at hd
  have h3 : R + D ≤ M ∨ M + D ≤ R := by
    rcases g1 with g | g
    · left
      have := Nat.mul_le_mul_right b g
      rw [← hR] at this
      have e5 : j * 2 ^ k * b + D = M := by rw [hM, hD]; ring
      omega
    · rcases g2 with g' | g'
      · omega
      · right
        have := Nat.mul_le_mul_right b g'
        rw [← hR] at this
        have e5 : (j + 1 + 1) * 2 ^ k * b = M + D := by rw [hM, hD]; ring
        omega
  rw [e1] at h1
  generalize (2 * (j + 1) - 1) * 2 ^ k * b = X at h2 e2
  clear e3 e4 hR hM hD g1 g2 e1
  rcases abs_cases ((a : ℤ) - R) with ⟨x1, x2⟩ | ⟨x1, x2⟩ <;> rcases abs_cases ((a : ℤ) - M) with ⟨y1, y2⟩ | ⟨y1, y2⟩ <;>
    rw [x1, y1] at hd <;> omega

theorem rndNat_mono (a c b : Nat) (hb : 0 < b) (h : a ≤ c) : rndNat a b ≤ rndNat c b := by
  by_contra hn
  have hn : rndNat c b < rndNat a b := by omega
  have s1 := short_rndNat a b hb
  have s2 := short_rndNat c b hb
  have h1 : rndNat c b * b < a := by
    by_contra hh
    have := rndNat_le a b _ hb s2 (by omega)
    omega
  have h2 : c < rndNat a b * b := by
    by_contra hh
    have := le_rndNat c b _ hb s1 (by omega)
    omega
  have d1 := rndNat_dist a b _ hb s2
  have d2 := rndNat_dist c b _ hb s1
  have e1 : ((rndNat c b : ℤ)) * b = ((rndNat c b * b : Nat) : ℤ) := by push_cast; ring
  have e2 : ((rndNat a b : ℤ)) * b = ((rndNat a b * b : Nat) : ℤ) := by push_cast; ring
  rw [e1, e2] at d1 d2
  generalize rndNat c b * b = u at *
  generalize rndNat a b * b = v at *
  rw [abs_of_nonpos (by omega), abs_of_nonneg (by omega)] at d1
  rw [abs_of_nonneg (by omega), abs_of_nonpos (by omega)] at d2
  have : a = c := by omega
  subst this
  omega

/-- `rndNat` is rounding to nearest, ties to even, as IEEE 754 defines it. -/
theorem rndNat_isNearestEven (a b : Nat) (hb : 0 < b) : IsNearestEven a b (rndNat a b) := by
  have hb' : (0 : ℚ) < b := by exact_mod_cast hb
  have key : ∀ y : Nat, |(a / b : ℚ) - y| = ((|(a : ℤ) - y * b| : ℤ) : ℚ) / b := by
    intro y
    rw [Int.cast_abs, ← abs_of_pos hb', ← abs_div, abs_of_pos hb']
    congr 1
    push_cast
    field_simp
  refine ⟨short_rndNat a b hb, fun y hy => ?_, fun y hy hne he => ?_⟩
  · rw [key, key]
    exact div_le_div_of_nonneg_right (by exact_mod_cast rndNat_dist a b y hb hy) hb'.le
  · rw [key, key, div_left_inj' hb'.ne', Int.cast_inj] at he
    obtain ⟨m, k, r, hg, hc⟩ := rndNat_cases a b hb
    have h1 := hg.eq
    have hlt := hg.lt
    obtain ⟨D, hD⟩ : ∃ D, D = b * 2 ^ k := ⟨_, rfl⟩
    obtain ⟨M, hM⟩ : ∃ M, M = b * 2 ^ k * m := ⟨_, rfl⟩
    have e1 : m * 2 ^ k * b = M := by rw [hM]; ring
    have e2 : (m + 1) * 2 ^ k * b = M + D := by rw [hM, hD]; ring
    have hyb : y * b ≤ M ∨ M + D ≤ y * b := by
      rcases hy.gap hg.ge with h | h
      · left; rw [← e1]; exact Nat.mul_le_mul_right _ h
      · right; rw [← e2]; exact Nat.mul_le_mul_right _ h
    rw [← hM] at h1
    rw [← hD] at hlt hc
    have e4 : ((y : ℤ)) * b = ((y * b : Nat) : ℤ) := by push_cast; ring
    have hne' : y * b ≠ rndNat a b * b := fun hh => hne (Nat.eq_of_mul_eq_mul_right hb hh)
    rcases hc with ⟨h, h', h''⟩ | ⟨h, h', h''⟩
    · have e3 : ((rndNat a b : ℤ)) * b = (M : ℤ) := by rw [h, ← e1]; push_cast; ring
      rw [e3, e4, abs_of_nonneg (by omega)] at he
      rw [h, e1] at hne'
      have hm : m % 2 = 0 := by
        rcases hyb with h2 | h2
        · rw [abs_of_nonneg (by omega)] at he; omega
        · rw [abs_of_nonpos (by omega)] at he
          exact h'' (by omega)
      have := hg.le
      exact ⟨m / 2, k, by omega, by rw [h, show 2 * (m / 2) = m by omega]⟩
    · have e3 : ((rndNat a b : ℤ)) * b = ((M + D : Nat) : ℤ) := by rw [h, ← e2]; push_cast; ring
      rw [e3, e4, abs_of_nonpos (by omega)] at he
      rw [h, e2] at hne'
      have hm : m % 2 = 1 := by
        rcases hyb with h2 | h2
        · rw [abs_of_nonneg (by omega)] at he
          exact h'' (by omega)
        · rw [abs_of_nonpos (by omega)] at he; omega
      have := hg.le
      by_cases hf : m + 1 < 2 ^ 53
      · exact ⟨(m + 1) / 2, k, by omega, by rw [h, show 2 * ((m + 1) / 2) = m + 1 by omega]⟩
      · refine ⟨1, k + 52, by norm_num, ?_⟩
        rw [h, show m + 1 = 2 ^ 53 by omega, pow_add]; ring

end F64
end Crazy
namespace Crazy
namespace F64

theorem rndNat_scale (a b c : Nat) (hc : 0 < c) : rndNat (a * c) (b * c) = rndNat a b := by
  have e1 : a * c / (b * c) = a / b := Nat.mul_div_mul_right _ _ hc
  unfold rndNat
  simp only [e1]
  generalize place (a / b) = k
  have e2 : b * c * 2 ^ k = b * 2 ^ k * c := by ring
  rw [e2, Nat.mul_div_mul_right _ _ hc, Nat.mul_mod_mul_right]
  generalize a % (b * 2 ^ k) = r
  generalize b * 2 ^ k = d
  have e3 : (d * c < 2 * (r * c)) = (d < 2 * r) := by
    rw [← Nat.mul_assoc, Nat.mul_lt_mul_right hc]
  have e4 : (2 * (r * c) = d * c) = (2 * r = d) := by
    rw [← Nat.mul_assoc, Nat.mul_left_inj (by omega)]
  simp only [e3, e4]

theorem rnd_scale (s : Bool) (a b c : Nat) (hc : 0 < c) : rnd s (a * c) (b * c) = rnd s a b := by
  unfold rnd; rw [rndNat_scale a b c hc]

theorem rndInt_scale (s : Bool) (z : Int) (b c : Nat) (hc : 0 < c) : rndInt s (z * c) (b * c) = rndInt s z b := by
  have hc' : (0 : Int) < c := by exact_mod_cast hc
  unfold rndInt
  by_cases hz : z = 0
  · rw [if_pos hz, hz, if_pos (by simp)]
  · rw [if_neg hz, if_neg (by simp [hz]; omega), Int.natAbs_mul, Int.natAbs_natCast, rnd_scale _ _ _ _ hc]
    congr 1
    have : (z * c < 0) = (z < 0) := by
      refine propext ⟨fun h => ?_, fun h => Int.mul_neg_of_neg_of_pos h hc'⟩
      by_contra hn
      have := Int.mul_nonneg (by omega : 0 ≤ z) hc'.le
      omega
    simp only [this]

theorem valid_rnd (s : Bool) (a b : Nat) (hb : 0 < b) : (rnd s a b).Valid := by
  unfold rnd
  split
  · exact ⟨short_rndNat a b hb, by assumption⟩
  · trivial

theorem limit_eq (e : Nat) (he : 2098 = e) : limit = 2 ^ e := by
  unfold limit
  rw [he]

theorem limit_pos : 0 < limit := by
  unfold limit
  generalize 2098 = e
  exact Nat.two_pow_pos e

theorem short_zero : Short 0 := ⟨0, 0, by norm_num, by simp⟩

theorem valid_rndInt (s : Bool) (z : Int) (b : Nat) (hb : 0 < b) : (rndInt s z b).Valid := by
  unfold rndInt
  split
  · exact ⟨short_zero, limit_pos⟩
  · exact valid_rnd _ _ _ hb

theorem rnd_exact (neg : Bool) (n b : Nat) (hb : 0 < b) (h : (F64.fin neg n).Valid) : F64.rnd neg (n * b) b = .fin neg n := by
  unfold F64.rnd
  rw [rndNat_exact n b hb h.1, if_pos h.2]

/-- A number that is a `float64` is rounded to itself. -/
theorem rndInt_exact (c : Bool) (l b : Nat) (hb : 0 < b) (h : (fin c l).Valid) : rndInt c (sint c l * b) b = fin c l := by
  unfold rndInt
  by_cases hl : l = 0
  · subst hl; cases c <;> simp [sint]
  · have e : (sint c l * b).natAbs = l * b := by
      rw [Int.natAbs_mul, Int.natAbs_natCast]; cases c <;> simp [sint]
    have hlb : 0 < l * b := Nat.mul_pos (by omega) hb
    rw [if_neg (by intro h; rw [h] at e; simp at e; omega), e]
    have hs : decide (sint c l * b < 0) = c := by
      cases c
      · simp only [sint, decide_eq_false_iff_not, Bool.false_eq_true, if_false]
        have : (0 : Int) ≤ l * b := by exact_mod_cast hlb.le
        omega
      · simp only [sint, decide_eq_true_eq, if_true]
        have : (0 : Int) < l * b := by exact_mod_cast hlb
        rw [Int.neg_mul]; omega
    rw [hs]
    exact rnd_exact c l b hb h

theorem rndInt_of_nonneg (s : Bool) (z b : Nat) (hz : 0 < z) : rndInt s z b = rnd false z b := by
  unfold rndInt
  rw [if_neg (by omega), Int.natAbs_natCast]
  congr 1

theorem rndInt_of_neg (s : Bool) (z b : Nat) (hz : 0 < z) : rndInt s (-(z : Int)) b = rnd true z b := by
  unfold rndInt
  rw [if_neg (by omega), Int.natAbs_neg, Int.natAbs_natCast]
  congr 1
  rw [decide_eq_true_eq]
  omega

/-- Rounding keeps the order. -/
theorem rndInt_mono (s s' : Bool) (z z' : Int) (b : Nat) (hb : 0 < b) (h : z ≤ z') :
    le (rndInt s z b) (rndInt s' z' b) = true := by
  have pos : ∀ (n : Nat), ∃ x, rnd false n b = x ∧ ((x = fin false (rndNat n b) ∧ rndNat n b < limit) ∨
      (x = inf false ∧ limit ≤ rndNat n b)) := by
    intro n; refine ⟨_, rfl, ?_⟩; unfold rnd
    split
    · left; exact ⟨rfl, by assumption⟩
    · right; exact ⟨rfl, by omega⟩
  have neg : ∀ (n : Nat), ∃ x, rnd true n b = x ∧ ((x = fin true (rndNat n b) ∧ rndNat n b < limit) ∨
      (x = inf true ∧ limit ≤ rndNat n b)) := by
    intro n; refine ⟨_, rfl, ?_⟩; unfold rnd
    split
    · left; exact ⟨rfl, by assumption⟩
    · right; exact ⟨rfl, by omega⟩
  rcases Int.lt_trichotomy z 0 with hz | hz | hz
  · obtain ⟨n, rfl⟩ : ∃ n : Nat, z = -(n : Int) := ⟨z.natAbs, by omega⟩
    rw [rndInt_of_neg _ _ _ (by omega)]
    obtain ⟨x, hx, hx'⟩ := neg n
    rw [hx]
    rcases Int.lt_trichotomy z' 0 with hz' | hz' | hz'
    · obtain ⟨n', rfl⟩ : ∃ n : Nat, z' = -(n : Int) := ⟨z'.natAbs, by omega⟩
      rw [rndInt_of_neg _ _ _ (by omega)]
      obtain ⟨y, hy, hy'⟩ := neg n'
      rw [hy]
      have hm := rndNat_mono n' n b hb (by omega)
      rcases hx' with ⟨rfl, h1⟩ | ⟨rfl, h1⟩ <;> rcases hy' with ⟨rfl, h2⟩ | ⟨rfl, h2⟩ <;>
        simp only [le, sint, decide_eq_true_eq, Bool.true_or] <;> simp <;> omega
    · subst hz'
      have : rndInt s' 0 b = fin s' 0 := by unfold rndInt; rw [if_pos rfl]
      rw [this]
      rcases hx' with ⟨rfl, h1⟩ | ⟨rfl, h1⟩ <;> cases s' <;> simp [le, sint]
    · obtain ⟨n', rfl⟩ : ∃ n : Nat, z' = (n : Int) := ⟨z'.natAbs, by omega⟩
      rw [rndInt_of_nonneg _ _ _ (by omega)]
      obtain ⟨y, hy, hy'⟩ := pos n'
      rw [hy]
      rcases hx' with ⟨rfl, h1⟩ | ⟨rfl, h1⟩ <;> rcases hy' with ⟨rfl, h2⟩ | ⟨rfl, h2⟩ <;>
        simp [le, sint] <;> omega
  · subst hz
    have : rndInt s 0 b = fin s 0 := by unfold rndInt; rw [if_pos rfl]
    rw [this]
    rcases Int.lt_trichotomy z' 0 with hz' | hz' | hz'
    · omega
    · subst hz'
      have : rndInt s' 0 b = fin s' 0 := by unfold rndInt; rw [if_pos rfl]
      rw [this]
      cases s <;> cases s' <;> simp [le, sint]
    · obtain ⟨n', rfl⟩ : ∃ n : Nat, z' = (n : Int) := ⟨z'.natAbs, by omega⟩
      rw [rndInt_of_nonneg _ _ _ (by omega)]
      obtain ⟨y, hy, hy'⟩ := pos n'
      rw [hy]
      rcases hy' with ⟨rfl, h2⟩ | ⟨rfl, h2⟩ <;> cases s <;> simp [le, sint]
  · obtain ⟨n, rfl⟩ : ∃ n : Nat, z = (n : Int) := ⟨z.natAbs, by omega⟩
    obtain ⟨n', rfl⟩ : ∃ n : Nat, z' = (n : Int) := ⟨z'.natAbs, by omega⟩
    rw [rndInt_of_nonneg _ _ _ (by omega), rndInt_of_nonneg _ _ _ (by omega)]
    obtain ⟨x, hx, hx'⟩ := pos n
    obtain ⟨y, hy, hy'⟩ := pos n'
    rw [hx, hy]
    have hm := rndNat_mono n n' b hb (by omega)
    rcases hx' with ⟨rfl, h1⟩ | ⟨rfl, h1⟩ <;> rcases hy' with ⟨rfl, h2⟩ | ⟨rfl, h2⟩ <;>
      simp only [le, sint, decide_eq_true_eq] <;> simp <;> omega

/-- The relative error of rounding is at most `2^-53`, unless the number is below 53 bits' worth of units, when the absolute
error is at most half a unit. -/
theorem rndNat_error (a b : Nat) (hb : 0 < b) :
    |(a : ℤ) - rndNat a b * b| * 2 ^ 53 ≤ a ∨ (|(a : ℤ) - rndNat a b * b| * 2 ≤ b ∧ a < b * 2 ^ 53) := by
  obtain ⟨m, k, r, hg, hc⟩ := rndNat_cases a b hb
  have h1 := hg.eq
  have hlt := hg.lt
  obtain ⟨D, hD⟩ : ∃ D, D = b * 2 ^ k := ⟨_, rfl⟩
  obtain ⟨M, hM⟩ : ∃ M, M = b * 2 ^ k * m := ⟨_, rfl⟩
  have e1 : m * 2 ^ k * b = M := by rw [hM]; ring
  have e2 : (m + 1) * 2 ^ k * b = M + D := by rw [hM, hD]; ring
  have hE : |(a : ℤ) - rndNat a b * b| * 2 ≤ D := by
    rw [← hM] at h1
    rw [← hD] at hlt hc
    rcases hc with ⟨h, h', -⟩ | ⟨h, h', -⟩
    · have e3 : ((rndNat a b : ℤ)) * b = (M : ℤ) := by rw [h, ← e1]; push_cast; ring
      rw [e3, abs_of_nonneg (by omega)]; omega
    · have e3 : ((rndNat a b : ℤ)) * b = ((M + D : Nat) : ℤ) := by rw [h, ← e2]; push_cast; ring
      rw [e3, abs_of_nonpos (by omega)]; omega
  rcases hg.ge with hk | hk
  · right
    subst hk
    rw [pow_zero, Nat.mul_one] at hD hM hlt h1
    have hm : M ≤ b * (2 ^ 53 - 1) := by
      rw [hM]; exact Nat.mul_le_mul_left _ (by have := hg.le; omega)
    refine ⟨by rw [hD] at hE; exact hE, ?_⟩
    rw [h1, ← hM]
    rw [hD] at *
    omega
  · left
    have hm : D * 2 ^ 52 ≤ M := by
      rw [hM, hD]; exact Nat.mul_le_mul_left _ hk
    rw [← hM] at h1
    omega

end F64
end Crazy
