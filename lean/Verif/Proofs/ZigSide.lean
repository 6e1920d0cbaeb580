/-
What the layers of a ziggurat give on one side of 0.
-/
import Verif.Proofs.ZigSum
import Verif.Proofs.ZigProb
import Mathlib.Algebra.Order.Floor.Ring
import Mathlib.Algebra.Order.Floor.Semiring
set_option exponentiation.threshold 2200
namespace Crazy
open MeasureTheory Set intervalIntegral

/-- A downward closed set of offsets is an initial segment. -/
theorem segment (M : Nat) (P : Nat → Prop) (hmono : ∀ l l', l ≤ l' → l' < M → P l' → P l) (w w' T : ℝ) (hw : 0 < w) (hw' : 0 ≤ w')
    (hT : 0 ≤ T) (h1 : ∀ l < M, P l → l * w ≤ T + w') (h2 : ∀ l < M, ¬ P l → T ≤ l * w + w') :
    ∃ J ≤ M, (∀ l < M, P l ↔ l < J) ∧ |J * w - min T (M * w)| ≤ w + w' := by
  classical
  by_cases hall : ∀ l < M, P l
  · refine ⟨M, le_rfl, fun l hl => ⟨fun _ => hl, fun _ => hall l hl⟩, ?_⟩
    rcases Nat.eq_zero_or_pos M with rfl | hM
    · simp only [Nat.cast_zero, zero_mul, min_eq_right hT, sub_self, abs_zero]; linarith
    · have k := h1 (M - 1) (by omega) (hall _ (by omega))
      rw [Nat.cast_sub hM, Nat.cast_one] at k
      rw [abs_of_nonneg (by linarith [min_le_right T (M * w)])]
      rcases le_total T (M * w) with h | h
      · rw [min_eq_left h]; linarith
      · rw [min_eq_right h]; linarith
  · push Not at hall
    obtain ⟨l0, hl0⟩ := hall
    have hex : ∃ l, l < M ∧ ¬ P l := ⟨l0, hl0⟩
    have hspec := Nat.find_spec hex
    have hmin : ∀ l, l < Nat.find hex → ¬ (l < M ∧ ¬ P l) := fun l hl => Nat.find_min hex hl
    generalize Nat.find hex = J at hspec hmin
    refine ⟨J, hspec.1.le, fun l hl => ⟨fun hp => ?_, fun hj => ?_⟩, ?_⟩
    · by_contra hc
      exact hspec.2 (hmono J l (by omega) hl hp)
    · by_contra hc
      exact hmin l hj ⟨hl, hc⟩
    · have k2 := h2 J hspec.1 hspec.2
      have k3 : (J : ℝ) * w ≤ M * w := mul_le_mul_of_nonneg_right (Nat.cast_le.mpr hspec.1.le) hw.le
      have k4 : 0 ≤ (J : ℝ) * w := by positivity
      have k5 : (J : ℝ) * w ≤ T + (w + w') := by
        rcases Nat.eq_zero_or_pos J with h0 | hJ
        · rw [h0, Nat.cast_zero, zero_mul]; linarith
        · have hp : P (J - 1) := by
            by_contra hc
            exact hmin (J - 1) (by omega) ⟨by omega, hc⟩
          have k := h1 (J - 1) (by omega) hp
          rw [Nat.cast_sub hJ, Nat.cast_one] at k
          linarith
      rw [abs_le]
      constructor
      · linarith [min_le_left T (M * w)]
      · rcases le_total T (M * w) with h | h
        · rw [min_eq_left h]; linarith
        · rw [min_eq_right h]; linarith

theorem sum_ind (M J : Nat) (hJ : J ≤ M) (P : Nat → Prop) (hP : ∀ l < M, P l ↔ l < J) (c : Nat → ℝ) :
    ∑ l ∈ Finset.range M, c l * ind (P l) = ∑ l ∈ Finset.range J, c l := by
  obtain ⟨d, rfl⟩ := Nat.exists_eq_add_of_le hJ
  rw [Finset.sum_range_add]
  have e1 : ∑ l ∈ Finset.range J, c l * ind (P l) = ∑ l ∈ Finset.range J, c l :=
    Finset.sum_congr rfl fun l hl => by
      rw [Finset.mem_range] at hl
      rw [ind_true ((hP l (by omega)).mpr hl), mul_one]
  have e2 : ∑ l ∈ Finset.range d, c (J + l) * ind (P (J + l)) = 0 :=
    Finset.sum_eq_zero fun l hl => by
      rw [Finset.mem_range] at hl
      rw [ind_false (fun h => by have := (hP (J + l) (by omega)).mp h; omega), mul_zero]
  rw [e1, e2, add_zero]

/-- How many of the first `N` multiples of `s` are below `θ`. -/
theorem count_below (N : Nat) (s θ : ℝ) (hs : 0 < s) :
    min (max θ 0) (N * s) ≤ (∑ m ∈ Finset.range N, ind ((m : ℝ) * s < θ)) * s ∧
      (∑ m ∈ Finset.range N, ind ((m : ℝ) * s < θ)) * s ≤ min (max θ 0) (N * s) + s := by
  have h1 : ∑ m ∈ Finset.range N, ind ((m : ℝ) * s < θ) = (min N ⌈θ / s⌉₊ : Nat) := by
    have := sum_ind N (min N ⌈θ / s⌉₊) (min_le_left _ _) (fun m => (m : ℝ) * s < θ) (fun l hl => by
      rw [← lt_div_iff₀ hs, ← Nat.lt_ceil, lt_min_iff]
      exact ⟨fun h => ⟨hl, h⟩, fun h => h.2⟩) (fun _ => 1)
    simp only [one_mul] at this
    rw [this, Finset.sum_const, Finset.card_range, nsmul_eq_mul, mul_one]
  rw [h1, Nat.cast_min, min_mul_of_nonneg _ _ hs.le]
  have h2 : max θ 0 ≤ (⌈θ / s⌉₊ : ℝ) * s := by
    refine max_le ?_ (by positivity)
    have := Nat.le_ceil (θ / s)
    rwa [div_le_iff₀ hs] at this
  have h3 : (⌈θ / s⌉₊ : ℝ) * s ≤ max θ 0 + s := by
    rcases le_total θ 0 with h | h
    · rw [Nat.ceil_eq_zero.mpr (div_nonpos_of_nonpos_of_nonneg h hs.le), Nat.cast_zero, zero_mul, max_eq_right h]; linarith
    · have := (Nat.ceil_lt_add_one (div_nonneg h hs.le)).le
      rw [max_eq_left h]
      calc (⌈θ / s⌉₊ : ℝ) * s ≤ (θ / s + 1) * s := mul_le_mul_of_nonneg_right this hs.le
        _ = θ + s := by field_simp
  constructor
  · rw [min_comm]; exact min_le_min_left _ h2
  · rw [min_comm]
    rcases le_total (max θ 0) (N * s) with h | h
    · rw [min_eq_left h]; exact (min_le_left _ _).trans h3
    · rw [min_eq_right h]; exact (min_le_right _ _).trans (by linarith)

theorem slab_eq {a b : ℝ} (h : b ≤ a) (v : ℝ) : slab a b v = min (max (v - b) 0) (a - b) := by
  unfold slab
  rcases le_total v b with h1 | h1
  · rw [min_eq_left h1, min_eq_left (h1.trans h), max_eq_right (by linarith), min_eq_left (by linarith), sub_self]
  · rw [min_eq_right h1, max_eq_left (by linarith)]
    rcases le_total v a with h2 | h2
    · rw [min_eq_left h2, min_eq_left (by linarith)]
    · rw [min_eq_right h2, min_eq_right (by linarith)]

/-- The share of ordinates below a value. -/
theorem share_wedge (N : Nat) (hN : 0 < N) (a b e η : ℝ) (hab : b < a) (h : Nat → ℝ)
    (hh : ∀ m < N, |h m - (b + (m : ℝ) / N * (a - b))| ≤ η) :
    |avg N (fun m => ind (h m < e)) * (a - b) - slab a b e| ≤ η + (a - b) / N := by
  have hN' : (0 : ℝ) < N := Nat.cast_pos.mpr hN
  have hs : 0 < (a - b) / N := by have : 0 < a - b := by linarith
                                  positivity
  have e1 : ∀ g : Nat → ℝ, avg N g * (a - b) = (∑ m ∈ Finset.range N, g m) * ((a - b) / N) := by
    intro g; unfold avg; field_simp
  have e2 : (N : ℝ) * ((a - b) / N) = a - b := by field_simp
  rw [e1]
  have c1 := (count_below N ((a - b) / N) (e - η - b) hs).1
  have c2 := (count_below N ((a - b) / N) (e + η - b) hs).2
  rw [e2, ← slab_eq hab.le] at c1 c2
  have l1 := slab_lip hab.le (e - η) e
  have l2 := slab_lip hab.le (e + η) e
  have hη : 0 ≤ η := (abs_nonneg _).trans (hh 0 hN)
  rw [show e - η - e = -η by ring, abs_neg, abs_of_nonneg hη] at l1
  rw [show e + η - e = η by ring, abs_of_nonneg hη] at l2
  have m1 : ∑ m ∈ Finset.range N, ind ((m : ℝ) * ((a - b) / N) < e - η - b) ≤ ∑ m ∈ Finset.range N, ind (h m < e) := by
    refine Finset.sum_le_sum fun m hm => ?_
    by_cases k : (m : ℝ) * ((a - b) / N) < e - η - b
    · have := (abs_le.mp (hh m (Finset.mem_range.mp hm))).2
      rw [ind_true k, ind_true]
      rw [show (m : ℝ) / N * (a - b) = m * ((a - b) / N) by ring] at this
      linarith
    · rw [ind_false k]; exact ind_nonneg _
  have m2 : ∑ m ∈ Finset.range N, ind (h m < e) ≤ ∑ m ∈ Finset.range N, ind ((m : ℝ) * ((a - b) / N) < e + η - b) := by
    refine Finset.sum_le_sum fun m hm => ?_
    by_cases k : h m < e
    · have := (abs_le.mp (hh m (Finset.mem_range.mp hm))).1
      rw [ind_true k, ind_true]
      rw [show (m : ℝ) / N * (a - b) = m * ((a - b) / N) by ring] at this
      linarith
    · rw [ind_false k]; exact ind_nonneg _
  have m3 := mul_le_mul_of_nonneg_right m1 hs.le
  have m4 := mul_le_mul_of_nonneg_right m2 hs.le
  rw [abs_le] at l1 l2 ⊢
  constructor <;> linarith [l1.1, l2.2]

theorem rv_sint (s : Bool) (n : Nat) (e : Nat) (he : 1074 = e) : rv (.fin s n) = ((F64.sint s n : Int) : ℝ) / 2 ^ e := by
  cases s
  · rw [rv_pos n e he]
    unfold F64.sint
    rw [if_neg Bool.false_ne_true, Int.cast_natCast]
  · rw [rv_neg n e he]
    unfold F64.sint
    rw [if_pos rfl, Int.cast_neg, Int.cast_natCast, neg_div]

theorem lt_fin (x y : F64) (hx : x.IsFin) (hy : y.IsFin) : F64.lt x y = true ↔ rv x < rv y := by
  obtain ⟨e, he⟩ : ∃ e, 1074 = e := ⟨_, rfl⟩
  match x, y, hx, hy with
  | .fin a n, .fin b m, _, _ =>
    rw [rv_sint a n e he, rv_sint b m e he, div_lt_div_iff_of_pos_right (by positivity), Int.cast_lt]
    exact decide_eq_true_iff

/-- What the estimates need of a ziggurat for the density `f`, at most `X` wide, of which only the offsets in `D` occur. -/
structure ZigOk (X : ℝ) (z : Ziggurat (List U64)) (fused : Bool) (D : Int → Prop) (f : ℝ → ℝ) : Prop where
  dens : Dens f
  zig : IsZiggurat f z.K z.W z.F
  big : X ≤ 2 ^ 53
  wid : ∀ i (h : i < 1024), zx z.W i h ≤ X
  k0 : (z.K[0]).toNat ≤ 2 ^ 53
  wedge : ∀ i (h : i < 1024), i ≠ 0 → ∀ m < 2 ^ 53, (F64.mulAdd fused (unit m) (F64.sub z.F[i - 1] z.F[i]) z.F[i]).IsFin ∧
    |rv (F64.mulAdd fused (unit m) (F64.sub z.F[i - 1] z.F[i]) z.F[i]) -
      (zf z.F i + (m : ℝ) / 2 ^ 53 * (zf z.F (i - 1) - zf z.F i))| ≤ 1 / 2 ^ 51
  pdf : ∀ i (_ : i < 1024) (j : Int), j.natAbs ≤ 2 ^ 53 → D j →
    (z.pdf (cand z i j)).IsFin ∧ |rv (z.pdf (cand z i j)) - f (|rv (cand z i j)|)| ≤ 1 / 2 ^ 49

theorem ZigOk.cand {X : ℝ} {z : Ziggurat (List U64)} {fused : Bool} {D : Int → Prop} {f : ℝ → ℝ} (hz : ZigOk X z fused D f) (i : Nat) (h : i < 1024) (j : Int)
    (hj : j.natAbs ≤ 2 ^ 53) :
    (cand z i j).IsFin ∧ (0 ≤ j → |rv (cand z i j)| = rv (cand z i j)) ∧ (j ≤ 0 → |rv (cand z i j)| = -rv (cand z i j)) ∧
      |(|rv (cand z i j)| - j.natAbs * (zx z.W i / 2 ^ 53))| ≤ zx z.W i / 2 ^ 53 := by
  obtain ⟨f1, f2, f3, -⟩ := hz.zig.finite i h
  have hw := hz.wid i h
  have h53 := hw.trans hz.big
  have e : Crazy.cand z i j = F64.mul (F64.ofInt j) z.W[i] := dif_pos h
  obtain ⟨k1, k2, k3⟩ := mul_isFin z.W i h f1 f2 f3 h53 j hj
  obtain ⟨p, c1, -, -, c4, c5⟩ := candidate z.W i h f1 f2 f3 h53 j hj
  rw [e]
  refine ⟨k1, fun h => abs_of_nonneg (k2 h), fun h => abs_of_nonpos (k3 h), ?_⟩
  rw [c1, c4]
  exact c5

/-- The absolute value of the candidate grows with the absolute value of the offset. -/
theorem ZigOk.cand_mono {X : ℝ} {z : Ziggurat (List U64)} {fused : Bool} {D : Int → Prop} {f : ℝ → ℝ} (hz : ZigOk X z fused D f) (i : Nat) (h : i < 1024)
    (j j' : Int) (hj : j'.natAbs ≤ 2 ^ 53) (hjj : j.natAbs ≤ j'.natAbs) : |rv (Crazy.cand z i j)| ≤ |rv (Crazy.cand z i j')| := by
  obtain ⟨f1, f2, f3, -⟩ := hz.zig.finite i h
  obtain ⟨n, hn⟩ := fin_of_pos z.W[i] f1 (by
    have := f3
    unfold zx at this
    exact (mul_pos_iff_of_pos_left (by positivity)).mp this)
  obtain ⟨e, he⟩ : ∃ e, 1074 = e := ⟨_, rfl⟩
  have hsh : F64.Short n := by have := f2; rw [hn] at this; exact this.1
  have hone : n ≤ F64.one := by
    have hw := hz.wid i h
    unfold zx at hw
    rw [hn] at hw
    have e1 := rv_pos n e he
    unfold rv at e1
    rw [e1] at hw
    have hone : F64.one = 2 ^ e := by rw [← he]; rfl
    rw [hone]
    have : (n : ℝ) ≤ 2 ^ e := by
      rw [mul_div_assoc', div_le_iff₀ (by positivity)] at hw
      have h53 : X ≤ 2 ^ 53 := hz.big
      have h2 : (2 : ℝ) ^ 53 * n ≤ 2 ^ 53 * 2 ^ e := hw.trans (mul_le_mul_of_nonneg_right h53 (by positivity))
      exact le_of_mul_le_mul_left h2 (by positivity)
    exact_mod_cast this
  have key : ∀ j : Int, j.natAbs ≤ 2 ^ 53 → |rv (Crazy.cand z i j)| = ((F64.rndNat (j.natAbs * n) 1 : Nat) : ℝ) / 2 ^ e := by
    intro j hj
    have e2 : Crazy.cand z i j = F64.mul (F64.ofInt j) z.W[i] := dif_pos h
    rw [e2, hn, (mul_offset j hj n hsh hone).1]
    cases decide (j < 0)
    · rw [rv_pos _ e he, abs_of_nonneg (by positivity)]
    · rw [rv_neg _ e he, abs_neg, abs_of_nonneg (by positivity)]
  rw [key j (hjj.trans hj), key j' hj]
  refine div_le_div_of_nonneg_right (Nat.cast_le.mpr ?_) (by positivity)
  exact F64.rndNat_mono _ _ 1 Nat.one_pos (Nat.mul_le_mul_right _ hjj)

theorem x_err {X : ℝ} (h : 0 ≤ X) : (0 : ℝ) ≤ 1 / 2 ^ 49 + 2 * (X / 2 ^ 53) := by positivity
theorem x_err' {X : ℝ} (h : 0 ≤ X) : 0 ≤ (21 + 3 * X) / 2 ^ 53 := by positivity

theorem one_le_2_49 : (0 : ℝ) < 2 ^ 49 := by positivity

/-- The probability that a candidate is accepted. -/
theorem ZigOk.share {X : ℝ} {z : Ziggurat (List U64)} {fused : Bool} {D : Int → Prop} {f : ℝ → ℝ} (hz : ZigOk X z fused D f) (i : Nat) (h : i < 1024)
    (h0 : i ≠ 0) (j : Int) (hj : j.natAbs ≤ 2 ^ 53) (hD : D j) :
    |share z fused i j * (zf z.F (i - 1) - zf z.F i) - slab (zf z.F (i - 1)) (zf z.F i) (f (j.natAbs * (zx z.W i / 2 ^ 53)))| ≤
      (21 + 2 * X) / 2 ^ 53 := by
  obtain ⟨-, -, f3, -, -, f6⟩ := hz.zig.finite i h
  have hw := hz.wid i h
  have hlt := hz.zig.f_lt i h (by omega)
  have h01 : zf z.F (i - 1) ≤ 1 := by
    rw [← hz.zig.f_zero]
    have : ∀ k (hk : k < 1024), zf z.F k ≤ zf z.F 0 := by
      intro k hk
      induction k with
      | zero => exact le_rfl
      | succ k ih => exact (hz.zig.f_lt (k + 1) hk (by omega)).le.trans (ih (by omega))
    exact this _ _
  have hx0 : 0 ≤ j.natAbs * (zx z.W i / 2 ^ 53) := mul_nonneg (Nat.cast_nonneg _) (by positivity)
  have hw53 : zx z.W i / 2 ^ 53 ≤ X / 2 ^ 53 := div_le_div_of_nonneg_right hw (by positivity)
  unfold Crazy.share
  rw [dif_pos h]
  by_cases hk : j.natAbs < z.K[i].toNat
  · rw [if_pos hk, one_mul]
    have hi2 : 2 ≤ i := by
      by_contra hc
      obtain rfl : i = 1 := by omega
      rw [hz.zig.k_one] at hk
      exact absurd hk (Nat.not_lt_zero _)
    have k1 := (abs_lt.mp (hz.zig.k_ratio i h hi2)).2
    have k2 : (j.natAbs : ℝ) + 1 ≤ z.K[i].toNat := by exact_mod_cast hk
    obtain ⟨-, -, g3, -⟩ := hz.zig.finite (i - 1) (by omega)
    have k3 : j.natAbs * (zx z.W i / 2 ^ 53) ≤ zx z.W (i - 1) + 2 * (zx z.W i / 2 ^ 53) := by
      have : (j.natAbs : ℝ) ≤ 2 ^ 53 * (zx z.W (i - 1) / zx z.W i) + 2 := by linarith
      calc (j.natAbs : ℝ) * (zx z.W i / 2 ^ 53) ≤ (2 ^ 53 * (zx z.W (i - 1) / zx z.W i) + 2) * (zx z.W i / 2 ^ 53) :=
            mul_le_mul_of_nonneg_right this (by positivity)
        _ = _ := by field_simp
    have k4 := hz.zig.f_pdf (i - 1) (by omega) (by omega)
    have k5 : f (zx z.W (i - 1)) ≤ f (j.natAbs * (zx z.W i / 2 ^ 53)) + 2 * (zx z.W i / 2 ^ 53) := by
      rcases le_total (j.natAbs * (zx z.W i / 2 ^ 53)) (zx z.W (i - 1)) with hle | hle
      · have := hz.dens.anti (mem_Ici.mpr hx0) (mem_Ici.mpr g3.le) hle
        have : 0 ≤ zx z.W i / 2 ^ 53 := by positivity
        linarith
      · have := hz.dens.lip (zx z.W (i - 1)) (j.natAbs * (zx z.W i / 2 ^ 53)) g3.le hx0
        rw [abs_sub_comm (zx z.W (i - 1)), abs_of_nonneg (sub_nonneg.mpr hle)] at this
        have := (abs_le.mp this).2
        linarith
    have k6 := hz.dens.le_one _ g3.le
    have k7 : f (zx z.W (i - 1)) / 2 ^ 49 ≤ 1 / 2 ^ 49 := div_le_div_of_nonneg_right k6 one_le_2_49.le
    have k8 := (abs_le.mp k4).2
    have k9 := slab_le hlt.le (f (j.natAbs * (zx z.W i / 2 ^ 53)))
    rw [abs_of_nonneg (by linarith)]
    have k10 : zf z.F (i - 1) - zf z.F i - (1 / 2 ^ 49 + 2 * (X / 2 ^ 53)) ≤
        slab (zf z.F (i - 1)) (zf z.F i) (f (j.natAbs * (zx z.W i / 2 ^ 53))) := by
      unfold slab
      have m1 := min_le_right (f (j.natAbs * (zx z.W i / 2 ^ 53))) (zf z.F i)
      have m2 : zf z.F (i - 1) - (1 / 2 ^ 49 + 2 * (X / 2 ^ 53)) ≤
          min (f (j.natAbs * (zx z.W i / 2 ^ 53))) (zf z.F (i - 1)) := by
        have : (0 : ℝ) ≤ 1 / 2 ^ 49 + 2 * (X / 2 ^ 53) := x_err (f3.trans_le hw).le
        exact le_min (by linarith) (by linarith)
      linarith
    have : (1 : ℝ) / 2 ^ 49 + 2 * (X / 2 ^ 53) ≤ (21 + 2 * X) / 2 ^ 53 := by
      rw [add_div, ← mul_div_assoc]
      have : (1 : ℝ) / 2 ^ 49 ≤ 21 / 2 ^ 53 := by norm_num
      linarith
    linarith
  · rw [if_neg hk]
    obtain ⟨c1, -, -, c4⟩ := hz.cand i h j hj
    obtain ⟨p1, p2⟩ := hz.pdf i h j hj hD
    have e1 : avg (2 ^ 53) (fun m => ind (accepts z fused i j m)) = avg (2 ^ 53) (fun m =>
        ind (rv (F64.mulAdd fused (unit m) (F64.sub z.F[i - 1] z.F[i]) z.F[i]) < rv (z.pdf (Crazy.cand z i j)))) := by
      refine avg_congr fun m hm => ind_congr ?_
      obtain ⟨w1, -⟩ := hz.wedge i h h0 m hm
      rw [← lt_fin _ _ w1 p1]
      exact ⟨fun ⟨_, k⟩ => k, fun k => ⟨h, k⟩⟩
    rw [e1]
    have s1 := share_wedge (2 ^ 53) (by positivity) _ _ (rv (z.pdf (Crazy.cand z i j))) (1 / 2 ^ 51) hlt
      (fun m => rv (F64.mulAdd fused (unit m) (F64.sub z.F[i - 1] z.F[i]) z.F[i])) (fun m hm => by
        have := (hz.wedge i h h0 m hm).2
        rw [Nat.cast_pow, Nat.cast_ofNat]
        exact this)
    rw [Nat.cast_pow, Nat.cast_ofNat] at s1
    have s2 := slab_lip hlt.le (rv (z.pdf (Crazy.cand z i j))) (f (j.natAbs * (zx z.W i / 2 ^ 53)))
    have s3 := hz.dens.lip |rv (Crazy.cand z i j)| (j.natAbs * (zx z.W i / 2 ^ 53)) (abs_nonneg _) hx0
    have s4 := abs_sub_le (rv (z.pdf (Crazy.cand z i j))) (f |rv (Crazy.cand z i j)|) (f (j.natAbs * (zx z.W i / 2 ^ 53)))
    have s5 : (zf z.F (i - 1) - zf z.F i) / 2 ^ 53 ≤ 1 / 2 ^ 53 := div_le_div_of_nonneg_right (by linarith) (by positivity)
    have s6 := abs_sub_le (avg (2 ^ 53) (fun m =>
        ind (rv (F64.mulAdd fused (unit m) (F64.sub z.F[i - 1] z.F[i]) z.F[i]) < rv (z.pdf (Crazy.cand z i j)))) *
          (zf z.F (i - 1) - zf z.F i)) (slab (zf z.F (i - 1)) (zf z.F i) (rv (z.pdf (Crazy.cand z i j))))
      (slab (zf z.F (i - 1)) (zf z.F i) (f (j.natAbs * (zx z.W i / 2 ^ 53))))
    have : (1 : ℝ) / 2 ^ 51 + 1 / 2 ^ 53 + (1 / 2 ^ 49 + X / 2 ^ 53) ≤ (21 + 2 * X) / 2 ^ 53 := by
      rw [add_div, two_mul, add_div]
      have : (1 : ℝ) / 2 ^ 51 + 1 / 2 ^ 53 + 1 / 2 ^ 49 ≤ 21 / 2 ^ 53 := by norm_num
      linarith
    linarith

/-- The number of a word's offset: counting from 0 upwards, or from -1 downwards. -/
structure Side (D : Int → Prop) (o : Nat → Int) : Prop where
  dom : ∀ l, D (o l)
  lo : ∀ l, l ≤ (o l).natAbs
  hi : ∀ l, (o l).natAbs ≤ l + 1
  mono : ∀ l l', l ≤ l' → (o l).natAbs ≤ (o l').natAbs

theorem side_up {D : Int → Prop} (hD : ∀ j, 0 ≤ j → D j) : Side D (fun l => (l : Int)) := ⟨fun l => hD _ (Int.natCast_nonneg l), fun l => by omega, fun l => by omega, fun l l' h => by omega⟩
theorem side_down : Side (fun _ => True) (fun l => -((l + 1 : Nat) : Int)) := ⟨fun _ => trivial, fun l => by omega, fun l => by omega, fun l l' h => by omega⟩

/-- `Q` means: at most `T` (or: less than `T`). -/
structure Upto (T : ℝ) (Q : ℝ → Prop) : Prop where
  below : ∀ x, x < T → Q x
  above : ∀ x, T < x → ¬ Q x

theorem Upto.mono {T : ℝ} {Q : ℝ → Prop} (h : Upto T Q) {x y : ℝ} (hxy : x ≤ y) (hy : Q y) : Q x := by
  rcases lt_or_ge x T with k | k
  · exact h.below x k
  · rcases eq_or_lt_of_le hxy with e | e
    · rwa [e]
    · exact absurd hy (h.above y (lt_of_le_of_lt k e))

theorem Upto.le {T : ℝ} {Q : ℝ → Prop} (h : Upto T Q) {x : ℝ} (hx : Q x) : x ≤ T := by
  by_contra hc
  exact h.above x (not_le.mp hc) hx

theorem Upto.ge {T : ℝ} {Q : ℝ → Prop} (h : Upto T Q) {x : ℝ} (hx : ¬ Q x) : T ≤ x := by
  by_contra hc
  exact hx (h.below x (not_le.mp hc))

/-- The candidates of a layer up to `T` are those with the first so many offsets. -/
theorem ZigOk.segment {X : ℝ} {z : Ziggurat (List U64)} {fused : Bool} {D : Int → Prop} {f : ℝ → ℝ} (hz : ZigOk X z fused D f) {o : Nat → Int} (ho : Side D o)
    {T : ℝ} {Q : ℝ → Prop} (hT : 0 ≤ T) (hQ : Upto T Q) (i : Nat) (h : i < 1024) (K : Nat) :
    ∃ J ≤ 2 ^ 53, (∀ l < 2 ^ 53, ((o l).natAbs < K ∧ Q |rv (Crazy.cand z i (o l))|) ↔ l < J) ∧
      |J * (zx z.W i / 2 ^ 53) - min (min T (K * (zx z.W i / 2 ^ 53))) (zx z.W i)| ≤ 3 * (zx z.W i / 2 ^ 53) := by
  obtain ⟨-, -, f3, -⟩ := hz.zig.finite i h
  have hw : 0 < zx z.W i / 2 ^ 53 := by positivity
  have h1 := Crazy.segment (2 ^ 53) (fun l => (o l).natAbs < K ∧ Q |rv (Crazy.cand z i (o l))|)
    (fun l l' hl hl' hp => ⟨lt_of_le_of_lt (ho.mono l l' hl) hp.1,
      hQ.mono (hz.cand_mono i h (o l) (o l') ((ho.hi l').trans hl') (ho.mono l l' hl)) hp.2⟩)
    (zx z.W i / 2 ^ 53) (2 * (zx z.W i / 2 ^ 53)) (min T (K * (zx z.W i / 2 ^ 53))) hw (by positivity)
    (le_min hT (by positivity)) (fun l hl hp => by
      have c := (hz.cand i h (o l) ((ho.hi l).trans hl)).2.2.2
      have c1 := (abs_le.mp c).1
      have c2 := hQ.le hp.2
      have c3 : (l : ℝ) * (zx z.W i / 2 ^ 53) ≤ (o l).natAbs * (zx z.W i / 2 ^ 53) :=
        mul_le_mul_of_nonneg_right (Nat.cast_le.mpr (ho.lo l)) hw.le
      have c4 : ((o l).natAbs : ℝ) * (zx z.W i / 2 ^ 53) ≤ K * (zx z.W i / 2 ^ 53) :=
        mul_le_mul_of_nonneg_right (Nat.cast_le.mpr hp.1.le) hw.le
      have : (l : ℝ) * (zx z.W i / 2 ^ 53) - 2 * (zx z.W i / 2 ^ 53) ≤ min T (K * (zx z.W i / 2 ^ 53)) :=
        le_min (by linarith) (by linarith)
      linarith) (fun l hl hp => by
      have c := (hz.cand i h (o l) ((ho.hi l).trans hl)).2.2.2
      have c1 := (abs_le.mp c).2
      have c3 : ((o l).natAbs : ℝ) * (zx z.W i / 2 ^ 53) ≤ (l + 1) * (zx z.W i / 2 ^ 53) :=
        mul_le_mul_of_nonneg_right (by exact_mod_cast ho.hi l) hw.le
      rw [not_and_or] at hp
      rcases hp with hp | hp
      · have c4 : (K : ℝ) * (zx z.W i / 2 ^ 53) ≤ (o l).natAbs * (zx z.W i / 2 ^ 53) :=
          mul_le_mul_of_nonneg_right (Nat.cast_le.mpr (not_lt.mp hp)) hw.le
        linarith [min_le_right T (K * (zx z.W i / 2 ^ 53))]
      · have c2 := hQ.ge hp
        linarith [min_le_left T (K * (zx z.W i / 2 ^ 53))])
  obtain ⟨J, j1, j2, j3⟩ := h1
  refine ⟨J, j1, j2, ?_⟩
  rw [Nat.cast_pow, Nat.cast_ofNat, mul_div_cancel₀ _ (by positivity)] at j3
  linarith

theorem rescale (k x r : ℝ) (hx : x ≠ 0) : k * (x / 2 ^ 53) - r = (k - 2 ^ 53 * (r / x)) * (x / 2 ^ 53) := by
  field_simp

/-- The base layer, apart from the tail. -/
theorem ZigOk.base_part {X : ℝ} {z : Ziggurat (List U64)} {fused : Bool} {D : Int → Prop} {f : ℝ → ℝ} (hz : ZigOk X z fused D f) {o : Nat → Int} (ho : Side D o)
    {T : ℝ} {Q : ℝ → Prop} (hT : 0 ≤ T) (hQ : Upto T Q) :
    |zv z.W z.F * avg (2 ^ 53) (fun l => ind ((o l).natAbs < (z.K[0]).toNat ∧ Q |rv (Crazy.cand z 0 (o l))|)) -
      zf z.F 1023 * min T (zx z.W 1023)| ≤ zf z.F 1023 * (4 * (X / 2 ^ 53)) := by
  obtain ⟨J, j1, j2, j3⟩ := hz.segment ho hT hQ 0 (by omega) (z.K[0]).toNat
  obtain ⟨-, -, f3, -⟩ := hz.zig.finite 0 (by omega)
  obtain ⟨-, -, -, -, -, f6⟩ := hz.zig.finite 1023 (by omega)
  have hs := sum_ind (2 ^ 53) J j1 _ j2 (fun _ => 1)
  simp only [one_mul] at hs
  have e1 : avg (2 ^ 53) (fun l => ind ((o l).natAbs < (z.K[0]).toNat ∧ Q |rv (Crazy.cand z 0 (o l))|)) = J / 2 ^ 53 := by
    unfold avg
    rw [hs, Finset.sum_const, Finset.card_range, nsmul_eq_mul, mul_one, Nat.cast_pow, Nat.cast_ofNat]
  have e2 : zv z.W z.F * avg (2 ^ 53) (fun l => ind ((o l).natAbs < (z.K[0]).toNat ∧ Q |rv (Crazy.cand z 0 (o l))|)) -
      zf z.F 1023 * min T (zx z.W 1023) = zf z.F 1023 * (J * (zx z.W 0 / 2 ^ 53) - min T (zx z.W 1023)) := by
    rw [e1]; unfold zv; ring
  rw [e2, abs_mul, abs_of_pos f6]
  refine mul_le_mul_of_nonneg_left ?_ f6.le
  have k1 := hz.zig.k_base
  have k2 : |((z.K[0]).toNat : ℝ) * (zx z.W 0 / 2 ^ 53) - zx z.W 1023| ≤ zx z.W 0 / 2 ^ 53 := by
    have := rescale (z.K[0]).toNat (zx z.W 0) (zx z.W 1023) f3.ne'
    rw [this, abs_mul, abs_of_pos (show 0 < zx z.W 0 / 2 ^ 53 by positivity)]
    exact mul_le_of_le_one_left (by positivity) k1.le
  have k3 : ((z.K[0]).toNat : ℝ) * (zx z.W 0 / 2 ^ 53) ≤ zx z.W 0 := by
    have : ((z.K[0]).toNat : ℝ) ≤ 2 ^ 53 := by exact_mod_cast hz.k0
    calc ((z.K[0]).toNat : ℝ) * (zx z.W 0 / 2 ^ 53) ≤ 2 ^ 53 * (zx z.W 0 / 2 ^ 53) :=
          mul_le_mul_of_nonneg_right this (by positivity)
      _ = zx z.W 0 := by rw [mul_div_cancel₀ _ (by positivity)]
  rw [min_eq_left ((min_le_right T _).trans k3)] at j3
  have k4 : |min T (((z.K[0]).toNat : ℝ) * (zx z.W 0 / 2 ^ 53)) - min T (zx z.W 1023)| ≤ zx z.W 0 / 2 ^ 53 := by
    refine (abs_min_sub_min_le_max _ _ _ _).trans ?_
    rw [sub_self, abs_zero]
    exact max_le (by positivity) k2
  have k5 : zx z.W 0 / 2 ^ 53 ≤ X / 2 ^ 53 := div_le_div_of_nonneg_right (hz.wid 0 (by omega)) (by positivity)
  have k6 := abs_sub_le ((J : ℝ) * (zx z.W 0 / 2 ^ 53)) (min T (((z.K[0]).toNat : ℝ) * (zx z.W 0 / 2 ^ 53))) (min T (zx z.W 1023))
  linarith

/-- A layer above the base layer. -/
theorem ZigOk.layer_part {X : ℝ} {z : Ziggurat (List U64)} {fused : Bool} {D : Int → Prop} {f : ℝ → ℝ} (hz : ZigOk X z fused D f) {o : Nat → Int} (ho : Side D o)
    {T : ℝ} {Q : ℝ → Prop} (hT : 0 ≤ T) (hQ : Upto T Q) (i : Nat) (h : i < 1024) (h0 : i ≠ 0) :
    |avg (2 ^ 53) (fun l => Crazy.share z fused i (o l) * ind (Q |rv (Crazy.cand z i (o l))|)) *
        (zx z.W i * (zf z.F (i - 1) - zf z.F i)) -
      ∫ s in (0 : ℝ)..min T (zx z.W i), slab (zf z.F (i - 1)) (zf z.F i) (f s)| ≤
      X * ((21 + 3 * X) / 2 ^ 53) + (zf z.F (i - 1) - zf z.F i) * (4 * (X / 2 ^ 53)) := by
  obtain ⟨J, j1, j2, j3⟩ := hz.segment ho hT hQ i h (2 ^ 53 + 1)
  obtain ⟨K, hK⟩ : ∃ K : Nat, 2 ^ 53 + 1 = K := ⟨_, rfl⟩
  have hKr : (2 : ℝ) ^ 53 + 1 = K := by rw [← hK, Nat.cast_add, Nat.cast_pow, Nat.cast_ofNat, Nat.cast_one]
  rw [hK] at j2 j3
  obtain ⟨-, -, f3, -⟩ := hz.zig.finite i h
  have hlt := hz.zig.f_lt i h (by omega)
  have hwid := hz.wid i h
  have hw : 0 < zx z.W i / 2 ^ 53 := by positivity
  have hw11 : zx z.W i / 2 ^ 53 ≤ X / 2 ^ 53 := div_le_div_of_nonneg_right hwid (by positivity)
  have j4 : ∀ l < 2 ^ 53, Q |rv (Crazy.cand z i (o l))| ↔ l < J := fun l hl => by
    rw [← j2 l hl]
    have := ho.hi l
    exact ⟨fun k => ⟨by omega, k⟩, fun k => k.2⟩
  have hs := sum_ind (2 ^ 53) J j1 _ j4 (fun l => Crazy.share z fused i (o l))
  have hmin : min (min T ((K : ℝ) * (zx z.W i / 2 ^ 53))) (zx z.W i) = min T (zx z.W i) := by
    rw [min_assoc, min_eq_right (a := (K : ℝ) * (zx z.W i / 2 ^ 53))]
    rw [← hKr, add_mul, mul_div_cancel₀ _ (by positivity)]
    linarith
  rw [hmin] at j3
  have hl := layer_sum hz.dens (zf z.F (i - 1)) (zf z.F i) (zx z.W i / 2 ^ 53) ((21 + 3 * X) / 2 ^ 53) (3 * (zx z.W i / 2 ^ 53))
    (min T (zx z.W i)) hlt.le hw (le_min hT f3.le) J (fun l => Crazy.share z fused i (o l)) j3 (fun l hl => by
      have hl' : l < 2 ^ 53 := lt_of_lt_of_le hl j1
      have s1 := hz.share i h h0 (o l) ((ho.hi l).trans hl') (ho.dom l)
      have p1 : 0 ≤ ((o l).natAbs : ℝ) * (zx z.W i / 2 ^ 53) := mul_nonneg (Nat.cast_nonneg _) hw.le
      have p2 : 0 ≤ (l : ℝ) * (zx z.W i / 2 ^ 53) := mul_nonneg (Nat.cast_nonneg _) hw.le
      have s2 := slab_lip hlt.le (f ((o l).natAbs * (zx z.W i / 2 ^ 53))) (f (l * (zx z.W i / 2 ^ 53)))
      have s3 := hz.dens.lip _ _ p1 p2
      have s4 : |((o l).natAbs : ℝ) * (zx z.W i / 2 ^ 53) - l * (zx z.W i / 2 ^ 53)| ≤ zx z.W i / 2 ^ 53 := by
        rw [← sub_mul, abs_mul, abs_of_pos hw]
        refine mul_le_of_le_one_left hw.le ?_
        have q1 : (l : ℝ) ≤ (o l).natAbs := Nat.cast_le.mpr (ho.lo l)
        have q2 : ((o l).natAbs : ℝ) ≤ l + 1 := by exact_mod_cast ho.hi l
        rw [abs_of_nonneg (by linarith)]
        linarith
      have s5 := abs_sub_le (Crazy.share z fused i (o l) * (zf z.F (i - 1) - zf z.F i))
        (slab (zf z.F (i - 1)) (zf z.F i) (f ((o l).natAbs * (zx z.W i / 2 ^ 53))))
        (slab (zf z.F (i - 1)) (zf z.F i) (f (l * (zx z.W i / 2 ^ 53))))
      have s6 : (21 + 3 * X) / 2 ^ 53 = (21 + 2 * X) / 2 ^ 53 + X / 2 ^ 53 := by ring
      linarith)
  have e1 : avg (2 ^ 53) (fun l => Crazy.share z fused i (o l) * ind (Q |rv (Crazy.cand z i (o l))|)) *
        (zx z.W i * (zf z.F (i - 1) - zf z.F i)) =
      (∑ l ∈ Finset.range J, Crazy.share z fused i (o l)) * (zx z.W i / 2 ^ 53 * (zf z.F (i - 1) - zf z.F i)) := by
    unfold avg
    rw [hs, Nat.cast_pow, Nat.cast_ofNat]
    ring
  rw [e1]
  refine hl.trans ?_
  have b1 : (J : ℝ) * (zx z.W i / 2 ^ 53) ≤ X := by
    have : (J : ℝ) ≤ 2 ^ 53 := by exact_mod_cast j1
    calc (J : ℝ) * (zx z.W i / 2 ^ 53) ≤ 2 ^ 53 * (zx z.W i / 2 ^ 53) := mul_le_mul_of_nonneg_right this hw.le
      _ = zx z.W i := by rw [mul_div_cancel₀ _ (by positivity)]
      _ ≤ X := hwid
  have b2 : (J : ℝ) * (zx z.W i / 2 ^ 53) * ((21 + 3 * X) / 2 ^ 53) ≤ X * ((21 + 3 * X) / 2 ^ 53) :=
    mul_le_mul_of_nonneg_right b1 (x_err' (f3.trans_le hwid).le)
  have b3 : (zf z.F (i - 1) - zf z.F i) * (zx z.W i / 2 ^ 53 + 3 * (zx z.W i / 2 ^ 53)) ≤
      (zf z.F (i - 1) - zf z.F i) * (4 * (X / 2 ^ 53)) := mul_le_mul_of_nonneg_left (by linarith) (by linarith)
  linarith

end Crazy
