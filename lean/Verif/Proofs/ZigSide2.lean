/-
All layers of a ziggurat together, on one side of 0.
-/
import Verif.Proofs.ZigSide
set_option exponentiation.threshold 2200
namespace Crazy
open MeasureTheory Set intervalIntegral

/-- The share of the offsets of one side that lead to an accepted candidate up to `T`, added up over all layers. -/
noncomputable def sideSum (z : Ziggurat (List U64)) (fused : Bool) (o : Nat → Int) (Q : ℝ → Prop) : ℝ :=
  (∑ i ∈ Finset.range 1023, avg (2 ^ 53) fun l => share z fused (i + 1) (o l) * ind (Q |rv (cand z (i + 1) (o l))|)) +
    avg (2 ^ 53) fun l => ind ((o l).natAbs < (z.K[0]).toNat ∧ Q |rv (cand z 0 (o l))|)

theorem ZigOk.x_le {X : ℝ} {z : Ziggurat (List U64)} {fused : Bool} {D : Int → Prop} {f : ℝ → ℝ} (hz : ZigOk X z fused D f) :
    ∀ i (h : i < 1024), 1 ≤ i → zx z.W i ≤ zx z.W 1023 := by
  have : ∀ d i (h : i + d < 1024), 1 ≤ i → zx z.W i ≤ zx z.W (i + d) := by
    intro d
    induction d with
    | zero => intro i h _; exact le_rfl
    | succ d ih =>
      intro i h h1
      exact (ih i (by omega) h1).trans (hz.zig.x_lt (i + d + 1) (by omega) (by omega)).le
  intro i h h1
  obtain ⟨d, hd⟩ : ∃ d, 1023 = i + d := ⟨1023 - i, by omega⟩
  have := this d i (by omega) h1
  simpa only [← hd] using this

theorem share_bounds (z : Ziggurat (List U64)) (fused : Bool) (i : Nat) (j : Int) : 0 ≤ share z fused i j ∧ share z fused i j ≤ 1 := by
  unfold share
  by_cases h : i < 1024
  · rw [dif_pos h]
    by_cases k : j.natAbs < z.K[i].toNat
    · rw [if_pos k]; exact ⟨zero_le_one, le_rfl⟩
    · rw [if_neg k]
      exact ⟨avg_nonneg fun m _ => ind_nonneg _, avg_le_one fun m _ => ind_le_one _⟩
  · rw [dif_neg h]; exact ⟨le_rfl, zero_le_one⟩

theorem final_bound (X S V : ℝ) (hX : 0 ≤ X) (hV : 1023 * V ≤ 12 / 11 * X)
    (hS : S ≤ 1023 * (X * ((21 + 3 * X) / 2 ^ 53)) + 4 * (X / 2 ^ 53)) :
    S + 1023 * (V / 2 ^ 42 + X * (1 / 2 ^ 49)) + 4 * (X / 2 ^ 53) + X * (1 / 2 ^ 49) ≤ X * (X + 10) / 2 ^ 41 := by
  have : 1023 * (V / 2 ^ 42 + X * (1 / 2 ^ 49)) = 1023 * V / 2 ^ 42 + 1023 * X * (1 / 2 ^ 49) := by ring
  rw [this]
  have : 1023 * V / 2 ^ 42 ≤ 12 / 11 * X / 2 ^ 42 := div_le_div_of_nonneg_right hV (by norm_num)
  have e : X * (X + 10) / 2 ^ 41 - (1023 * (X * ((21 + 3 * X) / 2 ^ 53)) + 4 * (X / 2 ^ 53) + (12 / 11 * X / 2 ^ 42 + 1023 * X * (1 / 2 ^ 49)) +
      4 * (X / 2 ^ 53) + X * (1 / 2 ^ 49)) = X * (1027 * X + (850 + 9 / 11)) / 2 ^ 53 := by ring
  have e2 : 0 ≤ X * (1027 * X + (850 + 9 / 11)) / 2 ^ 53 := by
    refine div_nonneg (mul_nonneg hX ?_) (by norm_num)
    linarith
  linarith

/-- All layers on one side: up to `X(X + 10)/2^41`, the area below the curve as far as `T` and the last abscissa. -/
theorem ZigOk.side_x {X : ℝ} {z : Ziggurat (List U64)} {fused : Bool} {D : Int → Prop} {f : ℝ → ℝ} (hz : ZigOk X z fused D f) {o : Nat → Int} (ho : Side D o)
    {T : ℝ} {Q : ℝ → Prop} (hT : 0 ≤ T) (hQ : Upto T Q) :
    |zv z.W z.F * sideSum z fused o Q - ∫ s in (0 : ℝ)..min T (zx z.W 1023), f s| ≤ X * (X + 10) / 2 ^ 41 := by
  obtain ⟨x, hx⟩ : ∃ x : Nat → ℝ, ∀ i (h : i < 1024), x i = zx z.W i := ⟨fun i => if h : i < 1024 then zx z.W i else 0, fun i h => dif_pos h⟩
  obtain ⟨g, hg⟩ : ∃ g : Nat → ℝ, ∀ i (h : i < 1024), g i = zf z.F i := ⟨fun i => if h : i < 1024 then zf z.F i else 0, fun i h => dif_pos h⟩
  obtain ⟨-, -, r3, -, -, r6⟩ := hz.zig.finite 1023 (by omega)
  have hR11 := hz.wid 1023 (by omega)
  have hX0 : 0 ≤ X := (r3.trans_le hR11).le
  have hfz : ∀ k (hk : k < 1024), zf z.F k ≤ 1 := by
    intro k hk
    rw [← hz.zig.f_zero]
    induction k with
    | zero => exact le_rfl
    | succ k ih => exact (hz.zig.f_lt (k + 1) hk (by omega)).le.trans (ih (by omega))
  have hpdf : ∀ i (h : i < 1024), 1 ≤ i → |zf z.F i - f (zx z.W i)| ≤ 1 / 2 ^ 49 := by
    intro i h h1
    obtain ⟨-, -, p3, -⟩ := hz.zig.finite i h
    exact (hz.zig.f_pdf i h h1).trans (div_le_div_of_nonneg_right (hz.dens.le_one _ p3.le) one_le_2_49.le)
  -- the layers
  have L := layers_sum hz.dens x g
    (fun i => avg (2 ^ 53) fun l => Crazy.share z fused (i + 1) (o l) * ind (Q |rv (Crazy.cand z (i + 1) (o l))|))
    (fun i => X * ((21 + 3 * X) / 2 ^ 53) + (g i - g (i + 1)) * (4 * (X / 2 ^ 53))) 1023 (zv z.W z.F) (zv z.W z.F / 2 ^ 42) (1 / 2 ^ 49) (zx z.W 1023)
    (min T (zx z.W 1023)) (fun i hi => by
      rw [hg i (by omega), hg (i + 1) (by omega)]
      exact (hz.zig.f_lt (i + 1) (by omega) (by omega)).le)
    (by rw [hg 0 (by omega)]; exact hz.zig.f_zero) (le_min hT r3.le) (min_le_right _ _) (fun i hi => by
      rw [hx (i + 1) (by omega)]
      exact ⟨(hz.zig.finite (i + 1) (by omega)).2.2.1.le, hz.x_le (i + 1) (by omega) (by omega)⟩) (by positivity) (fun i hi => by
      rw [hx (i + 1) (by omega), hg (i + 1) (by omega)]
      have := (abs_le.mp (hpdf (i + 1) (by omega) (by omega))).1
      linarith) (fun i hi => ⟨avg_nonneg fun l _ => mul_nonneg (share_bounds z fused _ _).1 (ind_nonneg _),
        avg_le_one fun l _ => mul_le_one₀ (share_bounds z fused _ _).2 (ind_nonneg _) (ind_le_one _)⟩) (fun i hi => by
      rw [hx (i + 1) (by omega), hg (i + 1) (by omega), hg i (by omega)]
      exact hz.zig.area (i + 1) (by omega) (by omega)) (fun i hi => by
      rw [hx (i + 1) (by omega), hg (i + 1) (by omega), hg i (by omega)]
      have := hz.layer_part ho hT hQ (i + 1) (by omega) (by omega)
      rw [min_assoc, min_eq_right (hz.x_le (i + 1) (by omega) (by omega))]
      exact this)
  rw [hg 1023 (by omega)] at L
  -- the base layer
  have B1 := hz.base_part ho hT hQ
  have B2 := base_rect hz.dens (zf z.F 1023) (1 / 2 ^ 49) (zx z.W 1023) (min T (zx z.W 1023)) (le_min hT r3.le) (min_le_right _ _)
    (by positivity) (by
      have := (abs_le.mp (hpdf 1023 (by omega) (by omega))).2
      linarith)
  -- the areas add up
  have E1 : ∑ i ∈ Finset.range 1023, (X * ((21 + 3 * X) / 2 ^ 53) + (g i - g (i + 1)) * (4 * (X / 2 ^ 53))) ≤ 1023 * (X * ((21 + 3 * X) / 2 ^ 53)) + 4 * (X / 2 ^ 53) := by
    rw [Finset.sum_add_distrib, ← Finset.sum_mul _ _ (4 * (X / 2 ^ 53)), Finset.sum_range_sub', Finset.sum_const, Finset.card_range, nsmul_eq_mul,
      hg 0 (by omega), hg 1023 (by omega), hz.zig.f_zero]
    have : (1 - zf z.F 1023) * (4 * (X / 2 ^ 53)) ≤ 1 * (4 * (X / 2 ^ 53)) := mul_le_mul_of_nonneg_right (by linarith) (by positivity)
    rw [Nat.cast_ofNat]
    linarith
  have E2 : 1023 * zv z.W z.F ≤ 12 / 11 * X := by
    have a1 : ∀ i ∈ Finset.range 1023, zv z.W z.F * (1 - 1 / 2 ^ 42) ≤ X * (g i - g (i + 1)) := by
      intro i hi
      rw [Finset.mem_range] at hi
      rw [hg (i + 1) (by omega), hg i (by omega)]
      have k1 := (abs_le.mp (hz.zig.area (i + 1) (by omega) (by omega))).1
      have k2 := hz.zig.f_lt (i + 1) (by omega) (by omega)
      have k3 : zx z.W (i + 1) * (zf z.F i - zf z.F (i + 1)) ≤ X * (zf z.F i - zf z.F (i + 1)) :=
        mul_le_mul_of_nonneg_right (hz.wid _ _) (sub_nonneg.mpr k2.le)
      simp only [Nat.add_sub_cancel] at k1
      linarith
    have a2 := Finset.sum_le_sum a1
    rw [← Finset.mul_sum _ _ X, Finset.sum_range_sub', Finset.sum_const, Finset.card_range, nsmul_eq_mul, hg 0 (by omega),
      hg 1023 (by omega), hz.zig.f_zero, Nat.cast_ofNat] at a2
    have a3 : 12 / 11 * X * (1 - 1 / 2 ^ 42) ≥ X := by
      have : (12 : ℝ) / 11 * (1 - 1 / 2 ^ 42) ≥ 1 := by norm_num
      nlinarith
    have a6 : 0 ≤ X * zf z.F 1023 := mul_nonneg hX0 r6.le
    have a4 : (0 : ℝ) < 1 - 1 / 2 ^ 42 := by norm_num
    have a5 : 1023 * zv z.W z.F * (1 - 1 / 2 ^ 42) ≤ 12 / 11 * X * (1 - 1 / 2 ^ 42) := by linarith
    exact le_of_mul_le_mul_right a5 a4
  have E3 : zx z.W 1023 * (1 / 2 ^ 49) ≤ X * (1 / 2 ^ 49) := mul_le_mul_of_nonneg_right hR11 (by positivity)
  have E4 : zf z.F 1023 * (4 * (X / 2 ^ 53)) ≤ 4 * (X / 2 ^ 53) := mul_le_of_le_one_left (by positivity) (hfz _ _)
  have F := final_bound _ _ _ hX0 E2 E1
  have I : (∫ s in (0 : ℝ)..min T (zx z.W 1023), f s) = (∫ s in (0 : ℝ)..min T (zx z.W 1023), (f s - min (f s) (zf z.F 1023))) +
      ∫ s in (0 : ℝ)..min T (zx z.W 1023), min (f s) (zf z.F 1023) := by
    rw [← intervalIntegral.integral_add]
    · simp only [sub_add_cancel]
    · exact (hz.dens.cont.sub (hz.dens.cont.min continuous_const)).intervalIntegrable _ _
    · exact (hz.dens.cont.min continuous_const).intervalIntegrable _ _
  rw [Nat.cast_ofNat] at L
  have E5 : 1023 * (zv z.W z.F / 2 ^ 42 + zx z.W 1023 * (1 / 2 ^ 49)) ≤ 1023 * (zv z.W z.F / 2 ^ 42 + X * (1 / 2 ^ 49)) := by linarith
  unfold sideSum
  rw [I, mul_add]
  rw [abs_le] at L B1 B2 ⊢
  constructor
  · linarith [L.1, B1.1, B2.1]
  · linarith [L.2, B1.2, B2.2]

/-- With abscissas up to 11: up to `2^-33`. -/
theorem ZigOk.side {z : Ziggurat (List U64)} {fused : Bool} {D : Int → Prop} {f : ℝ → ℝ} (hz : ZigOk 11 z fused D f) {o : Nat → Int}
    (ho : Side D o) {T : ℝ} {Q : ℝ → Prop} (hT : 0 ≤ T) (hQ : Upto T Q) :
    |zv z.W z.F * sideSum z fused o Q - ∫ s in (0 : ℝ)..min T (zx z.W 1023), f s| ≤ 1 / 2 ^ 33 :=
  (hz.side_x ho hT hQ).trans (by norm_num)

end Crazy
