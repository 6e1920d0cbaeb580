/-
C93: a `Ziggurat` that the user fills in for a density of his own.
-/
import Verif.Proofs.UserZig
import Verif.Props.ExpoDist
import Mathlib.Analysis.SpecialFunctions.ImproperIntegrals
import Mathlib.Tactic.ByContra
import Mathlib.MeasureTheory.Integral.IntegralEqImproper
set_option exponentiation.threshold 2200
set_option maxRecDepth 4000
namespace Crazy
open MeasureTheory Set intervalIntegral

/-! ### Areas -/

section
variable {f : ℝ → ℝ}

theorem Decreasing.even_on {s : Set ℝ} (hs : MeasurableSet s) (h : ∀ x ∈ s, 0 ≤ x) : (∫ x in s, f x) = ∫ x in s, f |x| :=
  setIntegral_congr_fun hs fun x hx => by
    show f x = f |x|
    rw [abs_of_nonneg (h x hx)]

theorem Decreasing.int (hf : Decreasing f) : IntegrableOn (fun x => f |x|) (Ioi 0) :=
  (integrableOn_congr_fun (fun x hx => by
    show f |x| = f x
    rw [abs_of_pos hx]) measurableSet_Ioi).mpr hf.area

theorem Decreasing.ii (hf : Decreasing f) (a b : ℝ) : IntervalIntegrable (fun x => f |x|) volume a b := hf.dens.cont.intervalIntegrable a b

theorem Decreasing.split (hf : Decreasing f) (a : ℝ) (ha : 0 ≤ a) :
    (∫ s in Ioi (0 : ℝ), f |s|) = (∫ s in (0 : ℝ)..a, f |s|) + ∫ s in Ioi a, f |s| :=
  (integral_interval_add_Ioi hf.int (hf.int.mono_set (Ioi_subset_Ioi ha))).symm

theorem Decreasing.nonneg (hf : Decreasing f) (a b : ℝ) (h : a ≤ b) : 0 ≤ ∫ s in a..b, f |s| :=
  integral_nonneg h fun x _ => (hf.dens.pos x).le

theorem Decreasing.tail_nonneg (hf : Decreasing f) (a : ℝ) : 0 ≤ ∫ s in Ioi a, f |s| :=
  setIntegral_nonneg measurableSet_Ioi fun x _ => (hf.dens.pos x).le

theorem Decreasing.area_ge (hf : Decreasing f) : 1 / 2 ≤ ∫ s in Ioi (0 : ℝ), f |s| := by
  rw [hf.split 1 zero_le_one]
  have h1 := hf.tail_nonneg 1
  have h2 : (∫ s in (0 : ℝ)..1, (1 - s)) ≤ ∫ s in (0 : ℝ)..1, f |s| := by
    refine integral_mono_on zero_le_one ((by fun_prop : Continuous fun s : ℝ => 1 - s).intervalIntegrable _ _) (hf.ii _ _) fun x hx => ?_
    have k := (abs_le.mp (hf.slope 0 x le_rfl hx.1)).2
    rw [hf.top, zero_sub, abs_neg, abs_of_nonneg hx.1] at k
    rw [abs_of_nonneg hx.1]
    linarith
  have h3 : (∫ s in (0 : ℝ)..1, (1 - s)) = 1 / 2 := by
    rw [integral_sub (continuous_const.intervalIntegrable _ _) ((by fun_prop : Continuous fun s : ℝ => s).intervalIntegrable _ _), integral_id,
      intervalIntegral.integral_const]
    norm_num
  linarith

theorem Decreasing.piece (hf : Decreasing f) (R x : ℝ) :
    (∫ s in (0 : ℝ)..min x R, f |s|) + (∫ s in Ioc R x, f |s|) = ∫ s in (0 : ℝ)..x, f |s| := by
  rcases le_total x R with h | h
  · rw [min_eq_left h, Ioc_eq_empty (not_lt.mpr h), setIntegral_empty, add_zero]
  · rw [min_eq_right h, ← integral_of_le h, integral_add_adjacent_intervals (hf.ii _ _) (hf.ii _ _)]

theorem Decreasing.piece' (hf : Decreasing f) (R x : ℝ) (hR : 0 ≤ R) (hx : 0 ≤ x) :
    (∫ s in (0 : ℝ)..R, f |s|) - (∫ s in (0 : ℝ)..min x R, f |s|) + (∫ s in Ioi (max R x), f |s|) =
      (∫ s in Ioi (0 : ℝ), f |s|) - ∫ s in (0 : ℝ)..x, f |s| := by
  rcases le_total x R with h | h
  · rw [min_eq_left h, max_eq_left h, hf.split R hR]; ring
  · rw [min_eq_right h, max_eq_right h, hf.split x hx]; ring

theorem even_signed (f : ℝ → ℝ) (t : ℝ) : (∫ s in (0 : ℝ)..-t, f |s|) = -∫ s in (0 : ℝ)..t, f |s| := by
  have h := intervalIntegral.integral_comp_neg (a := 0) (b := t) fun s => f |s|
  simp only [abs_neg] at h
  rw [h, neg_zero, intervalIntegral.integral_symm]

theorem Decreasing.iic_zero (hf : Decreasing f) : IntegrableOn (fun x => f |x|) (Iic 0) ∧ (∫ s in Iic (0 : ℝ), f |s|) = ∫ s in Ioi (0 : ℝ), f |s| := by
  constructor
  · have h := hf.int
    rw [← integrableOn_Ici_iff_integrableOn_Ioi] at h
    have h2 := (Measure.measurePreserving_neg (volume : Measure ℝ)).integrableOn_comp_preimage (Homeomorph.neg ℝ).measurableEmbedding (f := fun x => f |x|) (s := Ici 0)
    have e1 : ((fun x => f |x|) ∘ Neg.neg) = fun x : ℝ => f |x| := by funext x; simp
    have e2 : (Neg.neg ⁻¹' Ici (0 : ℝ)) = Iic 0 := by ext x; simp
    rw [e1, e2] at h2
    exact h2.mpr h
  · have h := integral_comp_neg_Iic (0 : ℝ) fun s => f |s|
    simp only [abs_neg, neg_zero] at h
    exact h

theorem Decreasing.iic (hf : Decreasing f) (t : ℝ) :
    (∫ s in Iic t, f |s|) = (∫ s in Ioi (0 : ℝ), f |s|) + ∫ s in (0 : ℝ)..t, f |s| := by
  obtain ⟨h1, h2⟩ := hf.iic_zero
  have h3 : IntegrableOn (fun x => f |x|) (Iic t) := by
    rcases le_total t 0 with h | h
    · exact h1.mono_set (Iic_subset_Iic.mpr h)
    · rw [← Iic_union_Ioc_eq_Iic h]
      exact h1.union ((intervalIntegrable_iff_integrableOn_Ioc_of_le h).mp (hf.ii 0 t))
  have h4 := integral_Iic_sub_Iic h1 h3
  rw [h2] at h4
  linarith

theorem Decreasing.whole (f : ℝ → ℝ) : (∫ s, f |s|) = 2 * ∫ s in Ioi (0 : ℝ), f |s| := by
  rw [integral_comp_abs, Decreasing.even_on measurableSet_Ioi fun x hx => le_of_lt hx]

end

/-! ### The limit -/

theorem TendsNear.mono {p : Nat → ℝ} {v e e' : ℝ} (h : TendsNear p v e) (hle : e ≤ e') : TendsNear p v e' := fun ε hε => by
  obtain ⟨N, hN⟩ := h ε hε
  exact ⟨N, fun n hn => (hN n hn).trans (by linarith)⟩

theorem err_bound (X δ a S : ℝ) (hX0 : 0 ≤ X) (hX : X ≤ 2 ^ 18) (hδ : 0 ≤ δ) (ha : 0 ≤ a) (hS : 1 / 2 ≤ S) :
    X * (X + 10) / 2 ^ 41 + X / 2 ^ 48 < S ∧
    (X * (X + 10) / 2 ^ 41 + X / 2 ^ 48 + (3 / 2 * (X * (X + 10) / 2 ^ 41) + X / 2 ^ 48 + a * δ)) /
      (S - (X * (X + 10) / 2 ^ 41 + X / 2 ^ 48)) ≤ X * (X + 10) / 2 ^ 38 + 2 * δ * (a / S) := by
  obtain ⟨Y, hY⟩ : ∃ Y, X * (X + 10) = Y := ⟨_, rfl⟩
  have hY0 : 10 * X ≤ Y := by rw [← hY]; nlinarith
  have hY1 : Y ≤ 2 ^ 37 := by
    rw [← hY]
    calc X * (X + 10) ≤ 2 ^ 18 * (2 ^ 18 + 10) := mul_le_mul hX (by linarith) (by linarith) (by norm_num)
      _ ≤ 2 ^ 37 := by norm_num
  rw [hY]
  have h0 : X / 2 ^ 48 ≤ Y / 2 ^ 41 / 1000 := by linarith
  have h1 : Y / 2 ^ 41 ≤ 1 / 16 := by linarith
  have h2 : 7 / 8 * S - 1 / 1000 ≤ S - (Y / 2 ^ 41 + X / 2 ^ 48) := by linarith
  have h3 : 6 / 7 * S ≤ S - (Y / 2 ^ 41 + X / 2 ^ 48) := by linarith
  have hS0 : 0 < S := by linarith
  have hYp : 0 ≤ Y / 2 ^ 41 := div_nonneg (by linarith) (by norm_num)
  refine ⟨by linarith, ?_⟩
  have hd : 0 < S - (Y / 2 ^ 41 + X / 2 ^ 48) := by linarith
  rw [div_le_iff₀ hd]
  have hb : 0 ≤ Y / 2 ^ 38 + 2 * δ * (a / S) := add_nonneg (div_nonneg (by linarith) (by norm_num)) (mul_nonneg (by linarith) (div_nonneg ha hS0.le))
  refine le_trans ?_ (mul_le_mul_of_nonneg_left h3 hb)
  have e : (Y / 2 ^ 38 + 2 * δ * (a / S)) * (6 / 7 * S) = 8 * (Y / 2 ^ 41) * (6 / 7 * S) + 12 / 7 * (a * δ) := by
    field_simp
    ring
  rw [e]
  have k1 : 8 * (Y / 2 ^ 41) * (6 / 7 * (1 / 2)) ≤ 8 * (Y / 2 ^ 41) * (6 / 7 * S) :=
    mul_le_mul_of_nonneg_left (by linarith) (by linarith)
  have k2 : 0 ≤ a * δ := mul_nonneg ha hδ
  linarith

theorem err_nonneg {X : ℝ} (h : 0 ≤ X) : 0 ≤ X * (X + 10) / 2 ^ 41 := by positivity
theorem err_nonneg' {X a δ : ℝ} (h : 0 ≤ X) (hδ : 0 ≤ δ) (ha : 0 ≤ a) : 0 ≤ 3 / 2 * (X * (X + 10) / 2 ^ 41) + X / 2 ^ 48 + a * δ := by positivity

/-- A tail that returns something with the probability `τ n`. -/
theorem tail_limit (τ : Nat → ℝ) (V T a J δ e : ℝ) (hτ : ∀ n, 0 ≤ τ n ∧ τ n ≤ 1) (ha : 0 < a) (h : |V * T - a| ≤ e)
    (ht : TendsNear τ (J / a) δ) : TendsNear (fun n => V * (T * τ n)) J (e + a * δ) := by
  intro ε hε
  obtain ⟨N, hN⟩ := ht (ε / a) (div_pos hε ha)
  refine ⟨N, fun n hn => ?_⟩
  have h1 := hN n hn
  obtain ⟨t0, t1⟩ := hτ n
  have h2 : |V * (T * τ n) - a * τ n| ≤ e := by
    rw [← mul_assoc, ← sub_mul, abs_mul, abs_of_nonneg t0]
    exact (mul_le_of_le_one_right (abs_nonneg _) t1).trans h
  have h3 : |a * τ n - J| ≤ a * (δ + ε / a) := by
    have : a * τ n - J = a * (τ n - J / a) := by rw [mul_sub, mul_div_cancel₀ _ ha.ne']
    rw [this, abs_mul, abs_of_pos ha]
    exact mul_le_mul_of_nonneg_left h1 ha.le
  have h4 : a * (δ + ε / a) = a * δ + ε := by
    rw [mul_add, mul_div_cancel₀ _ ha.ne']
  show |V * (T * τ n) - J| ≤ _
  rw [abs_le] at h2 h3 ⊢
  constructor <;> linarith [h2.1, h2.2, h3.1, h3.2]

theorem TendsNear.add {p q : Nat → ℝ} {v w e e' : ℝ} (hp : TendsNear p v e) (hq : TendsNear q w e') :
    TendsNear (fun n => p n + q n) (v + w) (e + e') := by
  intro ε hε
  obtain ⟨N, hN⟩ := hp (ε / 2) (by linarith)
  obtain ⟨M, hM⟩ := hq (ε / 2) (by linarith)
  refine ⟨max N M, fun n hn => ?_⟩
  have h1 := hN n ((le_max_left _ _).trans hn)
  have h2 := hM n ((le_max_right _ _).trans hn)
  show |p n + q n - (v + w)| ≤ _
  rw [abs_le] at h1 h2 ⊢
  constructor <;> linarith [h1.1, h1.2, h2.1, h2.2]

theorem tends_const {c v e : ℝ} (h : |c - v| ≤ e) : TendsNear (fun _ => c) v e := fun ε hε => ⟨0, fun n _ => by linarith⟩

theorem TendsNear.half {p : Nat → ℝ} {v e : ℝ} (hp : TendsNear p v e) : TendsNear (fun n => p n / 2) (v / 2) (e / 2) := by
  intro ε hε
  obtain ⟨N, hN⟩ := hp ε hε
  refine ⟨N, fun n hn => ?_⟩
  have h1 := hN n hn
  show |p n / 2 - v / 2| ≤ _
  rw [abs_le] at h1 ⊢
  constructor <;> linarith [h1.1, h1.2]

theorem TendsNear.congr {p q : Nat → ℝ} {v e : ℝ} (hp : TendsNear p v e) (h : ∀ n, p n = q n) : TendsNear q v e := fun ε hε => by
  obtain ⟨N, hN⟩ := hp ε hε
  exact ⟨N, fun n hn => by rw [← h]; exact hN n hn⟩

section
variable {z : Ziggurat (List U64)} {f : ℝ → ℝ} {X : ℝ}

theorem ZigFor.r_pos (hz : ZigFor z f X) : 0 < zx z.W 1023 := (hz.tables.finite 1023 (by omega)).2.2.1

theorem ZigFor.x_pos (hz : ZigFor z f X) : 0 ≤ X := (hz.r_pos.trans_le (hz.width 1023 (by omega))).le

theorem tail_pos (hf : Decreasing f) {R : ℝ} (hR : 0 ≤ R) : 0 < ∫ s in Ioi R, f |s| := by
  have h1 : (∫ s in R..R + 1, f |s|) + (∫ s in Ioi (R + 1), f |s|) = ∫ s in Ioi R, f |s| :=
    integral_interval_add_Ioi (hf.int.mono_set (Ioi_subset_Ioi hR)) (hf.int.mono_set (Ioi_subset_Ioi (by linarith)))
  have h2 : 0 < ∫ s in R..R + 1, f |s| := intervalIntegral_pos_of_pos (hf.ii _ _) (fun x => hf.dens.pos x) (by linarith)
  linarith [hf.tail_nonneg (R + 1)]

theorem user_side (hf : Decreasing f) (hz : ZigFor z f X) (hX : X ≤ 2 ^ 18) (fused : Bool) {o : Nat → Int} (ho : Side (fun j => z.mirrored = true ∨ 0 ≤ j) o)
    (T : ℝ) (Q : ℝ → Prop) (hQ : Upto T Q) :
    |zv z.W z.F * sideSum z fused o Q - ∫ s in (0 : ℝ)..min (max T 0) (zx z.W 1023), f (|s|)| ≤ X * (X + 10) / 2 ^ 41 := by
  have hk := hz.ok hf hX fused
  have hR0 := hz.r_pos
  rcases le_total 0 T with hT | hT
  · rw [max_eq_left hT]
    exact hk.side_x ho hT hQ
  · rcases eq_or_lt_of_le hT with rfl | hT
    · rw [max_self]
      exact hk.side_x ho le_rfl hQ
    · have h := hk.side_x ho (T := 0) (Q := fun x => x < 0) le_rfl ⟨fun x h => h, fun x h => not_lt.mpr h.le⟩
      rw [max_eq_right hT.le]
      rw [sideSum_congr z fused o Q (fun x => x < 0) fun i hi l hl =>
        ⟨fun h => absurd h (hQ.above _ (lt_of_lt_of_le hT (abs_nonneg _))), fun h => absurd h (not_lt.mpr (abs_nonneg _))⟩]
      exact h

theorem atMost_fin (t : ℝ) (x : F64) (hx : x.IsFin) : AtMost t x ↔ rv x ≤ t := by
  constructor
  · rintro (rfl | h)
    · exact hx.elim
    · exact h.2
  · exact fun h => Or.inr ⟨hx, h⟩

theorem atMost_neg (t : ℝ) (x : F64) : AtMost t (F64.neg x) ↔ AtLeast (-t) x := by
  match x with
  | .nan =>
    constructor
    · rintro (h | ⟨h, -⟩)
      · cases h
      · exact h.elim
    · rintro (h | ⟨h, -⟩)
      · cases h
      · exact h.elim
  | .inf s =>
    cases s
    · exact ⟨fun _ => Or.inl rfl, fun _ => Or.inl rfl⟩
    · constructor
      · rintro (h | ⟨h, -⟩)
        · cases h
        · exact h.elim
      · rintro (h | ⟨h, -⟩)
        · cases h
        · exact h.elim
  | .fin s n =>
    rw [atMost_fin t _ (neg_fin (x := .fin s n) trivial), rv_neg_eq]
    constructor
    · exact fun h => Or.inr ⟨trivial, by linarith⟩
    · rintro (h | ⟨-, h⟩)
      · cases h
      · linarith

/-- C93: a ziggurat that is not mirrored. For every decreasing density, every ziggurat that is filled in for it and every `t ≥ 0`: with
more and more independent uniform words, the probability that `GenNext` returns a value that is at most `t` tends to the share of
the density's area up to `t`, up to `X(X + 10)/2^38`, where `X` is the width of the
ziggurat, and twice the error of the tail times the share of the area that is beyond the last abscissa. -/
theorem C93_plain (hf : Decreasing f) (hz : ZigFor z f X) (hX : X ≤ 2 ^ 18) (hm : z.mirrored = false) (δ : ℝ) (hδ : 0 ≤ δ)
    (ht : TailFor z f (zx z.W 1023) δ) (fused : Bool) (t : ℝ) (h0 : 0 ≤ t) :
    TendsNear (fun n => prob (2 * n) fun w => ∃ r rest, z.genNext fused tape n w = .ok (r, rest) ∧ AtMost t r)
      ((∫ s in Ioc 0 t, f s) / ∫ s in Ioi 0, f s) (X * (X + 10) / 2 ^ 38 + 2 * δ * ((∫ s in Ioi (zx z.W 1023), f s) / ∫ s in Ioi 0, f s)) := by
  have hk := hz.ok hf hX fused
  have ho : Side (fun j => z.mirrored = true ∨ 0 ≤ j) (fun l => (l : Int)) := side_up fun j h => Or.inr h
  have hR := hz.r_pos
  have hX0 := hz.x_pos
  have ha := tail_pos hf hR.le
  have hS := hf.area_ge
  have hV := zigV_pos hz.tables
  have hQ : Upto t fun x => x ≤ t := ⟨fun x h => h.le, fun x h => not_le.mpr h⟩
  have hside := user_side hf hz hX fused ho t _ hQ
  rw [max_eq_left h0] at hside
  have hall := hk.side_all_x ho
  have hta := hk.tail_area_x ho
  have htl := ht.atMost t
  rw [Decreasing.even_on (f := f) measurableSet_Ioc fun x hx => (hR.trans hx.1).le,
    Decreasing.even_on (f := f) measurableSet_Ioi fun x hx => (hR.trans hx).le] at htl
  rw [Decreasing.even_on (f := f) measurableSet_Ioc fun x hx => hx.1.le, Decreasing.even_on (f := f) measurableSet_Ioi fun x hx => le_of_lt hx,
    Decreasing.even_on (f := f) (s := Ioi (zx z.W 1023)) measurableSet_Ioi fun x hx => (hR.trans hx).le, ← integral_of_le h0]
  have hsp := hf.split _ hR.le
  have hspt := hf.split _ h0
  have ht0 := hf.nonneg 0 t h0
  have htt := hf.tail_nonneg t
  have hpc := hf.piece (zx z.W 1023) t
  have lim := tail_limit (fun n => tailGives z (AtMost t) n) _ _ _ _ δ _ (fun n => tailGives_bounds z _ n) ha hta htl
  have hA := (tends_const hside).add lim
  have hcand : ∀ i < 1024, ∀ l : Nat, l < 2 ^ 53 → (AtMost t (cand z i (l : Int)) ↔ |rv (cand z i (l : Int))| ≤ t) := by
    intro i hi l hl
    obtain ⟨c1, c2, -⟩ := hk.cand i hi (l : Int) (by omega)
    rw [atMost_fin _ _ c1, c2 (Int.natCast_nonneg l)]
  have hround : ∀ n, gives z fused (AtMost t) (n + 1) = ((sideSum z fused (fun l => (l : Int)) (fun x => x ≤ t) +
      tailShare z (fun l => (l : Int)) * tailGives z (AtMost t) n) +
      (1024 - (sideSum z fused (fun l => (l : Int)) (fun _ => True) + tailShare z (fun l => (l : Int)))) * gives z fused (AtMost t) n) / 1024 := by
    intro n
    rw [gives_succ_plain _ hm]
    exact round_side z fused (fun l => (l : Int)) (AtMost t) (fun x => x ≤ t) n _ hcand fun l => by
      have : ¬ (l : Int) < 0 := by omega
      simp only [if_neg this]
  have hle := sideSum_le z fused (fun l => (l : Int))
  have hlim := converge_limit (fun n => gives z fused (AtMost t) n) _ _ (zv z.W z.F) (∫ s in Ioi (0 : ℝ), f |s|)
    ((∫ s in (0 : ℝ)..t, f |s|) / ∫ s in Ioi (0 : ℝ), f |s|) (X * (X + 10) / 2 ^ 41 + X / 2 ^ 48)
    (3 / 2 * (X * (X + 10) / 2 ^ 41) + X / 2 ^ 48 + (∫ s in Ioi (zx z.W 1023), f |s|) * δ) hround (div_nonneg ht0 (by linarith))
    (by rw [div_le_one (by linarith)]; linarith) hV hle (err_bound X δ _ _ hX0 hX hδ ha.le hS).1 (by
      rw [mul_add, hsp]
      rw [abs_le] at hall hta ⊢
      constructor <;> linarith [hall.1, hall.2, hta.1, hta.2]) (err_nonneg' hX0 hδ ha.le) (by
      rw [mul_div_cancel₀ _ (by linarith), ← hpc]
      refine (hA.congr fun n => ?_).mono ?_
      · rw [mul_add]
      · linarith [err_nonneg hX0])
  exact hlim.mono (err_bound X δ _ _ hX0 hX hδ ha.le hS).2

/-- C93: a mirrored ziggurat. For every decreasing density, every mirrored ziggurat that is filled in for it and every `t`: with more and
more independent uniform words, the probability that `GenNext` returns a value that is at most `t` tends to the share, up to `t`, of
the area of the density extended symmetrically about zero, up to `X(X + 10)/2^38`, where `X` is the width of the
ziggurat, and twice the error of the tail times the share of the area that is beyond the last abscissa. -/
theorem C93_mirrored (hf : Decreasing f) (hz : ZigFor z f X) (hX : X ≤ 2 ^ 18) (hm : z.mirrored = true) (δ : ℝ) (hδ : 0 ≤ δ)
    (ht : TailFor z f (zx z.W 1023) δ) (fused : Bool) (t : ℝ) :
    TendsNear (fun n => prob (2 * n) fun w => ∃ r rest, z.genNext fused tape n w = .ok (r, rest) ∧ AtMost t r)
      ((∫ s in Iic t, f |s|) / ∫ s, f |s|) (X * (X + 10) / 2 ^ 38 + 2 * δ * ((∫ s in Ioi (zx z.W 1023), f s) / ∫ s in Ioi 0, f s)) := by
  have hk := hz.ok hf hX fused
  have hU : Side (fun j => z.mirrored = true ∨ 0 ≤ j) (fun l => (l : Int)) := side_up fun j h => Or.inr h
  have hD : Side (fun j => z.mirrored = true ∨ 0 ≤ j) (fun l => -((l + 1 : Nat) : Int)) :=
    ⟨fun _ => Or.inl hm, side_down.lo, side_down.hi, side_down.mono⟩
  have hR := hz.r_pos
  have hX0 := hz.x_pos
  have ha := tail_pos hf hR.le
  have hS := hf.area_ge
  have hV := zigV_pos hz.tables
  have hQ : Upto t fun x => x ≤ t := ⟨fun x h => h.le, fun x h => not_le.mpr h⟩
  have sU := user_side hf hz hX fused hU t _ hQ
  have sD := user_side hf hz hX fused hD (-t) _ (upto_neg hQ)
  rw [sideSum_not, mul_sub] at sD
  have aU := hk.side_all_x hU
  have aD := hk.side_all_x hD
  have tU := hk.tail_area_x hU
  have tD := hk.tail_area_x hD
  have lU := ht.atMost t
  have lD := ht.atLeast hm (-t)
  rw [Decreasing.even_on (f := f) measurableSet_Ioc fun x hx => (hR.trans hx.1).le,
    Decreasing.even_on (f := f) measurableSet_Ioi fun x hx => (hR.trans hx).le] at lU
  rw [Decreasing.even_on (f := f) measurableSet_Ioi fun x hx => (hR.trans (lt_of_le_of_lt (le_max_left _ _) hx)).le,
    Decreasing.even_on (f := f) measurableSet_Ioi fun x hx => (hR.trans hx).le] at lD
  have mU := tail_limit (fun n => tailGives z (AtMost t) n) _ _ _ _ δ _ (fun n => tailGives_bounds z _ n) ha tU lU
  have mD := tail_limit (fun n => tailGives z (AtLeast (-t)) n) _ _ _ _ δ _ (fun n => tailGives_bounds z _ n) ha tD lD
  rw [hf.iic, Decreasing.whole, Decreasing.even_on (f := f) (s := Ioi (zx z.W 1023)) measurableSet_Ioi fun x hx => (hR.trans hx).le,
    Decreasing.even_on (f := f) (s := Ioi 0) measurableSet_Ioi fun x hx => le_of_lt hx]
  have hsp := hf.split _ hR.le
  -- the areas up to `t`
  have hpU : (∫ s in (0 : ℝ)..min (max t 0) (zx z.W 1023), f |s|) + (∫ s in Ioc (zx z.W 1023) t, f |s|) = ∫ s in (0 : ℝ)..max t 0, f |s| := by
    rw [← hf.piece (zx z.W 1023) (max t 0)]
    rcases le_total 0 t with h | h
    · rw [max_eq_left h]
    · rw [max_eq_right h, Ioc_eq_empty (not_lt.mpr (h.trans hR.le)), Ioc_eq_empty (not_lt.mpr hR.le)]
  have hpD : (∫ s in (0 : ℝ)..zx z.W 1023, f |s|) - (∫ s in (0 : ℝ)..min (max (-t) 0) (zx z.W 1023), f |s|) +
      (∫ s in Ioi (max (zx z.W 1023) (-t)), f |s|) = (∫ s in Ioi (0 : ℝ), f |s|) - ∫ s in (0 : ℝ)..max (-t) 0, f |s| := by
    rw [← hf.piece' (zx z.W 1023) (max (-t) 0) hR.le (le_max_right _ _)]
    rw [show max (zx z.W 1023) (max (-t) 0) = max (zx z.W 1023) (-t) by
      rw [max_comm (-t), ← max_assoc, max_eq_left hR.le]]
  have hpS : (∫ s in (0 : ℝ)..max t 0, f |s|) - (∫ s in (0 : ℝ)..max (-t) 0, f |s|) = ∫ s in (0 : ℝ)..t, f |s| := by
    rcases le_total t 0 with h | h
    · rw [max_eq_right h, max_eq_left (by linarith), even_signed, integral_same]; ring
    · rw [max_eq_left h, max_eq_right (by linarith), integral_same]; ring
  have hb : |∫ s in (0 : ℝ)..t, f (|s|)| ≤ ∫ s in Ioi (0 : ℝ), f |s| := by
    have hp : ∀ t, 0 ≤ t → |∫ s in (0 : ℝ)..t, f (|s|)| ≤ ∫ s in Ioi (0 : ℝ), f |s| := by
      intro t h
      rw [abs_of_nonneg (hf.nonneg 0 t h), hf.split t h]
      linarith [hf.tail_nonneg t]
    rcases le_total 0 t with h | h
    · exact hp t h
    · have := hp (-t) (by linarith)
      rwa [even_signed, abs_neg] at this
  -- one round
  have hcand : ∀ i < 1024, ∀ j : Int, j.natAbs ≤ 2 ^ 53 → (AtMost t (cand z i j) ↔ rv (cand z i j) ≤ t) := fun i hi j hj =>
    atMost_fin _ _ (hk.cand i hi j hj).1
  have hround : ∀ n, gives z fused (AtMost t) (n + 1) =
      (((sideSum z fused (fun l => (l : Int)) (fun x => x ≤ t) + tailShare z (fun l => (l : Int)) * tailGives z (AtMost t) n) +
        (sideSum z fused (fun l => -((l + 1 : Nat) : Int)) (fun y => -y ≤ t) +
          tailShare z (fun l => -((l + 1 : Nat) : Int)) * tailGives z (AtLeast (-t)) n)) / 2 +
      (1024 - ((sideSum z fused (fun l => (l : Int)) (fun _ => True) + tailShare z (fun l => (l : Int))) +
        (sideSum z fused (fun l => -((l + 1 : Nat) : Int)) (fun _ => True) +
          tailShare z (fun l => -((l + 1 : Nat) : Int)))) / 2) * gives z fused (AtMost t) n) / 1024 := by
    intro n
    have hu := round_side z fused (fun l => (l : Int)) (AtMost t) (fun x => x ≤ t) n (tailGives z (AtMost t) n) (fun i hi l hl => by
        rw [(hk.cand i hi (l : Int) (by omega)).2.1 (by omega)]
        exact hcand i hi _ (by omega)) (fun l => by
        have : ¬ (l : Int) < 0 := by omega
        simp only [if_neg this])
    have hd := round_side z fused (fun l => -((l + 1 : Nat) : Int)) (AtMost t) (fun y => -y ≤ t) n (tailGives z (AtLeast (-t)) n)
      (fun i hi l hl => by
        show _ ↔ -|_| ≤ t
        rw [(hk.cand i hi (-((l + 1 : Nat) : Int)) (by omega)).2.2.1 (by omega), neg_neg]
        exact hcand i hi _ (by omega)) (fun l => by
        have : -((l + 1 : Nat) : Int) < 0 := by omega
        simp only [if_pos this]
        exact congrArg (fun S => tailGives z S n) (funext fun r => propext (atMost_neg t r)))
    rw [gives_succ_mirrored _ hm]
    have e : (avg 1024 fun i => ((avg (2 ^ 53) fun l => term z fused (AtMost t) n i l) +
        avg (2 ^ 53) fun l => term z fused (AtMost t) n i (-((l + 1 : Nat) : Int))) / 2) =
        ((avg 1024 fun i => avg (2 ^ 53) fun l => term z fused (AtMost t) n i l) +
          avg 1024 fun i => avg (2 ^ 53) fun l => term z fused (AtMost t) n i (-((l + 1 : Nat) : Int))) / 2 := by
      rw [← avg_add, div_eq_mul_inv, ← avg_mul_right]
      exact avg_congr fun i _ => div_eq_mul_inv _ _
    rw [e, hu, hd]
    ring
  have leU := sideSum_le z fused (fun l => (l : Int))
  have leD := sideSum_le z fused (fun l => -((l + 1 : Nat) : Int))
  have sD' : |zv z.W z.F * sideSum z fused (fun l => -((l + 1 : Nat) : Int)) (fun y => -y ≤ t) -
      ((∫ s in (0 : ℝ)..zx z.W 1023, f |s|) - ∫ s in (0 : ℝ)..min (max (-t) 0) (zx z.W 1023), f (|s|))| ≤ 2 * (X * (X + 10) / 2 ^ 41) := by
    rw [abs_le] at sD aD ⊢
    constructor <;> linarith [sD.1, sD.2, aD.1, aD.2]
  have hA := (((tends_const sU).add mU).add ((tends_const sD').add mD)).half
  have hlim := converge_limit (fun n => gives z fused (AtMost t) n) _ _ (zv z.W z.F) (∫ s in Ioi (0 : ℝ), f |s|)
    (((∫ s in Ioi (0 : ℝ), f |s|) + ∫ s in (0 : ℝ)..t, f |s|) / (2 * ∫ s in Ioi (0 : ℝ), f |s|)) (X * (X + 10) / 2 ^ 41 + X / 2 ^ 48)
    (3 / 2 * (X * (X + 10) / 2 ^ 41) + X / 2 ^ 48 + (∫ s in Ioi (zx z.W 1023), f |s|) * δ) hround
    (div_nonneg (by linarith [(abs_le.mp hb).1]) (by linarith))
    (by rw [div_le_one (by linarith)]; linarith [(abs_le.mp hb).2]) hV (by linarith) (err_bound X δ _ _ hX0 hX hδ ha.le hS).1 (by
      rw [hsp]
      rw [abs_le] at aU aD tU tD ⊢
      constructor <;> linarith [aU.1, aU.2, aD.1, aD.2, tU.1, tU.2, tD.1, tD.2]) (err_nonneg' hX0 hδ ha.le) (by
      have e : (∫ s in Ioi (0 : ℝ), f |s|) * (((∫ s in Ioi (0 : ℝ), f |s|) + ∫ s in (0 : ℝ)..t, f |s|) / (2 * ∫ s in Ioi (0 : ℝ), f |s|)) =
          ((∫ s in Ioi (0 : ℝ), f |s|) + ∫ s in (0 : ℝ)..t, f |s|) / 2 := by
        have : (∫ s in Ioi (0 : ℝ), f |s|) ≠ 0 := by linarith
        field_simp
      rw [e]
      rw [show (∫ s in Ioi (0 : ℝ), f |s|) + (∫ s in (0 : ℝ)..t, f |s|) = (∫ s in (0 : ℝ)..min (max t 0) (zx z.W 1023), f |s|) +
          (∫ s in Ioc (zx z.W 1023) t, f |s|) + ((∫ s in (0 : ℝ)..zx z.W 1023, f |s|) - (∫ s in (0 : ℝ)..min (max (-t) 0) (zx z.W 1023), f |s|) +
          (∫ s in Ioi (max (zx z.W 1023) (-t)), f |s|)) by rw [hpU, hpD, ← hpS]; ring]
      refine (hA.congr fun n => ?_).mono ?_
      · ring
      · linarith)
  exact hlim.mono (err_bound X δ _ _ hX0 hX hδ ha.le hS).2

/-- C93: whatever the tables, the density and the tail of a ziggurat are: if its tail returns with probability 1, so does `GenNext`. -/
theorem C93_returns (z : Ziggurat (List U64)) (fused : Bool)
    (ht : TendsNear (fun n => prob (2 * n + 1) fun w => ∃ r rest, z.tail tape n w = .ok (r, rest)) 1 0) :
    TendsNear (fun n => prob (2 * n) fun w => ∃ r rest, z.genNext fused tape n w = .ok (r, rest)) 1 0 := by
  have ht' : TendsNear (fun n => tailGives z (fun _ => True) n) 1 0 := ht.congr fun n => by
    unfold tailGives
    exact prob_congr fun w _ => by simp only [and_true]
  have hg : ∀ n, gives z fused (fun _ => True) n = prob (2 * n) fun w => ∃ r rest, z.genNext fused tape n w = .ok (r, rest) := fun n => by
    unfold gives
    exact prob_congr fun w _ => by simp only [and_true]
  refine TendsNear.congr ?_ hg
  -- one side
  have side : ∀ (o : Nat → Int) n, avg 1024 (fun i => avg (2 ^ 53) fun l => term z fused (fun _ => True) n i (o l)) =
      (sideSum z fused o (fun _ => True) + tailShare z o * tailGives z (fun _ => True) n +
        (1024 - (sideSum z fused o (fun _ => True) + tailShare z o)) * gives z fused (fun _ => True) n) / 1024 := fun o n =>
    round_side z fused o (fun _ => True) (fun _ => True) n _ (fun _ _ _ _ => Iff.rfl) fun l => rfl
  have one_le : ∀ o : Nat → Int, 1 ≤ sideSum z fused o (fun _ => True) + tailShare z o := by
    intro o
    rw [sideSum_true]
    have : 0 ≤ ∑ i ∈ Finset.range 1023, avg (2 ^ 53) fun l => share z fused (i + 1) (o l) :=
      Finset.sum_nonneg fun i _ => avg_nonneg fun l _ => (share_bounds z fused _ _).1
    linarith
  have ts : ∀ o : Nat → Int, 0 ≤ tailShare z o ∧ tailShare z o ≤ 1 := fun o =>
    ⟨avg_nonneg fun l _ => ind_nonneg _, avg_le_one fun l _ => ind_le_one _⟩
  -- the recursion, with `S` the part of the offsets that end a round without the tail and `T` the part of those that lead to it
  have main : ∀ S T : ℝ, 1 ≤ S + T → S + T ≤ 1024 → 0 ≤ T → T ≤ 1 →
      (∀ n, gives z fused (fun _ => True) (n + 1) = ((S + T * tailGives z (fun _ => True) n) +
        (1024 - (S + T)) * gives z fused (fun _ => True) n) / 1024) → TendsNear (fun n => gives z fused (fun _ => True) n) 1 0 := by
    intro S T h1 h2 h3 h4 hr
    have := converge_limit (fun n => gives z fused (fun _ => True) n) (fun n => S + T * tailGives z (fun _ => True) n) (S + T) 1 (S + T) 1 0 0 hr
      zero_le_one le_rfl zero_lt_one h2 (by linarith) (by rw [one_mul, sub_self, abs_zero]) le_rfl (fun ε hε => by
        obtain ⟨N, hN⟩ := ht' ε hε
        refine ⟨N, fun n hn => ?_⟩
        have k := hN n hn
        have e : 1 * (S + T * tailGives z (fun _ => True) n) - (S + T) * 1 = T * (tailGives z (fun _ => True) n - 1) := by ring
        show |1 * (S + T * tailGives z (fun _ => True) n) - (S + T) * 1| ≤ _
        rw [e, abs_mul, abs_of_nonneg h3]
        exact (mul_le_of_le_one_left (abs_nonneg _) h4).trans k)
    refine this.mono ?_
    rw [add_zero, zero_div]
  cases hm : z.mirrored with
  | false =>
    refine main _ _ (one_le fun l => (l : Int)) (sideSum_le z fused _) (ts _).1 (ts _).2 fun n => ?_
    rw [gives_succ_plain _ hm]
    exact side _ n
  | true =>
    have u1 := one_le fun l => (l : Int)
    have d1 := one_le fun l => -((l + 1 : Nat) : Int)
    have u2 := sideSum_le z fused fun l => (l : Int)
    have d2 := sideSum_le z fused fun l => -((l + 1 : Nat) : Int)
    have u3 := ts fun l => (l : Int)
    have d3 := ts fun l => -((l + 1 : Nat) : Int)
    refine main ((sideSum z fused (fun l => (l : Int)) (fun _ => True) + sideSum z fused (fun l => -((l + 1 : Nat) : Int)) (fun _ => True)) / 2)
      ((tailShare z (fun l => (l : Int)) + tailShare z (fun l => -((l + 1 : Nat) : Int))) / 2) (by linarith) (by linarith)
      (by linarith [u3.1, d3.1]) (by linarith [u3.2, d3.2]) fun n => ?_
    rw [gives_succ_mirrored _ hm]
    have e : (avg 1024 fun i => ((avg (2 ^ 53) fun l => term z fused (fun _ => True) n i l) +
        avg (2 ^ 53) fun l => term z fused (fun _ => True) n i (-((l + 1 : Nat) : Int))) / 2) =
        ((avg 1024 fun i => avg (2 ^ 53) fun l => term z fused (fun _ => True) n i l) +
          avg 1024 fun i => avg (2 ^ 53) fun l => term z fused (fun _ => True) n i (-((l + 1 : Nat) : Int))) / 2 := by
      rw [← avg_add, div_eq_mul_inv, ← avg_mul_right]
      exact avg_congr fun i _ => div_eq_mul_inv _ _
    rw [e, side, side]
    ring

end

/-! ### Non-vacuity: the Laplace distribution, which the package does not provide -/

/-- A ziggurat for `e^(-|x|)`: the tables and the tail of the exponential distribution, mirrored, with `PDF` being
`math.Exp(-math.Abs(x))`. -/
def laplaceZig (lib : MathLib) : Ziggurat (List U64) where
  pdf := fun x => lib.exp (match x with | .fin _ n => .fin true n | .inf _ => .inf true | .nan => .nan)
  tail := expoTail lib
  mirrored := true
  K := expoK
  W := expoW
  F := expoF

theorem decreasing_exp : Decreasing fun x => Real.exp (-x) where
  top := by rw [neg_zero, Real.exp_zero]
  pos := fun x _ => Real.exp_pos _
  anti := expo_dens.anti
  slope := exp_lip
  area := integrableOn_exp_neg_Ioi 0

theorem cut_atMost (t : ℝ) : Cut t (AtMost t) :=
  ⟨⟨fun x => x ≤ t, ⟨fun x h => h.le, fun x h => not_le.mpr h⟩, fun n => atMost_fin t _ trivial⟩, by
    rintro (h | ⟨h, -⟩)
    · cases h
    · exact h⟩

theorem cut_atLeast (t : ℝ) : Cut t fun r => ¬ AtLeast t r :=
  ⟨⟨fun x => x < t, ⟨fun x h => h, fun x h => not_lt.mpr h.le⟩, fun n => by
      constructor
      · intro h
        by_contra hc
        exact h (Or.inr ⟨trivial, not_lt.mp hc⟩)
      · rintro h (k | ⟨-, k⟩)
        · cases k
        · exact absurd h (not_lt.mpr k)⟩, fun h => h (Or.inl rfl)⟩

/-- The tail of the exponential distribution. -/
theorem expo_tailFor (lib : MathLib) (hl : LogOk lib) (z : Ziggurat (List U64)) (hz : z.tail tape = expoTail lib tape) :
    TailFor z (fun x => Real.exp (-x)) (zx expoW 1023) (1 / 2 ^ 43) := by
  have hE := Real.exp_pos (-zx expoW 1023)
  constructor
  · intro t ε hε
    refine ⟨0, fun n _ => ?_⟩
    have h := tail_expo_near lib hl _ t (cut_atMost t) n
    have e : ((∫ s in Ioc (zx expoW 1023) t, Real.exp (-s)) / ∫ s in Ioi (zx expoW 1023), Real.exp (-s)) =
        1 - min (Real.exp (-(t - zx expoW 1023))) 1 := by
      rw [integral_exp_neg_Ioi, div_eq_iff hE.ne']
      rcases le_total t (zx expoW 1023) with h | h
      · rw [Ioc_eq_empty (not_lt.mpr h), setIntegral_empty, min_eq_right (Real.one_le_exp (by linarith)), sub_self, zero_mul]
      · have k := integral_interval_add_Ioi (integrableOn_exp_neg_Ioi (zx expoW 1023)) (integrableOn_exp_neg_Ioi t)
        rw [integral_exp_neg_Ioi, integral_exp_neg_Ioi] at k
        rw [← integral_of_le h, min_eq_left (Real.exp_le_one_iff.mpr (by linarith)), sub_mul, one_mul, ← Real.exp_add,
          show -(t - zx expoW 1023) + -zx expoW 1023 = -t by ring]
        linarith
    rw [e]
    simp only [hz]
    exact h.trans (by linarith)
  · intro _ t ε hε
    refine ⟨0, fun n _ => ?_⟩
    have h := tail_expo_near lib hl _ t (cut_atLeast t) n
    have e : ((∫ s in Ioi (max (zx expoW 1023) t), Real.exp (-s)) / ∫ s in Ioi (zx expoW 1023), Real.exp (-s)) =
        min (Real.exp (-(t - zx expoW 1023))) 1 := by
      rw [integral_exp_neg_Ioi, integral_exp_neg_Ioi, div_eq_iff hE.ne']
      rcases le_total t (zx expoW 1023) with h | h
      · rw [max_eq_left h, min_eq_right (Real.one_le_exp (by linarith)), one_mul]
      · rw [max_eq_right h, min_eq_left (Real.exp_le_one_iff.mpr (by linarith)), ← Real.exp_add]
        refine congrArg Real.exp ?_
        ring
    have e2 : tailGives (expoZig lib) (fun r => ¬ AtLeast t r) n = 1 - tailGives (expoZig lib) (AtLeast t) n := by
      rw [tail_expo, tail_expo]
      have h1 : (1 : ℝ) = avg (2 ^ 53) fun _ => 1 := (avg_const (by positivity) 1).symm
      rw [h1, ← avg_sub]
      exact avg_congr fun m _ => ind_not _
    rw [e2] at h
    rw [e]
    simp only [hz]
    show |tailGives (expoZig lib) (AtLeast t) n - _| ≤ _
    rw [abs_le] at h ⊢
    constructor <;> linarith [h.1, h.2]

theorem laplace_for (lib : MathLib) (he : ExpOk lib) : ZigFor (laplaceZig lib) (fun x => Real.exp (-x)) 11 where
  tables := C40_expo
  width := expo_x_le
  base := expoK_zero
  pdf := by
    intro x h1 h2 _ h4
    match x, h1, h2 with
    | .fin s n, _, h2 =>
      obtain ⟨e, he'⟩ : ∃ e, 1074 = e := ⟨_, rfl⟩
      have e1 : |rv (.fin s n)| = (n : ℝ) / 2 ^ e := by
        have : 0 ≤ (n : ℝ) / 2 ^ e := by positivity
        cases s
        · rw [rv_pos n e he', abs_of_nonneg this]
        · rw [rv_neg n e he', abs_neg, abs_of_nonneg this]
      have e2 : rv (.fin true n) = -|rv (.fin s n)| := by rw [rv_neg n e he', e1]
      have k := he (.fin true n) trivial h2 (by rw [e2]; linarith) (by rw [e2]; linarith [abs_nonneg (rv (.fin s n))])
      rw [e2] at k
      refine ⟨k.1, k.2.trans ?_⟩
      have : Real.exp (-|rv (.fin s n)|) ≤ 1 := Real.exp_le_one_iff.mpr (by linarith [abs_nonneg (rv (.fin s n))])
      calc Real.exp (-|rv (.fin s n)|) / 2 ^ 50 ≤ 1 / 2 ^ 50 := div_le_div_of_nonneg_right this (by norm_num)
        _ ≤ 1 / 2 ^ 49 := by norm_num

theorem expo_err (R : ℝ) (hR : 0 ≤ R) :
    11 * (11 + 10) / 2 ^ 38 + 2 * (1 / 2 ^ 43) * ((∫ s in Ioi R, Real.exp (-s)) / ∫ s in Ioi (0 : ℝ), Real.exp (-s)) ≤ 1 / 2 ^ 29 := by
  rw [integral_exp_neg_Ioi, integral_exp_neg_Ioi_zero, div_one]
  have : Real.exp (-R) ≤ 1 := Real.exp_le_one_iff.mpr (by linarith)
  have h2 : (11 : ℝ) * (11 + 10) / 2 ^ 38 + 2 * (1 / 2 ^ 43) ≤ 1 / 2 ^ 29 := by norm_num
  linarith

/-- C93, applied: with the tables of the exponential distribution, a mirrored ziggurat draws from the Laplace distribution. -/
theorem C93_laplace (lib : MathLib) (hl : LogOk lib) (he : ExpOk lib) (fused : Bool) (t : ℝ) :
    TendsNear (fun n => prob (2 * n) fun w => ∃ r rest, (laplaceZig lib).genNext fused tape n w = .ok (r, rest) ∧ AtMost t r)
      (if t ≤ 0 then Real.exp t / 2 else 1 - Real.exp (-t) / 2) (1 / 2 ^ 29) := by
  have h := C93_mirrored decreasing_exp (laplace_for lib he) (by norm_num) rfl _ (by positivity) (expo_tailFor lib hl (laplaceZig lib) rfl) fused t
  have hf : Decreasing fun x => Real.exp (-x) := decreasing_exp
  have e1 : (∫ s : ℝ, Real.exp (-|s|)) = 2 := by
    have := Decreasing.whole fun x => Real.exp (-x)
    rw [this, ← Decreasing.even_on (f := fun x => Real.exp (-x)) measurableSet_Ioi fun x hx => le_of_lt hx, integral_exp_neg_Ioi_zero, mul_one]
  have e0 : ∀ t, 0 ≤ t → (∫ s in (0 : ℝ)..t, Real.exp (-|s|)) = 1 - Real.exp (-t) := by
    intro t ht
    rw [← integral_exp_upto]
    refine integral_congr fun s hs => ?_
    rw [uIcc_of_le ht] at hs
    show Real.exp (-|s|) = Real.exp (-s)
    rw [abs_of_nonneg hs.1]
  have e2 : (∫ s in Iic t, Real.exp (-|s|)) = if t ≤ 0 then Real.exp t else 2 - Real.exp (-t) := by
    have h1 := hf.iic t
    rw [← Decreasing.even_on (f := fun x => Real.exp (-x)) measurableSet_Ioi fun x hx => le_of_lt hx, integral_exp_neg_Ioi_zero] at h1
    rw [h1]
    split_ifs with h
    · have k1 := even_signed (fun x => Real.exp (-x)) t
      have k2 := e0 (-t) (by linarith)
      rw [neg_neg] at k2
      linarith
    · rw [e0 t (by linarith)]; ring
  simp only [e1, e2] at h
  have e3 : (if t ≤ 0 then Real.exp t / 2 else 1 - Real.exp (-t) / 2) = (if t ≤ 0 then Real.exp t else 2 - Real.exp (-t)) / 2 := by
    split_ifs
    · rfl
    · ring
  rw [e3]
  exact h.mono (expo_err _ (laplace_for lib he).r_pos.le)

/-- The hypotheses of `C93_plain` are met by the shipped exponential distribution. -/
theorem expo_zigFor (lib : MathLib) (he : ExpOk lib) : ZigFor (expoZig lib : Ziggurat (List U64)) (fun x => Real.exp (-x)) 11 where
  tables := C40_expo
  width := expo_x_le
  base := expoK_zero
  pdf := by
    intro x h1 h2 h3 h4
    have h5 : 0 ≤ rv x := h3.resolve_left Bool.false_ne_true
    rw [abs_of_nonneg h5] at h4 ⊢
    have k := he (F64.neg x) (neg_fin h1) (neg_valid h2) (by rw [rv_neg_eq]; linarith) (by rw [rv_neg_eq]; linarith)
    rw [rv_neg_eq] at k
    refine ⟨k.1, k.2.trans ?_⟩
    have : Real.exp (-rv x) ≤ 1 := Real.exp_le_one_iff.mpr (by linarith)
    calc Real.exp (-rv x) / 2 ^ 50 ≤ 1 / 2 ^ 50 := div_le_div_of_nonneg_right this (by norm_num)
      _ ≤ 1 / 2 ^ 49 := by norm_num

example : ∃ lib, TendsNear (fun n => prob (2 * n) fun w => ∃ r rest, (expoZig lib).genNext false tape n w = .ok (r, rest) ∧ AtMost 1 r)
    (1 - Real.exp (-1)) (1 / 2 ^ 29) := by
  obtain ⟨lib, hl, he⟩ := mathLib_exists
  refine ⟨lib, ?_⟩
  have h := C93_plain decreasing_exp (expo_zigFor lib he) (by norm_num) rfl _ (by positivity) (expo_tailFor lib hl (expoZig lib) rfl) false 1 zero_le_one
  have h := h.mono (expo_err _ (expo_zigFor lib he).r_pos.le)
  rwa [← integral_of_le zero_le_one, integral_exp_upto, integral_exp_neg_Ioi_zero, div_one] at h

example : ∃ lib, TendsNear (fun n => prob (2 * n) fun w => ∃ r rest, (laplaceZig lib).genNext true tape n w = .ok (r, rest) ∧ AtMost 0 r)
    (1 / 2) (1 / 2 ^ 29) := by
  obtain ⟨lib, hl, he⟩ := mathLib_exists
  refine ⟨lib, ?_⟩
  have h := C93_laplace lib hl he true 0
  rwa [if_pos le_rfl, Real.exp_zero] at h

/-- The hypothesis of `C93_returns` is met by the tail of the exponential distribution, and for instance by tables of zeros. -/
example (lib : MathLib) (fused : Bool) : TendsNear (fun n => prob (2 * n) fun w => ∃ r rest,
    ({ pdf := fun _ => .nan, tail := expoTail lib, mirrored := true, K := Vector.replicate 1024 0, W := Vector.replicate 1024 .nan,
       F := Vector.replicate 1024 .nan } : Ziggurat (List U64)).genNext fused tape n w = .ok (r, rest)) 1 0 := by
  refine C93_returns _ fused fun ε hε => ⟨0, fun n _ => ?_⟩
  have h : tailGives (expoZig lib) (fun _ => True) n = 1 := by
    rw [tail_expo, avg_congr fun m _ => ind_true trivial, avg_const (by positivity)]
  unfold tailGives at h
  simp only [and_true] at h
  show |prob (2 * n + 1) (fun w => ∃ r rest, expoTail lib tape n w = .ok (r, rest)) - 1| ≤ _
  have h' : prob (2 * n + 1) (fun w => ∃ r rest, expoTail lib tape n w = .ok (r, rest)) = 1 := h
  rw [h', sub_self, abs_zero]
  linarith

end Crazy
