/-
One round of a ziggurat, on one side of 0, in terms of `sideSum`.
-/
import Verif.Proofs.ZigSide2
set_option exponentiation.threshold 2200
namespace Crazy
open MeasureTheory Set intervalIntegral

/-- The share of the offsets of one side that lead to the tail, if the layer is the base layer. -/
noncomputable def tailShare (z : Ziggurat (List U64)) (o : Nat → Int) : ℝ :=
  avg (2 ^ 53) fun l => ind (¬ (o l).natAbs < (z.K[0]).toNat)

theorem ind_not (P : Prop) : ind (¬ P) = 1 - ind P := by
  by_cases h : P
  · rw [ind_true h, ind_false (not_not.mpr h), sub_self]
  · rw [ind_false h, ind_true h, sub_zero]

theorem ind_and (P Q : Prop) : ind (P ∧ Q) = ind P * ind Q := by
  by_cases h : P
  · rw [ind_true h, one_mul]; exact ind_congr (and_iff_right h)
  · rw [ind_false h, zero_mul, ind_false fun k => h k.1]

theorem avg_sub (N : Nat) (g h : Nat → ℝ) : avg N (fun x => g x - h x) = avg N g - avg N h := by
  unfold avg; rw [Finset.sum_sub_distrib, sub_div]

theorem avg_layers (g : Nat → ℝ) : avg 1024 g = ((∑ i ∈ Finset.range 1023, g (i + 1)) + g 0) / 1024 := by
  unfold avg
  rw [Finset.sum_range_succ', Nat.cast_ofNat]

theorem sideSum_true (z : Ziggurat (List U64)) (fused : Bool) (o : Nat → Int) :
    sideSum z fused o (fun _ => True) =
      (∑ i ∈ Finset.range 1023, avg (2 ^ 53) fun l => share z fused (i + 1) (o l)) + (1 - tailShare z o) := by
  unfold sideSum tailShare
  refine congrArg₂ (· + ·) ?_ ?_
  · refine Finset.sum_congr rfl fun i _ => avg_congr fun l _ => ?_
    rw [ind_true trivial, mul_one]
  · have h1 : (1 : ℝ) = avg (2 ^ 53) fun _ => 1 := (avg_const (by positivity) 1).symm
    rw [h1, ← avg_sub]
    refine avg_congr fun l _ => ?_
    rw [ind_not, sub_sub_cancel]
    exact ind_congr (and_iff_left trivial)

theorem sideSum_not (z : Ziggurat (List U64)) (fused : Bool) (o : Nat → Int) (Q : ℝ → Prop) :
    sideSum z fused o (fun x => ¬ Q x) = sideSum z fused o (fun _ => True) - sideSum z fused o Q := by
  have e1 : ∀ i, (avg (2 ^ 53) fun l => share z fused (i + 1) (o l) * ind (¬ Q |rv (cand z (i + 1) (o l))|)) =
      (avg (2 ^ 53) fun l => share z fused (i + 1) (o l) * ind True) -
        avg (2 ^ 53) fun l => share z fused (i + 1) (o l) * ind (Q |rv (cand z (i + 1) (o l))|) := by
    intro i
    rw [← avg_sub]
    refine avg_congr fun l _ => ?_
    rw [ind_not, ind_true trivial, mul_sub]
  have e2 : (avg (2 ^ 53) fun l => ind ((o l).natAbs < (z.K[0]).toNat ∧ ¬ Q |rv (cand z 0 (o l))|)) =
      (avg (2 ^ 53) fun l => ind ((o l).natAbs < (z.K[0]).toNat ∧ True)) -
        avg (2 ^ 53) fun l => ind ((o l).natAbs < (z.K[0]).toNat ∧ Q |rv (cand z 0 (o l))|) := by
    rw [← avg_sub]
    refine avg_congr fun l _ => ?_
    rw [ind_and, ind_and, ind_and, ind_not, ind_true trivial, mul_sub]
  unfold sideSum
  rw [e2, Finset.sum_congr rfl fun i _ => e1 i, Finset.sum_sub_distrib]
  ring

theorem sideSum_congr (z : Ziggurat (List U64)) (fused : Bool) (o : Nat → Int) (Q Q' : ℝ → Prop)
    (h : ∀ i < 1024, ∀ l < 2 ^ 53, Q |rv (cand z i (o l))| ↔ Q' |rv (cand z i (o l))|) :
    sideSum z fused o Q = sideSum z fused o Q' := by
  unfold sideSum
  refine congrArg₂ (· + ·) ?_ ?_
  · refine Finset.sum_congr rfl fun i hi => avg_congr fun l hl => ?_
    rw [Finset.mem_range] at hi
    rw [ind_congr (h (i + 1) (by omega) l hl)]
  · refine avg_congr fun l hl => ind_congr ?_
    rw [h 0 (by omega) l hl]

/-- One round on one side. -/
theorem round_side (z : Ziggurat (List U64)) (fused : Bool) (o : Nat → Int) (S : F64 → Prop) (Q : ℝ → Prop) (n : Nat) (τ : ℝ)
    (hS : ∀ i < 1024, ∀ l < 2 ^ 53, S (cand z i (o l)) ↔ Q |rv (cand z i (o l))|)
    (hτ : ∀ l, tailGives z (fun r => S (if o l < 0 then F64.neg r else r)) n = τ) :
    avg 1024 (fun i => avg (2 ^ 53) fun l => term z fused S n i (o l)) =
      (sideSum z fused o Q + tailShare z o * τ +
        (1024 - (sideSum z fused o (fun _ => True) + tailShare z o)) * gives z fused S n) / 1024 := by
  rw [avg_layers]
  have e0 : (avg (2 ^ 53) fun l => term z fused S n 0 (o l)) =
      (avg (2 ^ 53) fun l => ind ((o l).natAbs < (z.K[0]).toNat ∧ Q |rv (cand z 0 (o l))|)) + tailShare z o * τ := by
    unfold tailShare
    rw [← avg_mul_right, ← avg_add]
    refine avg_congr fun l hl => ?_
    unfold term
    rw [if_pos rfl]
    by_cases hk : (o l).natAbs < (z.K[0]).toNat
    · rw [if_pos hk, ind_not, ind_true hk, sub_self, zero_mul, add_zero]
      exact ind_congr ((hS 0 (by omega) l hl).trans (and_iff_right hk).symm)
    · rw [if_neg hk, ind_true hk, one_mul, hτ, ind_false fun k => hk k.1, zero_add]
  have e1 : ∀ i ∈ Finset.range 1023, (avg (2 ^ 53) fun l => term z fused S n (i + 1) (o l)) =
      (avg (2 ^ 53) fun l => share z fused (i + 1) (o l) * ind (Q |rv (cand z (i + 1) (o l))|)) +
        (1 - avg (2 ^ 53) fun l => share z fused (i + 1) (o l)) * gives z fused S n := by
    intro i hi
    rw [Finset.mem_range] at hi
    have h1 : (1 : ℝ) = avg (2 ^ 53) fun _ => 1 := (avg_const (by positivity) 1).symm
    rw [h1, ← avg_sub, ← avg_mul_right, ← avg_add]
    refine avg_congr fun l hl => ?_
    unfold term
    rw [if_neg (by omega), ind_congr (hS (i + 1) (by omega) l hl)]
  rw [e0, Finset.sum_congr rfl e1, Finset.sum_add_distrib, ← Finset.sum_mul, Finset.sum_sub_distrib, Finset.sum_const,
    Finset.card_range, nsmul_eq_mul, Nat.cast_ofNat, sideSum_true]
  unfold sideSum
  ring

variable {X : ℝ} {z : Ziggurat (List U64)} {fused : Bool} {D : Int → Prop} {f : ℝ → ℝ} {o : Nat → Int}

theorem ZigOk.x_nonneg (hz : ZigOk X z fused D f) : 0 ≤ X := by
  obtain ⟨-, -, r3, -⟩ := hz.zig.finite 1023 (by omega)
  exact (r3.trans_le (hz.wid 1023 (by omega))).le

theorem ZigOk.v_le (hz : ZigOk X z fused D f) : 1023 * zv z.W z.F ≤ 12 / 11 * X := by
  obtain ⟨g, hg⟩ : ∃ g : Nat → ℝ, ∀ i (h : i < 1024), g i = zf z.F i := ⟨fun i => if h : i < 1024 then zf z.F i else 0, fun i h => dif_pos h⟩
  obtain ⟨-, -, -, -, -, r6⟩ := hz.zig.finite 1023 (by omega)
  have a1 : ∀ i ∈ Finset.range 1023, zv z.W z.F * (1 - 1 / 2 ^ 42) ≤ X * (g i - g (i + 1)) := by
    intro i hi
    rw [Finset.mem_range] at hi
    rw [hg (i + 1) (by omega), hg i (by omega)]
    have k1 := (abs_le.mp (hz.zig.area (i + 1) (by omega) (by omega))).1
    have k2 := hz.zig.f_lt (i + 1) (by omega) (by omega)
    have k3 : zx z.W (i + 1) * (zf z.F i - zf z.F (i + 1)) ≤ X * (zf z.F i - zf z.F (i + 1)) :=
      mul_le_mul_of_nonneg_right (hz.wid _ _) (sub_nonneg.mpr k2.le)
    simp only [Nat.add_sub_cancel] at k1
    linarith
  have a2 := Finset.sum_le_sum a1
  rw [← Finset.mul_sum _ _ X, Finset.sum_range_sub', Finset.sum_const, Finset.card_range, nsmul_eq_mul, hg 0 (by omega),
    hg 1023 (by omega), hz.zig.f_zero, Nat.cast_ofNat] at a2
  have hX0 : 0 ≤ X := hz.x_nonneg
  have a3 : 12 / 11 * X * (1 - 1 / 2 ^ 42) ≥ X := by
    have : (12 : ℝ) / 11 * (1 - 1 / 2 ^ 42) ≥ 1 := by norm_num
    nlinarith
  have a6 : 0 ≤ X * zf z.F 1023 := mul_nonneg hX0 r6.le
  have a4 : (0 : ℝ) < 1 - 1 / 2 ^ 42 := by norm_num
  have a5 : 1023 * zv z.W z.F * (1 - 1 / 2 ^ 42) ≤ 12 / 11 * X * (1 - 1 / 2 ^ 42) := by linarith
  exact le_of_mul_le_mul_right a5 a4

theorem two_pow_53 : (0 : ℝ) < 2 ^ 53 := by norm_num

theorem ZigOk.cand_le (hz : ZigOk X z fused D f) (i : Nat) (h : i < 1024) (j : Int) (hj : j.natAbs ≤ 2 ^ 53) :
    |rv (Crazy.cand z i j)| ≤ X + 1 := by
  have c := (abs_le.mp (hz.cand i h j hj).2.2.2).2
  obtain ⟨-, -, f3, -⟩ := hz.zig.finite i h
  have h1 := hz.wid i h
  have h2 : (j.natAbs : ℝ) * (zx z.W i / 2 ^ 53) ≤ 2 ^ 53 * (zx z.W i / 2 ^ 53) :=
    mul_le_mul_of_nonneg_right (by exact_mod_cast hj) (div_nonneg f3.le two_pow_53.le)
  rw [mul_div_cancel₀ _ two_pow_53.ne'] at h2
  have h3 : zx z.W i / 2 ^ 53 ≤ X / 2 ^ 53 := div_le_div_of_nonneg_right h1 two_pow_53.le
  have h4 : X / 2 ^ 53 ≤ 1 := (div_le_one two_pow_53).mpr hz.big
  linarith

/-- All candidates. -/
theorem ZigOk.side_all_x (hz : ZigOk X z fused D f) (ho : Side D o) :
    |zv z.W z.F * sideSum z fused o (fun _ => True) - ∫ s in (0 : ℝ)..zx z.W 1023, f s| ≤ X * (X + 10) / 2 ^ 41 := by
  have h1 := hz.side_x ho (T := X + 1) (Q := fun x => x ≤ X + 1) (by linarith [hz.x_nonneg]) ⟨fun x h => h.le, fun x h => not_le.mpr h⟩
  rw [min_eq_right ((hz.wid 1023 (by omega)).trans (by linarith))] at h1
  rwa [sideSum_congr z fused o (fun _ => True) (fun x => x ≤ X + 1) fun i hi l hl =>
    ⟨fun _ => hz.cand_le i hi (o l) ((ho.hi l).trans hl), fun _ => trivial⟩]

theorem tail_const {X : ℝ} (h : 0 ≤ X) : 2 * (4 * (X / 2 ^ 53)) + X / 2 ^ 49 + 12 / 11 * X / 1023 / 2 ^ 42 ≤ X / 2 ^ 48 := by
  have : X * (2 * (4 * (1 / 2 ^ 53)) + 1 / 2 ^ 49 + 12 / 11 / 1023 / 2 ^ 42) ≤ X * (1 / 2 ^ 48) := mul_le_mul_of_nonneg_left (by norm_num) h
  linarith

theorem x_four {X : ℝ} (h : 0 ≤ X) : 0 ≤ 4 * (X / 2 ^ 53) := by positivity

/-- The area of the tail. -/
theorem ZigOk.tail_area_x (hz : ZigOk X z fused D f) (ho : Side D o) :
    |zv z.W z.F * tailShare z o - ∫ s in Ioi (zx z.W 1023), f s| ≤ X / 2 ^ 48 := by
  obtain ⟨Y, hY⟩ : ∃ Y, X + 1 = Y := ⟨_, rfl⟩
  have h1 := hz.base_part ho (T := Y) (Q := fun x => x ≤ Y) (by linarith [hz.x_nonneg, hY]) ⟨fun x h => h.le, fun x h => not_le.mpr h⟩
  have hR := hz.wid 1023 (by omega)
  rw [min_eq_right (hR.trans (by linarith))] at h1
  obtain ⟨-, -, r3, -, -, r6⟩ := hz.zig.finite 1023 (by omega)
  have e1 : (avg (2 ^ 53) fun l => ind ((o l).natAbs < (z.K[0]).toNat ∧ |rv (Crazy.cand z 0 (o l))| ≤ Y)) = 1 - tailShare z o := by
    unfold tailShare
    have h1 : (1 : ℝ) = avg (2 ^ 53) fun _ => 1 := (avg_const (by positivity) 1).symm
    rw [h1, ← avg_sub]
    refine avg_congr fun l hl => ?_
    rw [ind_not, sub_sub_cancel]
    exact ind_congr (and_iff_left (hY ▸ hz.cand_le 0 (by omega) (o l) ((ho.hi l).trans hl)))
  rw [e1] at h1
  have h2 := hz.zig.base
  have h3 := hz.zig.f_pdf 1023 (by omega) (by omega)
  have h4 := hz.v_le
  have f1 := hz.dens.le_one _ r3.le
  have f0 := hz.dens.pos (zx z.W 1023)
  have h5 : zf z.F 1023 ≤ 2 := by
    have := (abs_le.mp h3).2
    have : f (zx z.W 1023) / 2 ^ 49 ≤ 1 := by rw [div_le_one (by norm_num)]; linarith [show (1 : ℝ) ≤ 2 ^ 49 by norm_num]
    linarith
  have hX0 := hz.x_nonneg
  have h6 : zf z.F 1023 * (4 * (X / 2 ^ 53)) ≤ 2 * (4 * (X / 2 ^ 53)) := mul_le_mul_of_nonneg_right h5 (x_four hX0)
  have h7 : |zx z.W 1023 * (zf z.F 1023 - f (zx z.W 1023))| ≤ X / 2 ^ 49 := by
    rw [abs_mul, abs_of_pos r3]
    have : |zf z.F 1023 - f (zx z.W 1023)| ≤ 1 / 2 ^ 49 := h3.trans (div_le_div_of_nonneg_right f1 (by norm_num))
    calc _ ≤ X * (1 / 2 ^ 49) := mul_le_mul hR this (abs_nonneg _) hX0
      _ = _ := by ring
  have h8 : zv z.W z.F / 2 ^ 42 ≤ 12 / 11 * X / 1023 / 2 ^ 42 := div_le_div_of_nonneg_right (by linarith) (by norm_num)
  have h9 : 2 * (4 * (X / 2 ^ 53)) + X / 2 ^ 49 + 12 / 11 * X / 1023 / 2 ^ 42 ≤ X / 2 ^ 48 := tail_const hX0
  rw [mul_sub] at h1
  rw [mul_sub] at h7
  rw [abs_le] at h1 h2 h7 ⊢
  constructor <;> nlinarith [h1.1, h1.2, h2.1, h2.2, h7.1, h7.2]

/-- With abscissas up to 11. -/
theorem ZigOk.side_all (hz : ZigOk 11 z fused D f) (ho : Side D o) :
    |zv z.W z.F * sideSum z fused o (fun _ => True) - ∫ s in (0 : ℝ)..zx z.W 1023, f s| ≤ 1 / 2 ^ 33 :=
  (hz.side_all_x ho).trans (by norm_num)

/-- With abscissas up to 11. -/
theorem ZigOk.tail_area (hz : ZigOk 11 z fused D f) (ho : Side D o) :
    |zv z.W z.F * tailShare z o - ∫ s in Ioi (zx z.W 1023), f s| ≤ 1 / 2 ^ 41 :=
  (hz.tail_area_x ho).trans (by norm_num)

/-- The recursion over the rounds. `V` is the area of a layer divided by the whole area; `B/1024` is the probability that a round
is the last one, and `A n/1024` the probability that it moreover gives what is looked for. -/
theorem converge (p A : ℕ → ℝ) (B V F ε ρ σ c : ℝ) (p0 : p 0 = 0) (hp : ∀ n, p (n + 1) = (A n + (1024 - B) * p n) / 1024)
    (hF0 : 0 ≤ F) (hF1 : F ≤ 1) (hV : 0 < V) (hε0 : 0 ≤ ε) (hε : ε ≤ 1 / 1024) (hB : B ≤ 1024) (hVB : |V * B - 1| ≤ ε) (hc : 0 ≤ c)
    (hσ0 : 0 ≤ σ) (hVA : ∀ n, |V * A n - F| ≤ ε + c * σ ^ n) (hρV : 1024 * V * (1 - ρ) ≤ 1 - ε) (hρ0 : 0 ≤ ρ) (hρ : ρ ≤ 1 / 256)
    (hσ : 2 * c + ρ ≤ σ) (n : ℕ) : |p n - F| ≤ 17 / 8 * ε + σ ^ n := by
  have b1 : 1 - ε ≤ V * B := by linarith [(abs_le.mp hVB).1]
  have b2 : V * B ≤ 1024 * V := by nlinarith
  have b3 : 1 - ε ≤ 1024 * V := b1.trans b2
  have b4 : 1 - B / 1024 ≤ ρ := by
    have : V * (1024 * (1 - ρ)) ≤ V * B := by linarith
    have := le_of_mul_le_mul_left this hV
    linarith
  have b5 : 0 ≤ 1 - B / 1024 := by linarith
  induction n with
  | zero =>
    rw [p0, pow_zero, zero_sub, abs_neg, abs_of_nonneg hF0]
    linarith
  | succ n ih =>
    have hσn : 0 ≤ σ ^ n := pow_nonneg hσ0 n
    have e1 : p (n + 1) - F = (A n - B * F) / 1024 + (1 - B / 1024) * (p n - F) := by rw [hp]; ring
    have e2 : |V * A n - V * B * F| ≤ 2 * ε + c * σ ^ n := by
      have h1 := hVA n
      have h2 : |V * B * F - F| ≤ ε := by
        rw [show V * B * F - F = (V * B - 1) * F by ring, abs_mul, abs_of_nonneg hF0]
        exact (mul_le_of_le_one_right (abs_nonneg _) hF1).trans hVB
      rw [abs_le] at h1 h2 ⊢
      constructor <;> linarith [h1.1, h1.2, h2.1, h2.2]
    have e3 : |(A n - B * F) / 1024| * (1 - ε) ≤ 2 * ε + c * σ ^ n := by
      have : |(A n - B * F) / 1024| * (1024 * V) = |V * A n - V * B * F| := by
        rw [abs_div, show V * A n - V * B * F = V * (A n - B * F) by ring, abs_mul, abs_of_pos hV,
          abs_of_pos (show (0 : ℝ) < 1024 by norm_num)]
        ring
      calc _ ≤ |(A n - B * F) / 1024| * (1024 * V) := mul_le_mul_of_nonneg_left b3 (abs_nonneg _)
        _ ≤ _ := by rw [this]; exact e2
    have e4 : |(A n - B * F) / 1024| ≤ (2 * ε + c * σ ^ n) * (513 / 512) := by
      have hcn : 0 ≤ c * σ ^ n := mul_nonneg hc hσn
      have h0 : 0 ≤ |(A n - B * F) / 1024| := abs_nonneg _
      generalize |(A n - B * F) / 1024| = x at *
      have : x * (1023 / 1024) ≤ x * (1 - ε) := mul_le_mul_of_nonneg_left (by linarith) h0
      have h5 : x * (1023 / 1024) ≤ 2 * ε + c * σ ^ n := this.trans e3
      nlinarith
    have e5 : |(1 - B / 1024) * (p n - F)| ≤ ρ * (17 / 8 * ε) + ρ * σ ^ n := by
      rw [abs_mul, abs_of_nonneg b5, ← mul_add]
      exact mul_le_mul b4 ih (abs_nonneg _) hρ0
    rw [e1]
    refine (abs_add_le _ _).trans ?_
    have e6 : ρ * (17 / 8 * ε) ≤ 1 / 256 * (17 / 8 * ε) := mul_le_mul_of_nonneg_right hρ (by linarith)
    have e7 : (2 * c + ρ) * σ ^ n ≤ σ ^ (n + 1) := by
      rw [pow_succ']
      exact mul_le_mul_of_nonneg_right hσ hσn
    have hcn : 0 ≤ c * σ ^ n := mul_nonneg hc hσn
    nlinarith

end Crazy
