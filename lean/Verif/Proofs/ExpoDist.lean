/-
The distribution of what the ziggurat of the exponential distribution draws.
-/
import Verif.Proofs.ZigRec
import Verif.Props.ZigCount
import Mathlib.Analysis.SpecialFunctions.ImproperIntegrals
import Mathlib.Analysis.SpecialFunctions.Integrals.Basic
set_option exponentiation.threshold 2200
set_option maxRecDepth 4000
namespace Crazy
open MeasureTheory Set intervalIntegral

theorem rv_unit (m : Nat) : rv (unit m) = (m : ℝ) / 2 ^ 53 := by
  unfold unit
  obtain ⟨e, he⟩ : ∃ e, 1021 = e := ⟨_, rfl⟩
  rw [he, rv_pos _ (53 + e) (by omega), pow_add, Nat.cast_mul, Nat.cast_pow, Nat.cast_ofNat, mul_div_mul_right _ _ (by positivity)]

/-- The heights at which wedges are probed. -/
theorem wedge_unit {R : List ZRow} {K : Vector U64 1024} {W F : Vector F64 1024} (hR : RowsOf R K W F) (hD : pairsAll chkD R = true)
    {pdf : ℝ → ℝ} (hz : IsZiggurat pdf K W F) (fused : Bool) (i : Nat) (hi : i < 1024) (h0 : i ≠ 0) (m : Nat) (hm : m < 2 ^ 53) :
    (F64.mulAdd fused (unit m) (F64.sub F[i - 1] F[i]) F[i]).IsFin ∧
    |rv (F64.mulAdd fused (unit m) (F64.sub F[i - 1] F[i]) F[i]) -
      (zf F i + (m : ℝ) / 2 ^ 53 * (zf F (i - 1) - zf F i))| ≤ 1 / 2 ^ 52 := by
  have hu := uniform01_ofNat m (hm.trans (by decide)) []
  rw [Nat.mod_eq_of_lt hm] at hu
  obtain ⟨h, h1, h2, -, -, h5⟩ := wedge hR hD hz i hi h0 fused tape _ _ (unit m) hu
  rw [rv_unit] at h5
  rw [h1]
  exact ⟨h2, h5⟩

theorem exp_lip (a b : ℝ) (ha : 0 ≤ a) (hb : 0 ≤ b) : |Real.exp (-a) - Real.exp (-b)| ≤ |a - b| := by
  wlog h : a ≤ b generalizing a b
  · rw [abs_sub_comm, abs_sub_comm a]; exact this b a hb ha (le_of_not_ge h)
  have h1 : Real.exp (-b) ≤ Real.exp (-a) := Real.exp_le_exp.mpr (by linarith)
  rw [abs_of_nonneg (by linarith), abs_sub_comm, abs_of_nonneg (by linarith)]
  have h2 : Real.exp (-b) = Real.exp (-a) * Real.exp (-(b - a)) := by rw [← Real.exp_add]; congr 1; ring
  have h3 := Real.add_one_le_exp (-(b - a))
  have h4 : Real.exp (-a) ≤ 1 := Real.exp_le_one_iff.mpr (by linarith)
  have h5 := Real.exp_pos (-a)
  rw [h2]
  nlinarith

theorem expo_dens : Dens fun x => Real.exp (-x) where
  cont := by fun_prop
  anti := fun x _ y _ h => Real.exp_le_exp.mpr (neg_le_neg h)
  pos := fun x => Real.exp_pos _
  le_one := fun x h => Real.exp_le_one_iff.mpr (by linarith)
  lip := exp_lip

theorem expoK_zero : (expoK[0]).toNat ≤ 2 ^ 53 := by decide +kernel

theorem neg_fin {x : F64} (h : x.IsFin) : (F64.neg x).IsFin := by
  match x, h with
  | .fin _ _, _ => trivial

theorem rv_neg_eq (x : F64) : rv (F64.neg x) = -rv x := by
  obtain ⟨e, he⟩ : ∃ e, 1074 = e := ⟨_, rfl⟩
  match x with
  | .nan => show rv .nan = -rv .nan; unfold rv F64.val; simp
  | .inf s => show rv (.inf _) = -rv (.inf _); unfold rv F64.val; simp
  | .fin false n => exact (rv_neg n e he).trans (by rw [rv_pos n e he])
  | .fin true n => exact (rv_pos n e he).trans (by rw [rv_neg n e he, neg_neg])

theorem expo_cand_le (lib : MathLib) (i : Nat) (h : i < 1024) (j : Int) (hj : j.natAbs ≤ 2 ^ 53) :
    (cand (expoZig lib) i j).IsFin ∧ (cand (expoZig lib) i j).Valid ∧ (0 ≤ j → 0 ≤ rv (cand (expoZig lib) i j)) ∧
      |rv (cand (expoZig lib) i j)| ≤ 11 := by
  obtain ⟨f1, f2, f3, -⟩ := C40_expo.finite i h
  have hw := expo_x_le i h
  have h53 := hw.trans pow53_11
  have e : cand (expoZig lib) i j = F64.mul (F64.ofInt j) expoW[i] := dif_pos h
  obtain ⟨k1, k2, k3⟩ := mul_isFin expoW i h f1 f2 f3 h53 j hj
  obtain ⟨p, c1, -, c3, -⟩ := candidate expoW i h f1 f2 f3 h53 j hj
  rw [e]
  exact ⟨k1, mul_fin_valid _ _ k1, k2, by rw [c1]; exact c3.trans hw⟩

theorem weaken_wedge {P : Prop} {x : ℝ} (h : P ∧ x ≤ 1 / 2 ^ 52) : P ∧ x ≤ 1 / 2 ^ 51 := ⟨h.1, h.2.trans (by norm_num)⟩

theorem expo_ok (lib : MathLib) (he : ExpOk lib) (fused : Bool) :
    ZigOk 11 (expoZig lib) fused (fun j => 0 ≤ j) (fun x => Real.exp (-x)) where
  dens := expo_dens
  zig := C40_expo
  big := pow53_11
  wid := expo_x_le
  k0 := expoK_zero
  wedge := fun i hi h0 m hm => weaken_wedge (wedge_unit expo_rowsOf expoRows_D C40_expo fused i hi h0 m hm)
  pdf := by
    intro i hi j hj hj0
    obtain ⟨c1, c2, c3, c4⟩ := expo_cand_le lib i hi j hj
    have c5 := c3 hj0
    rw [abs_of_nonneg c5] at c4 ⊢
    generalize cand (expoZig lib) i j = x at *
    have e1 := he (F64.neg x) (neg_fin c1) (neg_valid c2) (by rw [rv_neg_eq]; linarith) (by rw [rv_neg_eq]; linarith)
    rw [rv_neg_eq] at e1
    refine ⟨e1.1, e1.2.trans ?_⟩
    have : Real.exp (-rv x) ≤ 1 := Real.exp_le_one_iff.mpr (by linarith)
    calc Real.exp (-rv x) / 2 ^ 50 ≤ 1 / 2 ^ 50 := div_le_div_of_nonneg_right this (by norm_num)
      _ ≤ 1 / 2 ^ 49 := by norm_num

/-- The share of large uniform variates. -/
theorem count_above (N : Nat) (hN : 0 < N) (c : ℝ) (hc : 0 ≤ c) (P : Nat → Prop) :
    ((∀ m < N, P m → c ≤ (m : ℝ) / N) → avg N (fun m => ind (P m)) ≤ 1 - min c 1) ∧
      ((∀ m < N, c ≤ (m : ℝ) / N → P m) → 1 - min c 1 - 1 / N ≤ avg N (fun m => ind (P m))) := by
  have hN' : (0 : ℝ) < N := Nat.cast_pos.mpr hN
  have h1 : (1 : ℝ) = avg N fun _ => 1 := (avg_const hN 1).symm
  have hb := count_below N (1 / N) c (by positivity)
  rw [max_eq_left hc, mul_one_div_cancel hN'.ne'] at hb
  have e : (∑ m ∈ Finset.range N, ind ((m : ℝ) * (1 / N) < c)) * (1 / N) = avg N fun m => ind ((m : ℝ) / N < c) := by
    unfold avg
    rw [mul_one_div]
    simp only [mul_one_div]
  rw [e] at hb
  have e2 : ∀ m : Nat, ind (¬ (m : ℝ) / N < c) = 1 - ind ((m : ℝ) / N < c) := fun m => ind_not _
  have e3 : (avg N fun m => ind (¬ (m : ℝ) / N < c)) = 1 - avg N fun m => ind ((m : ℝ) / N < c) := by
    rw [avg_congr fun m _ => e2 m, avg_sub, ← h1]
  constructor
  · intro h
    have : avg N (fun m => ind (P m)) ≤ avg N fun m => ind (¬ (m : ℝ) / N < c) := avg_mono fun m hm => by
      by_cases k : P m
      · rw [ind_true k, ind_true (not_lt.mpr (h m hm k))]
      · rw [ind_false k]; exact ind_nonneg _
    linarith
  · intro h
    have : (avg N fun m => ind (¬ (m : ℝ) / N < c)) ≤ avg N (fun m => ind (P m)) := avg_mono fun m hm => by
      by_cases k : (m : ℝ) / N < c
      · rw [ind_false (not_not.mpr k)]; exact ind_nonneg _
      · rw [ind_true k, ind_true (h m hm (not_lt.mp k))]
    linarith

/-- A `2N`-word tape's tail draw. -/
theorem tail_expo (lib : MathLib) (S : F64 → Prop) (n : Nat) :
    tailGives (expoZig lib) S n = avg (2 ^ 53) fun m => ind (S (F64.sub expoR (lib.log (unit m)))) := by
  unfold tailGives
  rw [prob_succ]
  have h : ∀ y < 2 ^ 64, prob (2 * n) (fun t => ∃ r rest, (expoZig lib).tail tape n (BitVec.ofNat 64 y :: t) = .ok (r, rest) ∧ S r) =
      ind (S (F64.sub expoR (lib.log (unit (y % 2 ^ 53))))) := by
    intro y hy
    rw [← prob_const (2 * n)]
    refine prob_congr fun t _ => ?_
    have ht : (expoZig lib).tail tape n (BitVec.ofNat 64 y :: t) = .ok (F64.sub expoR (lib.log (unit (y % 2 ^ 53))), t) := by
      show expoTail lib tape n _ = _
      unfold expoTail
      simp only [uniform01_ofNat y hy t, bind, Except.bind, pure, Except.pure]
    rw [ht]
    exact ok_and _ _
  rw [avg_congr h]
  have := avg_mod (2 ^ 11) (2 ^ 53) (by decide) fun m => ind (S (F64.sub expoR (lib.log (unit m))))
  rwa [show 2 ^ 11 * 2 ^ 53 = (2 : Nat) ^ 64 by decide] at this

theorem min_exp (y : ℝ) : min (Real.exp (-y)) 1 = Real.exp (-max y 0) := by
  rcases le_total y 0 with h | h
  · rw [max_eq_right h, neg_zero, Real.exp_zero, min_eq_right (Real.one_le_exp (by linarith))]
  · rw [max_eq_left h, min_eq_left (Real.exp_le_one_iff.mpr (by linarith))]

theorem min_exp_lip (x y : ℝ) : |min (Real.exp (-x)) 1 - min (Real.exp (-y)) 1| ≤ |x - y| := by
  rw [min_exp, min_exp]
  refine (exp_lip _ _ (le_max_right _ _) (le_max_right _ _)).trans ?_
  refine (abs_max_sub_max_le_max _ _ _ _).trans ?_
  rw [sub_self, abs_zero]
  exact max_le le_rfl (abs_nonneg _)

/-- What may be said of the outcomes of the exponential ziggurat: `S` holds of those up to `T`. -/
structure Cut (T : ℝ) (S : F64 → Prop) : Prop where
  q : ∃ Q : ℝ → Prop, Upto T Q ∧ ∀ n, S (.fin false n) ↔ Q (rv (.fin false n))
  inf : ¬ S (.inf false)

theorem tail_expo_near (lib : MathLib) (hl : LogOk lib) (S : F64 → Prop) (T : ℝ) (hS : Cut T S) (n : Nat) :
    |tailGives (expoZig lib) S n - (1 - min (Real.exp (-(T - zx expoW 1023))) 1)| ≤ 1 / 2 ^ 43 := by
  rw [tail_expo]
  obtain ⟨⟨Q, hQ, hSQ⟩, hinf⟩ := hS
  obtain ⟨e, he⟩ : ∃ e, 1021 = e := ⟨_, rfl⟩
  have key : ∀ m : Nat, m < 2 ^ 53 → 0 < m → ∃ r : ℝ, |r - (rv expoR - Real.log ((m : ℝ) / 2 ^ 53))| ≤ 1 / 2 ^ 44 ∧
      (S (F64.sub expoR (lib.log (unit m))) ↔ Q r) := by
    intro m hm hm0
    obtain ⟨p, p1, -, -, p4⟩ := expo_tail_aux lib hl e m he hm hm0
    have hu : unit m = .fin false (m * 2 ^ e) := by unfold unit; rw [he]
    rw [hu, p1]
    have h4 := rv_pos p (53 + e) (by omega)
    refine ⟨_, p4, ?_⟩
    rw [← h4]
    exact hSQ p
  have hzero : ¬ S (F64.sub expoR (lib.log (unit 0))) := by
    have hu : unit 0 = .fin false 0 := by unfold unit; rw [Nat.zero_mul]
    rw [hu, hl.zero, expoR_eq 1025 rfl]
    exact hinf
  have hR := C40_expoR
  change rv expoR ≤ zx expoW 1023 ∧ zx expoW 1023 ≤ rv expoR + 1 / 2 ^ 47 at hR
  have cs : (((2 : Nat) ^ 53 : Nat) : ℝ) = 2 ^ 53 := by rw [Nat.cast_pow, Nat.cast_ofNat]
  have up := (count_above (2 ^ 53) (by positivity) (Real.exp (-(T - rv expoR + 1 / 2 ^ 44))) (Real.exp_pos _).le
    (fun m => S (F64.sub expoR (lib.log (unit m))))).1 (fun m hm hp => by
      rcases Nat.eq_zero_or_pos m with rfl | hm0
      · exact absurd hp hzero
      · obtain ⟨r, r1, r2⟩ := key m hm hm0
        have r3 := hQ.le (r2.mp hp)
        have r4 := (abs_le.mp r1).1
        have hpos : 0 < (m : ℝ) / 2 ^ 53 := div_pos (Nat.cast_pos.mpr hm0) two_pow_53
        rw [cs, ← Real.le_log_iff_exp_le hpos]
        linarith)
  have lo := (count_above (2 ^ 53) (by positivity) (Real.exp (-(T - rv expoR - (1 / 2 ^ 44 + 1 / 2 ^ 50)))) (Real.exp_pos _).le
    (fun m => S (F64.sub expoR (lib.log (unit m))))).2 (fun m hm hp => by
      rw [cs] at hp
      have hpos : 0 < (m : ℝ) / 2 ^ 53 := lt_of_lt_of_le (Real.exp_pos _) hp
      have hm0 : 0 < m := by
        rcases Nat.eq_zero_or_pos m with rfl | h
        · rw [Nat.cast_zero, zero_div] at hpos; exact absurd hpos (lt_irrefl _)
        · exact h
      obtain ⟨r, r1, r2⟩ := key m hm hm0
      refine r2.mpr (hQ.below r ?_)
      have r4 := (abs_le.mp r1).2
      rw [← Real.le_log_iff_exp_le hpos] at hp
      have : (0 : ℝ) < 1 / 2 ^ 50 := by norm_num
      linarith)
  rw [cs] at lo
  have l1 := min_exp_lip (T - rv expoR + 1 / 2 ^ 44) (T - zx expoW 1023)
  have l2 := min_exp_lip (T - rv expoR - (1 / 2 ^ 44 + 1 / 2 ^ 50)) (T - zx expoW 1023)
  have n1 : |T - rv expoR + 1 / 2 ^ 44 - (T - zx expoW 1023)| ≤ 1 / 2 ^ 44 + 1 / 2 ^ 47 := by
    have : (0 : ℝ) < 1 / 2 ^ 44 := by norm_num
    rw [abs_of_nonneg (by linarith)]
    linarith
  have n2 : |T - rv expoR - (1 / 2 ^ 44 + 1 / 2 ^ 50) - (T - zx expoW 1023)| ≤ 1 / 2 ^ 44 + 1 / 2 ^ 50 := by
    have : (1 : ℝ) / 2 ^ 47 ≤ 1 / 2 ^ 44 + 1 / 2 ^ 50 := by norm_num
    rw [abs_of_nonpos (by linarith)]
    linarith
  have k1 := abs_le.mp (l1.trans n1)
  have k2 := abs_le.mp (l2.trans n2)
  have c1 : (1 : ℝ) / 2 ^ 44 + 1 / 2 ^ 47 ≤ 1 / 2 ^ 43 := by norm_num
  have c2 : (1 : ℝ) / 2 ^ 44 + 1 / 2 ^ 50 + 1 / 2 ^ 53 ≤ 1 / 2 ^ 43 := by norm_num
  rw [abs_le]
  constructor
  · linarith [k2.2]
  · linarith [k1.1]

theorem zigV_pos {K : Vector U64 1024} {W F : Vector F64 1024} {pdf : ℝ → ℝ} (hz : IsZiggurat pdf K W F) :
    0 < zv W F := by
  unfold zv
  exact mul_pos (hz.finite 0 (by omega)).2.2.1 (hz.finite 1023 (by omega)).2.2.2.2.2

theorem expoRows_V : expoRows[0]!.w * expoRows[1023]!.f * 255 * 4 ≤ 2 ^ 175 - 2 ^ 163 := by decide +kernel

theorem zv_rows {R : List ZRow} {K : Vector U64 1024} {W F : Vector F64 1024} (hR : RowsOf R K W F) :
    zv W F = ((R[0]!.w * R[1023]!.f : Nat) : ℝ) / 2 ^ 175 := by
  have hl := hR.len
  unfold zv
  rw [hR.w 0 (by omega), hR.f 1023 (by omega), getElem!_pos R 0 (by omega), getElem!_pos R 1023 (by omega), Nat.cast_mul,
    div_mul_div_comm, ← pow_add]

theorem expo_V : 1024 * zv expoW expoF * (1 - 1 / 256) ≤ 1 - 1 / 4096 := by
  have h := expoRows_V
  have h' : ((expoRows[0]!.w * expoRows[1023]!.f : Nat) : ℝ) * 255 * 4 ≤ 2 ^ 175 - 2 ^ 163 := by
    generalize expoRows[0]!.w * expoRows[1023]!.f = a at *
    have h2 : a * 255 * 4 + 2 ^ 163 ≤ 2 ^ 175 := by omega
    have h3 : (a : ℝ) * 255 * 4 + 2 ^ 163 ≤ 2 ^ 175 := by exact_mod_cast h2
    linarith
  rw [zv_rows expo_rowsOf]
  generalize ((expoRows[0]!.w * expoRows[1023]!.f : Nat) : ℝ) = a at *
  have e : 1024 * (a / 2 ^ 175) * (1 - 1 / 256) = a * 255 * 4 / 2 ^ 175 := by ring
  rw [e, div_le_iff₀ (by norm_num)]
  refine h'.trans (le_of_eq ?_)
  norm_num

theorem sideSum_le (z : Ziggurat (List U64)) (fused : Bool) (o : Nat → Int) :
    sideSum z fused o (fun _ => True) + tailShare z o ≤ 1024 := by
  rw [sideSum_true]
  have : (∑ i ∈ Finset.range 1023, avg (2 ^ 53) fun l => share z fused (i + 1) (o l)) ≤ ∑ _i ∈ Finset.range 1023, (1 : ℝ) :=
    Finset.sum_le_sum fun i _ => avg_le_one fun l _ => (share_bounds z fused _ _).2
  rw [Finset.sum_const, Finset.card_range, nsmul_eq_mul, Nat.cast_ofNat] at this
  linarith

theorem integral_exp_upto (T : ℝ) : ∫ s in (0 : ℝ)..T, Real.exp (-s) = 1 - Real.exp (-T) := by
  have h : ∀ x ∈ uIcc 0 T, HasDerivAt (fun s => -Real.exp (-s)) (Real.exp (-x)) x := fun x _ => by
    have := ((hasDerivAt_neg x).exp).neg
    simp only [mul_neg, mul_one, neg_neg] at this
    exact this
  rw [integral_eq_sub_of_hasDerivAt h ((by fun_prop : Continuous fun s : ℝ => Real.exp (-s)).intervalIntegrable _ _), neg_zero,
    Real.exp_zero]
  ring

theorem tailGives_bounds (z : Ziggurat (List U64)) (S : F64 → Prop) (n : Nat) : 0 ≤ tailGives z S n ∧ tailGives z S n ≤ 1 :=
  ⟨prob_nonneg _ _, prob_le_one _ _⟩

/-- The whole area up to `T` is that of the layers and that of the tail. -/
theorem expo_area (T R : ℝ) : 1 - Real.exp (-min T R) + Real.exp (-R) * (1 - min (Real.exp (-(T - R))) 1) = 1 - Real.exp (-T) := by
  rcases le_total T R with h | h
  · rw [min_eq_left h, min_eq_right (Real.one_le_exp (by linarith))]; ring
  · rw [min_eq_right h, min_eq_left (Real.exp_le_one_iff.mpr (by linarith)), mul_sub, ← Real.exp_add, mul_one,
      show -R + -(T - R) = -T by ring]
    ring

/-- The distribution of what the ziggurat draws within `n` rounds. -/
theorem expo_gives (lib : MathLib) (hl : LogOk lib) (he : ExpOk lib) (fused : Bool) (T : ℝ) (hT : 0 ≤ T) (S : F64 → Prop)
    (hS : Cut T S) (n : Nat) : |gives (expoZig lib) fused S n - (1 - Real.exp (-T))| ≤ 17 / 8 * (1 / 2 ^ 33 + 1 / 2 ^ 40) + (1 / 256) ^ n := by
  have hz := expo_ok lib he fused
  have ho : Side (fun j => 0 ≤ j) (fun l => (l : Int)) := side_up fun j h => h
  obtain ⟨Q, hQ, hSQ⟩ := hS.q
  have hcand : ∀ i < 1024, ∀ l : Nat, l < 2 ^ 53 → (S (cand (expoZig lib) i (l : Int)) ↔ Q |rv (cand (expoZig lib) i (l : Int))|) := by
    intro i hi l hl
    obtain ⟨f1, f2, f3, -⟩ := C40_expo.finite i hi
    obtain ⟨p, c1, -⟩ := candidate expoW i hi f1 f2 f3 ((expo_x_le i hi).trans pow53_11) (l : Int) (by omega)
    obtain ⟨-, -, c3, -⟩ := expo_cand_le lib i hi (l : Int) (by omega)
    have e : cand (expoZig lib) i (l : Int) = F64.mul (F64.ofInt l) expoW[i] := dif_pos hi
    have c4 := c3 (Int.natCast_nonneg l)
    rw [abs_of_nonneg c4]
    rw [e, c1, decide_eq_false (by omega)]
    exact hSQ p
  have htail : ∀ n, ∀ l : Nat, tailGives (expoZig lib) (fun r => S (if (l : Int) < 0 then F64.neg r else r)) n = tailGives (expoZig lib) S n := by
    intro n l
    have : ¬ (l : Int) < 0 := by omega
    simp only [if_neg this]
  have hside := hz.side ho hT hQ
  have hall := hz.side_all ho
  have hta := hz.tail_area ho
  have hV := zigV_pos C40_expo
  have hR0 : 0 < zx expoW 1023 := (C40_expo.finite 1023 (by omega)).2.2.1
  change |zv expoW expoF * _ - ∫ s in (0 : ℝ)..min T (zx expoW 1023), Real.exp (-s)| ≤ _ at hside
  change |zv expoW expoF * _ - ∫ s in (0 : ℝ)..zx expoW 1023, Real.exp (-s)| ≤ _ at hall
  change |zv expoW expoF * _ - ∫ s in Ioi (zx expoW 1023), Real.exp (-s)| ≤ _ at hta
  rw [integral_exp_upto] at hside hall
  rw [integral_exp_neg_Ioi] at hta
  have hE1 : Real.exp (-zx expoW 1023) ≤ 1 := Real.exp_le_one_iff.mpr (by linarith)
  have hE0 := Real.exp_pos (-zx expoW 1023)
  have k40 : (1 : ℝ) / 2 ^ 41 + 1 / 2 ^ 43 ≤ 1 / 2 ^ 40 := by norm_num
  have k41 : (1 : ℝ) / 2 ^ 41 ≤ 1 / 2 ^ 40 := by norm_num
  refine converge (fun n => gives (expoZig lib) fused S n)
    (fun n => sideSum (expoZig lib) fused (fun l => (l : Int)) Q + tailShare (expoZig lib) (fun l => (l : Int)) * tailGives (expoZig lib) S n)
    (sideSum (expoZig lib) fused (fun l => (l : Int)) (fun _ => True) + tailShare (expoZig lib) (fun l => (l : Int)))
    (zv expoW expoF) (1 - Real.exp (-T)) (1 / 2 ^ 33 + 1 / 2 ^ 40) (1 / 256) (1 / 256) 0 ?_ ?_ ?_ ?_ hV (by positivity) (by norm_num)
    (sideSum_le _ _ _) ?_ le_rfl (by norm_num) ?_ ?_ (by norm_num) le_rfl (by norm_num) n
  · exact gives_zero _ _ _
  · intro n
    show gives (expoZig lib) fused S (n + 1) = _
    rw [gives_succ_plain _ rfl]
    exact round_side (expoZig lib) fused (fun l => (l : Int)) S Q n _ hcand (htail n)
  · have : Real.exp (-T) ≤ 1 := Real.exp_le_one_iff.mpr (by linarith)
    linarith
  · have := Real.exp_pos (-T)
    linarith
  · rw [mul_add]
    rw [abs_le] at hall hta ⊢
    constructor <;> linarith [hall.1, hall.2, hta.1, hta.2]
  · intro n
    show |zv expoW expoF * (_ + _ * tailGives (expoZig lib) S n) - _| ≤ _
    have t1 := tail_expo_near lib hl S T hS n
    obtain ⟨t2, t3⟩ := tailGives_bounds (expoZig lib) S n
    generalize tailGives (expoZig lib) S n = τ at *
    have t4 : |zv expoW expoF * tailShare (expoZig lib) (fun l => (l : Int)) * τ - Real.exp (-zx expoW 1023) * τ| ≤ 1 / 2 ^ 41 := by
      rw [← sub_mul, abs_mul, abs_of_nonneg t2]
      exact (mul_le_of_le_one_right (abs_nonneg _) t3).trans hta
    have t5 : |Real.exp (-zx expoW 1023) * τ - Real.exp (-zx expoW 1023) * (1 - min (Real.exp (-(T - zx expoW 1023))) 1)| ≤ 1 / 2 ^ 43 := by
      rw [← mul_sub, abs_mul, abs_of_pos hE0]
      exact (mul_le_of_le_one_left (abs_nonneg _) hE1).trans t1
    have t6 := expo_area T (zx expoW 1023)
    rw [mul_add, ← mul_assoc, zero_mul, add_zero, ← t6]
    rw [abs_le] at hside t4 t5 ⊢
    constructor <;> linarith [hside.1, hside.2, t4.1, t4.2, t5.1, t5.2]
  · have := expo_V
    refine this.trans ?_
    norm_num

end Crazy
