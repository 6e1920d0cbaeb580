/-
C92: the distribution of `Uniform` on ideal words.
-/
import Verif.Props.Independent
import Verif.Spec.Uniform
set_option exponentiation.threshold 2200
namespace Crazy
open F64

theorem unitCdf_mono {x y : ℝ} (h : x ≤ y) : unitCdf x ≤ unitCdf y := max_le_max_left _ (min_le_min_left _ h)

theorem unitCdf_add (x d : ℝ) (hd : 0 ≤ d) : unitCdf (x + d) ≤ unitCdf x + d := by
  unfold unitCdf
  rcases le_total x 0 with h | h <;> rcases le_total 1 x with h' | h' <;> rcases le_total (x + d) 0 with g | g <;>
    rcases le_total 1 (x + d) with g' | g' <;> simp [h, h', g, g'] <;> linarith

/-! ### Rounding -/

theorem mul_comm64 (x y : F64) : F64.mul x y = F64.mul y x := by
  match x, y with
  | .nan, y => cases y <;> rfl
  | .inf a, .nan => rfl
  | .inf a, .inf b => simp only [F64.mul, Bool.xor_comm]
  | .inf a, .fin b m => simp only [F64.mul, Bool.xor_comm]
  | .fin a n, .nan => rfl
  | .fin a n, .inf b => simp only [F64.mul, Bool.xor_comm]
  | .fin a n, .fin b m =>
    show rnd (a ^^ b) (n * m) one = rnd (b ^^ a) (m * n) one
    rw [Bool.xor_comm, Nat.mul_comm]

/-- `x*s + μ` for `x` in [-1, 1], computed with one rounding or with two. -/
theorem mulAdd_near_one (fused : Bool) (x s μ : F64) (hx : x.IsFin) (hs : s.IsFin) (hμ : μ.IsFin) (h64 : |rv x| ≤ 1)
    (hs0 : 1 / 2 ^ 900 ≤ |rv s|) (hs1 : |rv s| ≤ 2 ^ 900) (hμ1 : |rv μ| ≤ 2 ^ 900) :
    (F64.mulAdd fused s x μ).IsFin ∧
      |rv (F64.mulAdd fused s x μ) - (rv s * rv x + rv μ)| ≤ |rv s| * (1 / 2 ^ 50) + |rv μ| / 2 ^ 52 := by
  obtain ⟨k, hk⟩ : ∃ k, 900 = k := ⟨_, rfl⟩
  obtain ⟨l, hl⟩ : ∃ l, 1000 = l := ⟨_, rfl⟩
  have hbig : (2 : ℝ) ^ k * 2 ^ 100 = 2 ^ l := by rw [← pow_add]; exact congrArg _ (by omega)
  have hk0 : (0 : ℝ) < 2 ^ k := by positivity
  have hη : (1 : ℝ) / 2 ^ l ≤ |rv s| / 2 ^ 100 := by
    rw [div_le_div_iff₀ (by positivity) (by positivity), ← hbig, one_mul]
    rw [hk] at hs0
    have : 1 ≤ |rv s| * 2 ^ k := by rwa [div_le_iff₀ hk0] at hs0
    nlinarith [this]
  have hs00 : 0 < |rv s| := lt_of_lt_of_le (by positivity) hs0
  have hxs : |rv s * rv x| ≤ |rv s| := by rw [abs_mul]; exact mul_le_of_le_one_right hs00.le h64
  have hs1' : |rv s| ≤ 2 ^ k := by rwa [hk] at hs1
  rw [hk] at hμ1
  have hlim : |rv s * rv x| ≤ 2 ^ 1000 := by rw [hl, ← hbig]; refine hxs.trans ?_; nlinarith
  have hμ0 := abs_nonneg (rv μ)
  have hd52 : |rv μ| / 2 ^ 52 = |rv μ| / 2 ^ 53 + |rv μ| / 2 ^ 53 := by ring
  have h2 : |rv s| / 2 ^ 100 ≤ |rv s| / 2 ^ 53 := div_le_div_of_nonneg_left hs00.le two_pow_53 (by norm_num)
  have h5 : 0 ≤ |rv μ| / 2 ^ 53 := div_nonneg hμ0 two_pow_53.le
  have h4 : |rv s| * (5 / 2 ^ 53) ≤ |rv s| * (1 / 2 ^ 50) := mul_le_mul_of_nonneg_left (by norm_num) hs00.le
  have h50 : 0 ≤ |rv s| / 2 ^ 53 := div_nonneg hs00.le two_pow_53.le
  unfold F64.mulAdd
  cases fused
  · rw [if_neg Bool.false_ne_true]
    obtain ⟨a1, -, a3⟩ := F64.mul_near s x hs hx hlim
    rw [hl] at a3
    have a4 : |rv (F64.mul s x) - rv s * rv x| ≤ |rv s| * (2 / 2 ^ 53) := by
      refine a3.trans ?_
      have : |rv s * rv x| / 2 ^ 53 ≤ |rv s| / 2 ^ 53 := div_le_div_of_nonneg_right hxs two_pow_53.le
      have h3 : |rv s| * (2 / 2 ^ 53) = |rv s| / 2 ^ 53 + |rv s| / 2 ^ 53 := by ring
      linarith
    have a5 : |rv (F64.mul s x)| ≤ 2 * |rv s| := by
      have h1 := abs_sub_abs_le_abs_sub (rv (F64.mul s x)) (rv s * rv x)
      have h2 : |rv s| * (2 / 2 ^ 53) ≤ |rv s| * 1 := mul_le_mul_of_nonneg_left (by norm_num) hs00.le
      linarith
    have a6 : |rv (F64.mul s x) + rv μ| ≤ 2 * |rv s| + |rv μ| := (abs_add_le _ _).trans (by linarith)
    obtain ⟨b1, -, b3⟩ := F64.add_near _ μ a1 hμ (by rw [hl, ← hbig]; refine a6.trans ?_; nlinarith)
    rw [hl] at b3
    refine ⟨b1, ?_⟩
    have b4 : |rv (F64.mul s x) + rv μ| / 2 ^ 53 ≤ (2 * |rv s| + |rv μ|) / 2 ^ 53 := div_le_div_of_nonneg_right a6 two_pow_53.le
    rw [add_div] at b4
    have h3 : |rv s| * (2 / 2 ^ 53) + 2 * |rv s| / 2 ^ 53 + |rv s| / 2 ^ 53 = |rv s| * (5 / 2 ^ 53) := by ring
    rw [abs_le] at a4 b3 ⊢
    constructor <;> linarith [a4.1, a4.2, b3.1, b3.2]
  · rw [if_pos rfl]
    have a6 : |rv s * rv x + rv μ| ≤ |rv s| + |rv μ| := (abs_add_le _ _).trans (by linarith)
    obtain ⟨b1, -, b3⟩ := F64.fma_near s x μ hs hx hμ (by rw [hl, ← hbig]; refine a6.trans ?_; nlinarith)
    rw [hl] at b3
    refine ⟨b1, b3.trans ?_⟩
    have b4 : |rv s * rv x + rv μ| / 2 ^ 53 ≤ (|rv s| + |rv μ|) / 2 ^ 53 := div_le_div_of_nonneg_right a6 two_pow_53.le
    rw [add_div] at b4
    have h3 : |rv s| * (5 / 2 ^ 53) = |rv s| / 2 ^ 53 + |rv s| / 2 ^ 53 + 3 * (|rv s| / 2 ^ 53) := by ring
    linarith

/-! ### Counting -/

theorem avg_le_cdf (N : Nat) (hN : 0 < N) (y : ℝ) :
    unitCdf (y / N) ≤ avg N (fun m => if (m : ℝ) ≤ y then 1 else 0) ∧
      avg N (fun m => if (m : ℝ) ≤ y then 1 else 0) ≤ unitCdf ((y + 1) / N) := by
  have hN' : (0 : ℝ) < N := Nat.cast_pos.mpr hN
  rcases lt_or_ge y 0 with hy | hy
  · have e : avg N (fun m => if (m : ℝ) ≤ y then 1 else 0) = 0 := by
      rw [avg_congr (h := fun _ => 0) fun m _ => if_neg (by have : (0 : ℝ) ≤ m := Nat.cast_nonneg m; linarith), avg_const hN]
    rw [e]
    refine ⟨?_, le_max_left _ _⟩
    have : y / N ≤ 0 := div_nonpos_of_nonpos_of_nonneg hy.le hN'.le
    unfold unitCdf
    rw [min_eq_right (by linarith), max_eq_left this]
  · have e : avg N (fun m => if (m : ℝ) ≤ y then 1 else 0) = (min (⌊y⌋₊ + 1) N : Nat) / N := by
      have := avg_ite_le (N := N) (K := min (⌊y⌋₊ + 1) N) (min_le_right _ _) hN (fun _ => 1) 0
      rw [mul_zero, add_zero, Finset.sum_const, Finset.card_range, nsmul_eq_mul, mul_one] at this
      rw [← this]
      refine avg_congr fun m hm => ?_
      have : (m : ℝ) ≤ y ↔ m < min (⌊y⌋₊ + 1) N := by
        rw [← Nat.le_floor_iff hy, lt_min_iff]
        omega
      simp only [this]
    rw [e]
    have f1 := Nat.floor_le hy
    have f2 := Nat.lt_floor_add_one y
    rw [Nat.cast_min, Nat.cast_add, Nat.cast_one, ← min_div_div_right hN'.le, div_self hN'.ne', min_comm]
    unfold unitCdf
    refine ⟨max_le (le_min zero_le_one (by positivity)) (min_le_min_left _ (div_le_div_of_nonneg_right f2.le hN'.le)), ?_⟩
    exact (min_le_min_left _ (div_le_div_of_nonneg_right (by linarith) hN'.le)).trans (le_max_right _ _)

open Classical in
/-- A condition on `m` that is, up to `d`, the condition `m ≤ y`. -/
theorem avg_near (N : Nat) (hN : 0 < N) (S : Nat → Prop) (y d : ℝ) (hd : 0 ≤ d) (h1 : ∀ m < N, (m : ℝ) ≤ y - d → S m)
    (h2 : ∀ m < N, S m → (m : ℝ) ≤ y + d) :
    |avg N (fun m => if S m then 1 else 0) - unitCdf (y / N)| ≤ (1 + d) / N := by
  have hN' : (0 : ℝ) < N := Nat.cast_pos.mpr hN
  have a1 : avg N (fun m => if (m : ℝ) ≤ y - d then 1 else 0) ≤ avg N (fun m => if S m then 1 else 0) := by
    refine avg_mono fun m hm => ?_
    by_cases h : (m : ℝ) ≤ y - d
    · rw [if_pos h, if_pos (h1 m hm h)]
    · rw [if_neg h]; split <;> norm_num
  have a2 : avg N (fun m => if S m then 1 else 0) ≤ avg N (fun m => if (m : ℝ) ≤ y + d then 1 else 0) := by
    refine avg_mono fun m hm => ?_
    by_cases h : S m
    · rw [if_pos h, if_pos (h2 m hm h)]
    · rw [if_neg h]; split <;> norm_num
  have b1 := (avg_le_cdf N hN (y - d)).1
  have b2 := (avg_le_cdf N hN (y + d)).2
  have hdN : 0 ≤ d / N := div_nonneg hd hN'.le
  have h1N : 0 ≤ (1 + d) / N := div_nonneg (by linarith) hN'.le
  have c1 := unitCdf_add ((y - d) / N) (d / N) hdN
  rw [← add_div, sub_add_cancel] at c1
  have c2 := unitCdf_add (y / N) ((1 + d) / N) h1N
  rw [← add_div, show y + (1 + d) = y + d + 1 by ring] at c2
  have c3 : (1 + d) / N = 1 / N + d / N := add_div _ _ _
  have c4 : 0 ≤ 1 / (N : ℝ) := by positivity
  rw [abs_le]
  constructor <;> linarith

theorem unear_le {r q l t δ : ℝ} (k : |r - (q + l)| ≤ δ) (h : q ≤ t - l - δ) : r ≤ t := by linarith [(abs_le.mp k).2]
theorem unear_ge {r q l t δ : ℝ} (k : |r - (q + l)| ≤ δ) (h : r ≤ t) : q ≤ t - l + δ := by linarith [(abs_le.mp k).1]
theorem unear_gt {r q l t δ : ℝ} (k : |r - (q + l)| ≤ δ) (h : t - l + δ < q) : t < r := by linarith [(abs_le.mp k).1]
theorem unear_lt {r q l t δ : ℝ} (k : |r - (q + l)| ≤ δ) (h : t < r) : t - l - δ < q := by linarith [(abs_le.mp k).2]

/-! ### `Uniform` -/

theorem uniform_tape (fused : Bool) (low high : F64) (x : U64) (xs : List U64) :
    uniform fused low high tape (x :: xs) = .ok (F64.mulAdd fused high (.fin false (x.toNat % 2 ^ 52 * 2 ^ 1022)) low, xs) := by
  have h : tape.read (zeros 7) (x :: xs) = .ok (⟨(le64 x).take 7, 7, none⟩, xs) := rfl
  rw [uniform_eq fused low high tape _ _ _ h]
  simp only
  rw [leNat_take_le64 x 7 (by decide), show 256 ^ 7 = 2 ^ 52 * 2 ^ 4 by decide, Nat.mod_mul_right_mod]

open Classical in
theorem prob_uniform (fused : Bool) (low high : F64) (P : F64 → Prop) :
    prob 1 (fun w => ∃ r rest, uniform fused low high tape w = .ok (r, rest) ∧ P r) =
      avg (2 ^ 52) (fun m => if P (F64.mulAdd fused high (.fin false (m * 2 ^ 1022)) low) then 1 else 0) := by
  rw [prob_succ, show (2 ^ 64 : Nat) = 2 ^ 12 * 2 ^ 52 by decide, ← avg_mod (2 ^ 12) (2 ^ 52) (by decide)]
  refine avg_congr fun x hx => ?_
  rw [prob_zero]
  have e : (∃ r rest, uniform fused low high tape [BitVec.ofNat 64 x] = .ok (r, rest) ∧ P r) ↔
      P (F64.mulAdd fused high (.fin false (x % 2 ^ 52 * 2 ^ 1022)) low) := by
    rw [uniform_tape, BitVec.toNat_ofNat, Nat.mod_eq_of_lt (b := 2 ^ 64) (by omega)]
    exact ok_and _ _
  simp only [e]

/-- C92: for every `High` with `2^-900 ≤ |High| ≤ 2^900`, every `Low` of magnitude at most `2^900` and every `t`: of all words, the share
of those from which `Uniform{Low, High}.Next` draws a value that is at most `t` is that of the uniform distribution between `Low` and
`Low + High` (not: `High`), up to `2^-49 + (|Low|/|High|)/2^52`. -/
theorem C92_uniform (fused : Bool) (low high : F64) (hl : low.IsFin) (hl1 : |rv low| ≤ 2 ^ 900) (hh : high.IsFin)
    (hh0 : 1 / 2 ^ 900 ≤ |rv high|) (hh1 : |rv high| ≤ 2 ^ 900) (t : ℝ) :
    |prob 1 (fun w => ∃ r rest, uniform fused low high tape w = .ok (r, rest) ∧ AtMost t r) -
      (if 0 < rv high then unitCdf ((t - rv low) / rv high) else 1 - unitCdf ((t - rv low) / rv high))| ≤
        1 / 2 ^ 49 + |rv low| / |rv high| / 2 ^ 52 := by
  classical
  rw [prob_uniform]
  have hs00 : 0 < |rv high| := lt_of_lt_of_le (by positivity) hh0
  obtain ⟨δ, hδ⟩ : ∃ δ, δ = |rv high| * (1 / 2 ^ 50) + |rv low| / 2 ^ 52 := ⟨_, rfl⟩
  have hN : ((2 ^ 52 : Nat) : ℝ) = 2 ^ 52 := by rw [Nat.cast_pow, Nat.cast_ofNat]
  have hN0 : (0 : ℝ) < 2 ^ 52 := by norm_num
  have key : ∀ m < 2 ^ 52, (F64.mulAdd fused high (.fin false (m * 2 ^ 1022)) low).IsFin ∧
      |rv (F64.mulAdd fused high (.fin false (m * 2 ^ 1022)) low) - (rv high * (m / 2 ^ 52) + rv low)| ≤ δ := by
    intro m hm
    have hv : rv (.fin false (m * 2 ^ 1022)) = (m : ℝ) / 2 ^ 52 := by
      unfold rv
      rw [val_scaled m 1022 52 rfl, Rat.cast_div, Rat.cast_natCast, Rat.cast_pow, Rat.cast_ofNat]
    have hm' : (m : ℝ) ≤ 2 ^ 52 := by rw [← hN]; exact_mod_cast hm.le
    have := mulAdd_near_one fused (.fin false (m * 2 ^ 1022)) high low trivial hh hl
      (by rw [hv, abs_of_nonneg (by positivity)]; exact (div_le_one hN0).mpr hm') hh0 hh1 hl1
    rw [hv] at this
    rw [hδ]
    exact this
  have hat : ∀ r : F64, r.IsFin → (AtMost t r ↔ rv r ≤ t) := by
    intro r hr
    constructor
    · rintro (rfl | h)
      · exact absurd hr id
      · exact h.2
    · exact fun h => Or.inr ⟨hr, h⟩
  have hδ0 : 0 ≤ δ := by rw [hδ]; positivity
  obtain ⟨d, hd⟩ : ∃ d, d = δ / |rv high| * 2 ^ 52 := ⟨_, rfl⟩
  have hd0 : 0 ≤ d := by rw [hd]; positivity
  have hdv : d / 2 ^ 52 = 1 / 2 ^ 50 + |rv low| / |rv high| / 2 ^ 52 := by
    rw [hd, hδ]; field_simp
  have hfin : (1 + (d + 1)) / (2 : ℝ) ^ 52 ≤ 1 / 2 ^ 49 + |rv low| / |rv high| / 2 ^ 52 := by
    rw [add_div, add_div, hdv]
    have : (1 : ℝ) / 2 ^ 52 + (1 / 2 ^ 50 + 1 / 2 ^ 52) ≤ 1 / 2 ^ 49 := by norm_num
    linarith
  -- `m` in terms of the exact result
  have hmul : ∀ x : ℝ, x / rv high * 2 ^ 52 / 2 ^ 52 * rv high = x := by
    intro x
    have : rv high ≠ 0 := by intro h; rw [h, abs_zero] at hs00; exact lt_irrefl _ hs00
    field_simp
  obtain ⟨y, hy⟩ : ∃ y, y = (t - rv low) / rv high * 2 ^ 52 := ⟨_, rfl⟩
  have hyt : rv high * (y / 2 ^ 52) = t - rv low := by rw [hy, mul_comm, hmul]
  have hyN : y / ((2 ^ 52 : Nat) : ℝ) = (t - rv low) / rv high := by rw [hN, hy]; field_simp
  have hdδ : |rv high| * (d / 2 ^ 52) = δ := by rw [hd]; field_simp
  by_cases hpos : 0 < rv high
  · rw [if_pos hpos, ← hyN]
    rw [abs_of_pos hpos] at hdδ
    refine (avg_near (2 ^ 52) (Nat.two_pow_pos _) (fun m => AtMost t (F64.mulAdd fused high (.fin false (m * 2 ^ 1022)) low)) y d hd0 (fun m hm h => ?_) (fun m hm h => ?_)).trans ?_
    · obtain ⟨k1, k2⟩ := key m hm
      rw [hat _ k1]
      have : rv high * (m / 2 ^ 52) ≤ rv high * ((y - d) / 2 ^ 52) :=
        mul_le_mul_of_nonneg_left (div_le_div_of_nonneg_right h hN0.le) hpos.le
      rw [sub_div, mul_sub, hyt, hdδ] at this
      exact unear_le k2 this
    · obtain ⟨k1, k2⟩ := key m hm
      rw [hat _ k1] at h
      have h3 : rv high * (m / 2 ^ 52) ≤ rv high * ((y + d) / 2 ^ 52) := by
        rw [add_div, mul_add, hyt, hdδ]
        exact unear_ge k2 h
      have h4 := le_of_mul_le_mul_left h3 hpos
      exact (div_le_div_iff_of_pos_right hN0).mp h4
    · rw [hN]
      refine le_trans (div_le_div_of_nonneg_right (by linarith) hN0.le) hfin
  · have hneg : rv high < 0 := lt_of_le_of_ne (not_lt.mp hpos) (fun h => by rw [h, abs_zero] at hs00; exact lt_irrefl _ hs00)
    rw [if_neg hpos, ← hyN]
    have hdn : rv high * (d / 2 ^ 52) = -δ := by rw [abs_of_neg hneg, neg_mul] at hdδ; rw [← hdδ, _root_.neg_neg]
    obtain ⟨S, hS⟩ : ∃ S : Nat → Prop, ∀ m, S m ↔ ¬ AtMost t (F64.mulAdd fused high (.fin false (m * 2 ^ 1022)) low) := ⟨_, fun _ => Iff.rfl⟩
    have hcompl : avg (2 ^ 52) (fun m => if AtMost t (F64.mulAdd fused high (.fin false (m * 2 ^ 1022)) low) then (1 : ℝ) else 0) =
        1 - avg (2 ^ 52) (fun m => if S m then (1 : ℝ) else 0) := by
      rw [eq_sub_iff_add_eq, ← avg_add, avg_congr (h := fun _ => 1), avg_const (Nat.two_pow_pos _)]
      intro m _
      by_cases h : AtMost t (F64.mulAdd fused high (.fin false (m * 2 ^ 1022)) low)
      · rw [if_pos h, if_neg (fun h' => (hS m).mp h' h), add_zero]
      · rw [if_neg h, if_pos ((hS m).mpr h), zero_add]
    rw [hcompl, sub_sub_sub_cancel_left, abs_sub_comm]
    refine (avg_near (2 ^ 52) (Nat.two_pow_pos _) S y (d + 1) (by linarith) (fun m hm h => ?_) (fun m hm h => ?_)).trans ?_
    · obtain ⟨k1, k2⟩ := key m hm
      rw [hS, hat _ k1, not_le]
      have h3 : rv high * ((y - d) / 2 ^ 52) < rv high * (m / 2 ^ 52) :=
        mul_lt_mul_of_neg_left (div_lt_div_of_pos_right (by linarith) hN0) hneg
      rw [sub_div, mul_sub, hyt, hdn, sub_neg_eq_add] at h3
      exact unear_gt k2 h3
    · obtain ⟨k1, k2⟩ := key m hm
      rw [hS, hat _ k1, not_le] at h
      by_contra hc
      have h3 : rv high * (m / 2 ^ 52) < rv high * ((y + d) / 2 ^ 52) :=
        mul_lt_mul_of_neg_left (div_lt_div_of_pos_right (by linarith) hN0) hneg
      rw [add_div, mul_add, hyt, hdn] at h3
      exact lt_irrefl _ ((unear_lt k2 h).trans (by rwa [← sub_eq_add_neg] at h3))
    · rw [hN]; exact hfin

/-- The parameters of a uniform distribution that C92 covers, and a threshold. -/
structure UniformTrial where
  low : F64
  high : F64
  t : ℝ
  low_fin : low.IsFin
  low_le : |rv low| ≤ 2 ^ 900
  high_fin : high.IsFin
  high_ge : 1 / 2 ^ 900 ≤ |rv high|
  high_le : |rv high| ≤ 2 ^ 900

theorem unitCdf_bounds (x : ℝ) : 0 ≤ unitCdf x ∧ unitCdf x ≤ 1 := ⟨le_max_left _ _, max_le zero_le_one (min_le_left _ _)⟩

/-- C92: the joint distribution of successive draws of `Uniform`, each with its own parameters, is the product of uniform distributions,
up to the errors for each draw. -/
theorem C92_uniforms (fused : Bool) (l : List UniformTrial) :
    |prob l.length (AllGood (l.map fun q => ⟨uniform fused q.low q.high tape, AtMost q.t⟩)) -
      (l.map fun q => if 0 < rv q.high then unitCdf ((q.t - rv q.low) / rv q.high) else
        1 - unitCdf ((q.t - rv q.low) / rv q.high)).prod| ≤
        (l.map fun q => 1 / 2 ^ 49 + |rv q.low| / |rv q.high| / 2 ^ 52).sum := by
  have h := C72_independent (l.map fun q => ((⟨uniform fused q.low q.high tape, AtMost q.t⟩ : Trial (List U64)), 1))
    (fun t ht => by
      obtain ⟨q, -, rfl⟩ := List.mem_map.mp ht
      exact LibCall.uniform ..)
  rw [List.map_map, List.map_map, List.map_map] at h
  have h0 : (l.map ((fun t : Trial (List U64) × Nat => t.2) ∘
      fun q => ((⟨uniform fused q.low q.high tape, AtMost q.t⟩ : Trial (List U64)), 1))).sum = l.length := by
    have := sum_const_map l 1
    rw [Nat.mul_one] at this
    exact this
  rw [h0] at h
  refine le_trans (le_of_eq (congrArg (fun x => |x - _|) h)) ?_
  refine abs_prod_sub_prod_le l _ _ _ (fun q _ => ⟨prob_nonneg _ _, prob_le_one _ _⟩) (fun q _ => ?_) fun q _ => ?_
  · have := unitCdf_bounds ((q.t - rv q.low) / rv q.high)
    split
    · exact this
    · constructor <;> linarith [this.1, this.2]
  have hq := C92_uniform fused q.low q.high q.low_fin q.low_le q.high_fin q.high_ge q.high_le q.t
  have e : prob 1 (AllGood [⟨uniform fused q.low q.high tape, AtMost q.t⟩]) =
      prob 1 (fun w => ∃ r rest, uniform fused q.low q.high tape w = .ok (r, rest) ∧ AtMost q.t r) :=
    prob_congr fun w _ => allGood_one _ _ w
  rw [← e] at hq
  exact hq

/-! ### Non-vacuity -/

theorem rv_small (n : Nat) (hn : n < 2 ^ 53) : rv (F64.ofNat n) = n := by
  unfold rv
  rw [ofNat_exact n hn, val_scaled n 1074 0 rfl, pow_zero, div_one, Rat.cast_natCast]

/-- `Uniform{Low: 3, High: 4}` draws a number that is at most 5 (not: 3 + 1/2) with probability 1/2, up to `2^-48`. -/
example : |prob 1 (fun w => ∃ r rest, uniform false (F64.ofNat 3) (F64.ofNat 4) tape w = .ok (r, rest) ∧ AtMost 5 r) - 1 / 2| ≤ 1 / 2 ^ 48 := by
  have h3 := rv_small 3 (by decide)
  have h4 := rv_small 4 (by decide)
  have hbig : (4 : ℝ) ≤ 2 ^ 900 := by
    obtain ⟨k, hk⟩ : ∃ k, 900 = k := ⟨_, rfl⟩
    have h2 : 2 ≤ k := by omega
    rw [hk]
    exact (by norm_num : (4 : ℝ) ≤ 2 ^ 2).trans (pow_le_pow_right₀ (by norm_num) h2)
  have hsm : (1 : ℝ) / 2 ^ 900 ≤ 1 := by
    obtain ⟨k, hk⟩ : ∃ k, 900 = k := ⟨_, rfl⟩
    rw [hk] at hbig ⊢
    rw [div_le_one (by positivity)]
    linarith
  have := C92_uniform false (F64.ofNat 3) (F64.ofNat 4) (by rw [ofNat_exact 3 (by decide)]; trivial)
    (by rw [h3, Nat.cast_ofNat, abs_of_pos (by norm_num)]; linarith) (by rw [ofNat_exact 4 (by decide)]; trivial)
    (by rw [h4, Nat.cast_ofNat, abs_of_pos (by norm_num)]; linarith)
    (by rw [h4, Nat.cast_ofNat, abs_of_pos (by norm_num)]; exact hbig) 5
  rw [h3, h4, Nat.cast_ofNat, Nat.cast_ofNat, if_pos (by norm_num)] at this
  have e : unitCdf ((5 - 3) / 4) = 1 / 2 := by unfold unitCdf; norm_num
  rw [e] at this
  refine this.trans ?_
  rw [abs_of_pos (by norm_num : (0 : ℝ) < 3), abs_of_pos (by norm_num : (0 : ℝ) < 4)]
  norm_num

end Crazy
