/-
C100: where an element ends up after a shuffle: the exact probabilities.
-/
import Verif.Props.IdealUintn
import Verif.Spec.Landing
import Mathlib.Analysis.SpecialFunctions.Complex.LogBounds
import Mathlib.Tactic.Ring
import Mathlib.Tactic.FieldSimp
import Mathlib.Tactic.Linarith
namespace Crazy

open Filter Topology

/-! ### Following one element -/

/-- Where what is at position `x` before step `k` ends up when the draws from step `k` on are `l`. -/
def follow (n : Nat) : Nat → List Nat → Fin n → Fin n
  | _, [], x => x
  | k, r :: l, x => follow n (k + 1) l (swp n k r x)

/-- The share of the draws from step `k` on that take what is at `x` to `p`. -/
noncomputable def reach (n k : Nat) (x p : Fin n) : ℝ := uniformShare n (n - k) fun l => follow n k l x = p

theorem reach_end (n : Nat) (x p : Fin n) : reach n n x p = if x = p then 1 else 0 := by
  unfold reach
  rw [Nat.sub_self, uniformShare_zero]
  exact if_congr Iff.rfl rfl rfl

theorem reach_step (n k : Nat) (h : k < n) (x p : Fin n) :
    reach n k x p = 1 / n * ∑ r : Fin n, reach n (k + 1) (Equiv.swap ⟨k, h⟩ r x) p := by
  unfold reach
  rw [show n - k = n - (k + 1) + 1 by omega, uniformShare_succ, Finset.sum_range, Finset.mul_sum]
  refine Finset.sum_congr rfl fun r _ => ?_
  simp only [follow, swp, h, r.isLt, and_self, dite_true, Fin.eta]

/-- Every position receives exactly one element. -/
theorem reach_total (n : Nat) (p : Fin n) (m : Nat) : ∀ k, n - k = m → k ≤ n → ∑ x, reach n k x p = 1 := by
  induction m with
  | zero =>
    intro k hk hk'
    obtain rfl : k = n := by omega
    simp [reach_end]
  | succ m ih =>
    intro k hk hk'
    have hlt : k < n := by omega
    have hn : (n : ℝ) ≠ 0 := Nat.cast_ne_zero.mpr (by omega)
    rw [Finset.sum_congr rfl fun x _ => reach_step n k hlt x p, ← Finset.mul_sum, Finset.sum_comm,
      Finset.sum_congr rfl fun r _ => (Equiv.sum_comp (Equiv.swap ⟨k, hlt⟩ r) fun y => reach n (k + 1) y p).trans
        (ih (k + 1) (by omega) (by omega))]
    rw [Finset.sum_const, Finset.card_univ, Fintype.card_fin, nsmul_eq_mul, mul_one, one_div, inv_mul_cancel₀ hn]

/-- Whatever is at position `k` before step `k` goes to a uniformly chosen position, so ends up anywhere with equal probability. -/
theorem reach_turn (n k : Nat) (h : k < n) (p : Fin n) : reach n k ⟨k, h⟩ p = 1 / n := by
  rw [reach_step n k h]
  simp only [Equiv.swap_apply_left]
  rw [reach_total n p _ (k + 1) rfl h, mul_one]

/-- What is elsewhere stays unless it is chosen. -/
theorem reach_other (n k : Nat) (h : k < n) (x p : Fin n) (hx : x ≠ ⟨k, h⟩) :
    reach n k x p = 1 / n * reach n (k + 1) ⟨k, h⟩ p + (1 - 1 / n) * reach n (k + 1) x p := by
  have hn : (n : ℝ) ≠ 0 := Nat.cast_ne_zero.mpr (by omega)
  have e : ∑ r : Fin n, reach n (k + 1) (Equiv.swap ⟨k, h⟩ r x) p =
      ∑ r : Fin n, (reach n (k + 1) x p + if r = x then reach n (k + 1) ⟨k, h⟩ p - reach n (k + 1) x p else 0) := by
    refine Finset.sum_congr rfl fun r _ => ?_
    by_cases hr : r = x
    · subst hr; simp
    · rw [if_neg hr, add_zero, Equiv.swap_apply_of_ne_of_ne hx (Ne.symm hr)]
  rw [reach_step n k h, e, Finset.sum_add_distrib, Finset.sum_const, Finset.card_univ, Fintype.card_fin, nsmul_eq_mul,
    Finset.sum_ite_eq' Finset.univ x, if_pos (Finset.mem_univ _)]
  field_simp
  ring

/-- Behind the hand. -/
theorem reach_behind (n : Nat) (p : Fin n) (m : Nat) : ∀ k, n - k = m → k ≤ n → ∀ x : Fin n, x.val < k →
    reach n k x p = if p.val < k then (if x = p then (1 - 1 / (n : ℝ)) ^ (n - k) else 0) else 1 / n * (1 - 1 / (n : ℝ)) ^ (n - 1 - p.val) := by
  induction m with
  | zero =>
    intro k hk hk' x hx
    obtain rfl : k = n := by omega
    rw [reach_end, if_pos p.isLt, Nat.sub_self, pow_zero]
  | succ m ih =>
    intro k hk hk' x hx
    have hlt : k < n := by omega
    have hn : (n : ℝ) ≠ 0 := Nat.cast_ne_zero.mpr (by omega)
    rw [reach_other n k hlt x p (fun h => by rw [h] at hx; exact Nat.lt_irrefl _ hx), ih (k + 1) (by omega) (by omega) ⟨k, hlt⟩ (Nat.lt_succ_self k),
      ih (k + 1) (by omega) (by omega) x (by omega)]
    rcases Nat.lt_trichotomy p.val k with hp | hp | hp
    · rw [if_pos (by omega : p.val < k + 1), if_pos (by omega : p.val < k + 1), if_pos hp, if_neg (fun h => by
        have := congrArg Fin.val h; simp at this; omega), mul_zero, zero_add]
      split
      · rw [← pow_succ', show n - (k + 1) + 1 = n - k by omega]
      · rw [mul_zero]
    · rw [if_pos (by omega : p.val < k + 1), if_pos (by omega : p.val < k + 1), if_neg (by omega : ¬ p.val < k), if_pos (Fin.ext hp.symm),
        if_neg (fun h => by rw [h] at hx; omega), mul_zero, add_zero, show n - (k + 1) = n - 1 - p.val by omega]
    · rw [if_neg (by omega), if_neg (by omega), if_neg (by omega)]
      field_simp
      ring

/-- Ahead of the hand. -/
theorem reach_ahead (n : Nat) (i p : Fin n) : ∀ k, k ≤ i.val →
    reach n 0 i p = (if k ≤ p.val then 1 / n * (1 - 1 / (n : ℝ)) ^ (n - 1 - p.val) * (1 - (1 - 1 / (n : ℝ)) ^ k)
      else 1 / n * (1 - 1 / (n : ℝ)) ^ (n - 1 - p.val)) + (1 - 1 / (n : ℝ)) ^ k * reach n k i p := by
  intro k
  have hn : (n : ℝ) ≠ 0 := Nat.cast_ne_zero.mpr (by have := i.isLt; omega)
  induction k with
  | zero => intro _; simp
  | succ k ih =>
    intro hk
    have hlt : k < n := by have := i.isLt; omega
    rw [ih (by omega), reach_other n k hlt i p (fun h => by rw [h] at hk; exact absurd hk (by simp)),
      reach_behind n p _ (k + 1) rfl (by omega) ⟨k, hlt⟩ (Nat.lt_succ_self k)]
    obtain ⟨q, hq⟩ : ∃ q : ℝ, 1 - 1 / (n : ℝ) = q := ⟨_, rfl⟩
    have hq' : 1 / (n : ℝ) = 1 - q := by rw [← hq]; ring
    rw [hq, hq']
    rcases Nat.lt_trichotomy p.val k with hp | hp | hp
    · rw [if_neg (by omega : ¬ k ≤ p.val), if_pos (by omega : p.val < k + 1), if_neg (by omega : ¬ k + 1 ≤ p.val),
        if_neg (fun h : (⟨k, hlt⟩ : Fin n) = p => by have := congrArg Fin.val h; simp at this; omega)]
      ring
    · rw [if_pos (by omega : k ≤ p.val), if_pos (by omega : p.val < k + 1), if_neg (by omega : ¬ k + 1 ≤ p.val),
        if_pos (Fin.ext hp.symm : (⟨k, hlt⟩ : Fin n) = p), show n - (k + 1) = n - 1 - p.val by omega]
      ring
    · rw [if_pos (by omega : k ≤ p.val), if_neg (by omega : ¬ p.val < k + 1), if_pos (by omega : k + 1 ≤ p.val)]
      ring

theorem reach_landing (n : Nat) (i p : Fin n) : reach n 0 i p = landing n i.val p.val := by
  rw [reach_ahead n i p i.val (Nat.le_refl _), reach_turn n i.val i.isLt, landing]
  split
  · simp only [div_eq_mul_inv]; ring
  · simp only [div_eq_mul_inv]; ring

/-! ### The shuffles -/

theorem follow_prod {n : Nat} (j : Fin n → Fin n) (m : Nat) : ∀ k, n - k = m → ∀ x : Fin n,
    (((List.finRange n).drop k).map fun i => Equiv.swap i (j i)).prod (follow n k (((List.finRange n).drop k).map fun i => (j i).val) x) = x := by
  induction m with
  | zero =>
    intro k hk x
    rw [List.drop_eq_nil_of_le (by simp; omega)]
    rfl
  | succ m ih =>
    intro k hk x
    have hlt : k < n := by omega
    have e : (List.finRange n).drop k = ⟨k, hlt⟩ :: (List.finRange n).drop (k + 1) := by
      rw [List.drop_eq_getElem_cons (by simp [hlt])]
      simp
    rw [e, List.map_cons, List.map_cons, List.prod_cons, follow.eq_2, Equiv.Perm.mul_apply, ih (k + 1) (by omega)]
    simp [swp, hlt]

theorem follow_iff {n : Nat} (j : Fin n → Fin n) (i p : Fin n) :
    follow n 0 (List.ofFn fun i => (j i).val) i = p ↔ shufflePerm j p = i := by
  have h := follow_prod j _ 0 rfl i
  rw [List.drop_zero, ← List.ofFn_eq_map, ← List.ofFn_eq_map] at h
  unfold shufflePerm
  constructor
  · rintro rfl; exact h
  · intro h'
    rw [← h'] at h
    exact ((List.ofFn fun i => Equiv.swap i (j i)).prod).injective (by rw [h']; rw [h'] at h; exact h)

/-- C100: of the `n^n` lists of swap partners, the share of those for which the element at position `i` ends up at position `p`. -/
theorem C100_count (n : Nat) (i p : Fin n) :
    (Nat.card {j : Fin n → Fin n // shufflePerm j p = i} : ℝ) / (n : ℝ) ^ n = landing n i.val p.val := by
  rw [← reach_landing, reach, uniformShare_fn, Nat.sub_zero]
  refine congrArg (fun x : Nat => (x : ℝ) / (n : ℝ) ^ n) (Nat.card_congr (Equiv.subtypeEquivRight fun j => (follow_iff j i p).symm))

/-- C100: on a source of independent, uniform words the slice shuffles take the element at position `i` to position `p` with probability
`landing N i p`, up to `N (2^-63 + 2^-(n+1))`, `n` bounding the rejections of each draw. -/
theorem C100_slice {α : Type} (n : Nat) (data : List α) (hd : data.Nodup) (hn : data.length < 2 ^ 63) (i p : Nat)
    (hi : i < data.length) (hp : p < data.length) :
    |prob (data.length * (n + 1)) (fun w => ∃ out rest, shuffleSlice tape n data w = .ok (out, rest) ∧ out[p]? = data[i]?) -
      landing data.length i p| ≤ data.length * (1 / 2 ^ 63 + 1 / 2 ^ (n + 1)) := by
  have h := C73_shuffle_any n data hn fun out => out[p]? = data[i]?
  have e : Nat.card {j : Fin data.length → Fin data.length // (permuted data (shufflePerm j))[p]? = data[i]?} =
      Nat.card {j : Fin data.length → Fin data.length // shufflePerm j ⟨p, hp⟩ = ⟨i, hi⟩} := by
    refine Nat.card_congr (Equiv.subtypeEquivRight fun j => ?_)
    rw [List.getElem?_eq_getElem hi, permuted, List.getElem?_ofFn, dif_pos hp, Option.some.injEq]
    constructor
    · intro h
      exact List.nodup_iff_injective_get.mp hd (h.trans (List.get_eq_getElem (l := data) (i := ⟨i, hi⟩)).symm)
    · intro h; rw [h]; rfl
  rw [e, C100_count data.length ⟨i, hi⟩ ⟨p, hp⟩] at h
  exact h

/-- C100: the same of `Shuffle` on a slice. -/
theorem C100_swapper {α : Type} (n : Nat) (data : List α) (hd : data.Nodup) (hn : data.length < 2 ^ 63) (i p : Nat)
    (hi : i < data.length) (hp : p < data.length) :
    |prob (data.length * (n + 1)) (fun w => ∃ out rest, shuffle (sliceSwapper α) tape n data w = .ok (out, rest) ∧ out[p]? = data[i]?) -
      landing data.length i p| ≤ data.length * (1 / 2 ^ 63 + 1 / 2 ^ (n + 1)) := by
  have h := C100_slice n data hd hn i p hi hp
  simpa only [C29_swapper_slice _ _ _ hn] using h

/-! ### What the probabilities say -/

/-- C100: the first element is equally likely to end up anywhere. -/
theorem C100_first (n p : Nat) : landing n 0 p = 1 / n := by
  simp [landing]

/-- C100: the last position receives each element with the same probability. -/
theorem C100_last (n i : Nat) (h : i < n) : landing n i (n - 1) = 1 / n := by
  simp [landing, show i ≤ n - 1 by omega]

/-- C100: the probabilities of all places add up to 1. -/
theorem C100_total (n : Nat) (i : Fin n) : ∑ p : Fin n, landing n i.val p.val = 1 := by
  have hn : (n : ℝ) ≠ 0 := Nat.cast_ne_zero.mpr (by have := i.isLt; omega)
  rw [Finset.sum_congr rfl fun p _ => (C100_count n i p).symm, ← Finset.sum_div, ← Nat.cast_sum]
  have h1 : Nat.card (Σ p : Fin n, {j : Fin n → Fin n // shufflePerm j p = i}) = Nat.card (Fin n → Fin n) := by
    refine Nat.card_congr ⟨fun x => x.2.1, fun j => ⟨(shufflePerm j).symm i, j, by simp⟩, ?_, fun j => rfl⟩
    rintro ⟨p, j, h⟩
    obtain rfl : p = (shufflePerm j).symm i := by rw [← h]; simp
    rfl
  rw [Nat.card_sigma] at h1
  rw [h1, Nat.card_eq_fintype_card, Fintype.card_fun, Fintype.card_fin, Nat.cast_pow, div_self (pow_ne_zero _ hn)]

/-- C100: and so do the probabilities of all elements. -/
theorem C100_total_place (n : Nat) (p : Fin n) : ∑ i : Fin n, landing n i.val p.val = 1 := by
  have h := reach_total n p _ 0 rfl (Nat.zero_le n)
  simpa only [reach_landing] using h

theorem power_limit : Tendsto (fun n : ℕ => (1 - 1 / (n : ℝ)) ^ n) atTop (𝓝 (Real.exp (-1))) := by
  have h := Real.tendsto_one_add_div_pow_exp (-1)
  refine h.congr fun n => ?_
  rw [neg_div, ← sub_eq_add_neg]

theorem power_limit' : Tendsto (fun n : ℕ => (1 - 1 / (n : ℝ)) ^ (n - 1)) atTop (𝓝 (Real.exp (-1))) := by
  have hq : Tendsto (fun n : ℕ => 1 - 1 / (n : ℝ)) atTop (𝓝 (1 - 0)) :=
    tendsto_const_nhds.sub tendsto_one_div_atTop_nhds_zero_nat
  have h := power_limit.div hq (by norm_num)
  rw [sub_zero, div_one] at h
  refine h.congr' ?_
  filter_upwards [eventually_ge_atTop 2] with n hn
  have hn' : (2 : ℝ) ≤ n := by exact_mod_cast hn
  have h0 : 1 - 1 / (n : ℝ) ≠ 0 := by
    have : 1 / (n : ℝ) ≤ 1 / 2 := one_div_le_one_div_of_le (by norm_num) hn'
    intro h; linarith
  have e : (1 - 1 / (n : ℝ)) ^ n = (1 - 1 / (n : ℝ)) ^ (n - 1) * (1 - 1 / (n : ℝ)) := by
    rw [← pow_succ, Nat.sub_add_cancel (by omega)]
  show (1 - 1 / (n : ℝ)) ^ n / (1 - 1 / (n : ℝ)) = _
  rw [e, mul_div_assoc, div_self h0, mul_one]

/-- C100: in a long slice the last element ends up last but one `1 + 1/e = 1.37` times as often as it should ... -/
theorem C100_last_but_one : Tendsto (fun n : ℕ => n * landing n (n - 1) (n - 2)) atTop (𝓝 (1 + Real.exp (-1))) := by
  have hq : Tendsto (fun n : ℕ => 1 - 1 / (n : ℝ)) atTop (𝓝 (1 - 0)) :=
    tendsto_const_nhds.sub tendsto_one_div_atTop_nhds_zero_nat
  rw [sub_zero] at hq
  refine (hq.add power_limit').congr' ?_
  filter_upwards [eventually_ge_atTop 2] with n hn
  have hn' : (n : ℝ) ≠ 0 := Nat.cast_ne_zero.mpr (by omega)
  unfold landing
  rw [if_neg (by omega), show n - 1 - (n - 2) = 1 by omega, pow_one, mul_div_cancel₀ _ hn', add_comm]

/-- C100: ... and first only `2/e = 0.74` times as often as it should. -/
theorem C100_last_to_first : Tendsto (fun n : ℕ => n * landing n (n - 1) 0) atTop (𝓝 (2 * Real.exp (-1))) := by
  have h := power_limit'.add power_limit'
  rw [← two_mul] at h
  refine h.congr' ?_
  filter_upwards [eventually_ge_atTop 2] with n hn
  have hn' : (n : ℝ) ≠ 0 := Nat.cast_ne_zero.mpr (by omega)
  unfold landing
  rw [if_neg (by omega), Nat.sub_zero, mul_div_cancel₀ _ hn']

/-- C100: no place is more than twice as probable as it should be, nor any impossible (from two elements on). -/
theorem C100_bounds (n i p : Nat) (h2 : 2 ≤ n) : 0 < landing n i p ∧ landing n i p < 2 / n := by
  have hn : (2 : ℝ) ≤ n := by exact_mod_cast h2
  have hn0 : (0 : ℝ) < n := by linarith
  have h1 : 1 / (n : ℝ) ≤ 1 / 2 := one_div_le_one_div_of_le (by norm_num) hn
  have h3 : 0 < 1 / (n : ℝ) := by positivity
  obtain ⟨q, hq⟩ : ∃ q : ℝ, 1 - 1 / (n : ℝ) = q := ⟨_, rfl⟩
  have q0 : 0 < q := by rw [← hq]; linarith
  have q1 : q < 1 := by rw [← hq]; linarith
  have a0 := pow_pos q0 i
  have a1 := pow_le_one₀ (n := i) q0.le q1.le
  have b0 := pow_pos q0 (n - 1 - p)
  have b1 := pow_le_one₀ (n := n - 1 - p) q0.le q1.le
  unfold landing
  rw [hq]
  split
  · refine ⟨div_pos (add_pos_of_pos_of_nonneg a0 (mul_nonneg b0.le (by linarith))) hn0, (div_lt_div_iff_of_pos_right hn0).mpr ?_⟩
    have : q ^ (n - 1 - p) * (1 - q ^ i) ≤ 1 * (1 - q ^ i) := mul_le_mul_of_nonneg_right b1 (by linarith)
    linarith
  · refine ⟨div_pos (by linarith) hn0, (div_lt_div_iff_of_pos_right hn0).mpr ?_⟩
    have : q ^ i < 1 := pow_lt_one₀ q0.le q1 (by omega)
    linarith

/-- Three elements: the last one ends up first with 8/27, last but one with 10/27, last with 9/27. -/
example : landing 3 2 0 = 8 / 27 ∧ landing 3 2 1 = 10 / 27 ∧ landing 3 2 2 = 9 / 27 := by
  refine ⟨?_, ?_, ?_⟩ <;> norm_num [landing]

example : (Finset.univ.filter fun j : Fin 3 → Fin 3 => shufflePerm j 1 = 2).card = 10 := by decide +kernel

/-- Non-vacuity: three distinct elements. -/
example : [7, 8, 9].Nodup ∧ [7, 8, 9].length < 2 ^ 63 ∧ 2 < [7, 8, 9].length := by decide

end Crazy
