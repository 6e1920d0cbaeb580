/-
Taking every `L`-th state of a linear generator with a full cycle: how often the states of an affine subspace are met.

For a character `χ` (a map to ±1 that turns sums into products) that is not constant, the sum of `χ` over the states met has a square of at most
the number of all states (the sum of the squares over all starting points is known, by orthogonality, and the sum is the same from all the states
met). An affine subspace given by `r` equations is counted by `2^r` characters.
-/
import Verif.Proofs.Cycle
import Mathlib.Algebra.BigOperators.Ring.Finset
import Mathlib.Algebra.Order.BigOperators.Ring.Finset
import Mathlib.Tactic.Linarith
import Mathlib.Tactic.Ring
import Mathlib.Data.Finset.Powerset
namespace Crazy

/-- A map to ±1 that turns sums into products. -/
structure Sgn {V : Type} [AddCommGroup V] (χ : V → ℤ) : Prop where
  mul : ∀ a b, χ (a + b) = χ a * χ b
  sq : ∀ a, χ a * χ a = 1

namespace Sgn
variable {V : Type} [AddCommGroup V] {χ : V → ℤ}

theorem zero (h : Sgn χ) : χ 0 = 1 := by
  have h1 := h.mul 0 0
  rw [add_zero, h.sq] at h1
  exact h1

theorem sub (h : Sgn χ) (a b : V) : χ (a - b) = χ a * χ b := by
  have h1 := h.mul (a - b) b
  rw [sub_add_cancel] at h1
  rw [h1, mul_assoc, h.sq, mul_one]

theorem cases (h : Sgn χ) (a : V) : χ a = 1 ∨ χ a = -1 := mul_self_eq_one_iff.mp (h.sq a)

theorem sum_zero [Fintype V] (h : Sgn χ) {v : V} (hv : χ v = -1) : ∑ a, χ a = 0 := by
  have h1 : ∑ a, χ (v + a) = ∑ a, χ a := Fintype.sum_equiv (Equiv.addLeft v) _ _ fun a => rfl
  simp only [h.mul, hv] at h1
  rw [← Finset.mul_sum] at h1
  linarith

theorem prod {ι : Type} (e : ι → V → ℤ) (h : ∀ i, Sgn (e i)) (a : Finset ι) : Sgn (fun v => ∏ i ∈ a, e i v) where
  mul x y := by
    rw [← Finset.prod_mul_distrib]
    exact Finset.prod_congr rfl fun i _ => (h i).mul x y
  sq x := by
    rw [← Finset.prod_mul_distrib]
    exact Finset.prod_eq_one fun i _ => (h i).sq x

end Sgn

section
variable {V : Type} [AddCommGroup V] {step : V → V} {N : Nat}

theorem iter_sub (hadd : ∀ a b, step (a + b) = step a + step b) (n : Nat) (a b : V) : step^[n] (a - b) = step^[n] a - step^[n] b := by
  have h1 : ∀ n a b, step^[n] (a + b) = step^[n] a + step^[n] b := by
    intro n
    induction n with
    | zero => intro a b; rfl
    | succ n ih => intro a b; rw [Function.iterate_succ_apply, hadd, ih]; rfl
  have h2 := h1 n (a - b) b
  rw [sub_add_cancel] at h2
  rw [h2, add_sub_cancel_right]

/-- The number of different states met when every `L`-th state is taken. -/
theorem leap_mod (L N : Nat) (hN : 0 < N) (i j : Nat) : i * L ≡ j * L [MOD N] ↔ i ≡ j [MOD N / Nat.gcd N L] := by
  constructor
  · intro h
    exact Nat.ModEq.cancel_right_div_gcd hN h
  · intro h
    have h1 := Nat.ModEq.mul_right' (c := Nat.gcd N L) h
    rw [Nat.div_mul_cancel (Nat.gcd_dvd_left N L)] at h1
    obtain ⟨q, hq⟩ := Nat.gcd_dvd_right N L
    have h2 := h1.mul_right q
    rw [mul_assoc, mul_assoc, ← hq] at h2
    exact h2

/-- The sum of a character over the states met has a square of at most the number of all states. -/
theorem FullCycle.leap_sq [Fintype V] (h : FullCycle step 0 N) (hadd : ∀ a b, step (a + b) = step a + step b) (L : Nat) {χ : V → ℤ} (hχ : Sgn χ)
    {v : V} (hv : χ v = -1) {s : V} (hs : s ≠ 0) :
    (∑ j ∈ Finset.range (N / Nat.gcd N L), χ (step^[j * L] s)) ^ 2 ≤ Fintype.card V := by
  classical
  generalize hM : N / Nat.gcd N L = M
  have hM0 : 0 < M := by
    rw [← hM]
    exact Nat.div_pos (Nat.le_of_dvd h.pos (Nat.gcd_dvd_left _ _)) (Nat.gcd_pos_of_pos_left _ h.pos)
  have h0 : ∀ n, step^[n] (0 : V) = 0 := by
    intro n
    have := iter_sub hadd n (0 : V) 0
    rwa [sub_zero, sub_self] at this
  -- orthogonality
  have hdiff : ∀ i < M, ∀ j < M, i ≠ j → ∑ a : V, χ (step^[i * L] a) * χ (step^[j * L] a) = 0 := by
    intro i hi j hj hij
    have hinj : Function.Injective fun a : V => step^[i * L] a - step^[j * L] a := by
      intro a b hab
      by_contra hne
      have hd : a - b ≠ 0 := sub_ne_zero.mpr hne
      have e : step^[i * L] (a - b) = step^[j * L] (a - b) := by
        rw [iter_sub hadd, iter_sub hadd]
        have hab : step^[i * L] a - step^[j * L] a = step^[i * L] b - step^[j * L] b := hab
        rw [sub_eq_sub_iff_add_eq_add] at hab ⊢
        rw [hab, add_comm]
      rw [h.iter_inj hd, leap_mod L N h.pos, hM] at e
      exact hij (Nat.ModEq.eq_of_lt_of_lt e hi hj)
    have hb := Finite.injective_iff_bijective.mp hinj
    rw [← hχ.sum_zero hv, ← Fintype.sum_equiv (Equiv.ofBijective _ hb) (fun a => χ (step^[i * L] a) * χ (step^[j * L] a)) χ]
    intro a
    exact (hχ.sub _ _).symm
  have hall : ∑ a : V, (∑ j ∈ Finset.range M, χ (step^[j * L] a)) ^ 2 = M * Fintype.card V := by
    simp only [sq, Finset.sum_mul_sum]
    rw [Finset.sum_comm]
    rw [Finset.sum_congr rfl (g := fun _ => (Fintype.card V : ℤ))]
    · rw [Finset.sum_const, Finset.card_range, nsmul_eq_mul]
    · intro i hi
      rw [Finset.sum_comm, Finset.sum_eq_single i]
      · simp only [hχ.sq]
        rw [Finset.sum_const, Finset.card_univ, nsmul_eq_mul, mul_one]
      · intro j hj hji
        exact hdiff i (Finset.mem_range.mp hi) j (Finset.mem_range.mp hj) hji.symm
      · intro hi'
        exact absurd hi hi'
  -- the same sum from all the states met
  have hshift : ∀ k, ∑ j ∈ Finset.range M, χ (step^[j * L] (step^[k * L] s)) = ∑ j ∈ Finset.range M, χ (step^[j * L] s) := by
    intro k
    induction k with
    | zero => rw [Nat.zero_mul]; rfl
    | succ k ih =>
      rw [← ih]
      have e : ∀ j, step^[j * L] (step^[(k + 1) * L] s) = step^[(j + 1) * L] (step^[k * L] s) := by
        intro j
        rw [← Function.iterate_add_apply, ← Function.iterate_add_apply]
        exact congrArg (fun n => step^[n] s) (by ring)
      rw [Finset.sum_congr rfl fun j _ => congrArg χ (e j)]
      obtain ⟨m, rfl⟩ : ∃ m, M = m + 1 := ⟨M - 1, by omega⟩
      rw [Finset.sum_range_succ, Finset.sum_range_succ']
      congr 2
      have : step^[(m + 1) * L] (step^[k * L] s) = step^[0 * L] (step^[k * L] s) := by
        rw [h.iter_inj (h.iter_nz hs _), leap_mod L N h.pos, hM]
        exact Nat.modEq_zero_iff_dvd.mpr (dvd_refl _)
      exact this
  have hinj : Set.InjOn (fun k => step^[k * L] s) (Finset.range M : Set ℕ) := by
    intro i hi j hj hij
    have hi := Finset.mem_range.mp (Finset.mem_coe.mp hi)
    have hj := Finset.mem_range.mp (Finset.mem_coe.mp hj)
    have hij : step^[i * L] s = step^[j * L] s := hij
    rw [h.iter_inj hs, leap_mod L N h.pos, hM] at hij
    exact Nat.ModEq.eq_of_lt_of_lt hij hi hj
  have hle : ∑ a ∈ (Finset.range M).image (fun k => step^[k * L] s), (∑ j ∈ Finset.range M, χ (step^[j * L] a)) ^ 2 ≤
      ∑ a : V, (∑ j ∈ Finset.range M, χ (step^[j * L] a)) ^ 2 :=
    Finset.sum_le_sum_of_subset_of_nonneg (Finset.subset_univ _) fun _ _ _ => sq_nonneg _
  rw [hall, Finset.sum_image hinj, Finset.sum_congr rfl fun k _ => congrArg (· ^ 2) (hshift k), Finset.sum_const, Finset.card_range, nsmul_eq_mul] at hle
  exact le_of_mul_le_mul_left hle (by exact_mod_cast hM0)

/-- How often the states met lie in an affine subspace given by independent equations. -/
theorem FullCycle.leap_count [Fintype V] (h : FullCycle step 0 N) (hadd : ∀ a b, step (a + b) = step a + step b) (L B : Nat)
    (hB : Fintype.card V = B ^ 2) {ι : Type} [Fintype ι] [DecidableEq ι] (e : ι → V → ℤ) (he : ∀ i, Sgn (e i)) (w : ι → V)
    (hw : ∀ i, e i (w i) = -1) (hw' : ∀ i j, j ≠ i → e j (w i) = 1) (t : ι → ℤ) (ht : ∀ i, t i * t i = 1) {s : V} (hs : s ≠ 0)
    (P : V → Prop) [DecidablePred P] (hP : ∀ x, P x ↔ ∀ i, e i x = t i) :
    |2 ^ Fintype.card ι * (((Finset.range (N / Nat.gcd N L)).filter fun j => P (step^[j * L] s)).card : ℤ) - (N / Nat.gcd N L : ℕ)| ≤
      (2 ^ Fintype.card ι - 1) * B := by
  generalize hM : N / Nat.gcd N L = M
  have hind : ∀ x, ∏ i, (1 + t i * e i x) = if P x then 2 ^ Fintype.card ι else 0 := by
    intro x
    by_cases hx : P x
    · rw [if_pos hx, Finset.prod_congr rfl (g := fun _ => (2 : ℤ)), Finset.prod_const, Finset.card_univ]
      intro i _
      rw [(hP x).mp hx i, ht]
      rfl
    · rw [if_neg hx]
      obtain ⟨i, hi⟩ : ∃ i, e i x ≠ t i := by
        by_contra hc
        exact hx ((hP x).mpr fun i => not_not.mp fun h => hc ⟨i, h⟩)
      refine Finset.prod_eq_zero (Finset.mem_univ i) ?_
      rcases (he i).cases x with h1 | h1 <;> rcases mul_self_eq_one_iff.mp (ht i) with h2 | h2 <;> rw [h1, h2] at hi ⊢ <;>
        first | rfl | exact absurd rfl hi
  have hcount : (2 : ℤ) ^ Fintype.card ι * (((Finset.range M).filter fun j => P (step^[j * L] s)).card : ℤ) =
      ∑ a : Finset ι, (∏ i ∈ a, t i) * ∑ j ∈ Finset.range M, ∏ i ∈ a, e i (step^[j * L] s) := by
    have h1 : ∑ j ∈ Finset.range M, ∏ i, (1 + t i * e i (step^[j * L] s)) =
        (2 : ℤ) ^ Fintype.card ι * (((Finset.range M).filter fun j => P (step^[j * L] s)).card : ℤ) := by
      rw [Finset.sum_congr rfl fun j _ => hind _, ← Finset.sum_filter, Finset.sum_const, nsmul_eq_mul, mul_comm]
    rw [← h1]
    simp only [Finset.mul_sum]
    rw [Finset.sum_comm]
    refine Finset.sum_congr rfl fun j _ => ?_
    rw [Finset.prod_one_add, Finset.powerset_univ]
    exact Finset.sum_congr rfl fun a _ => Finset.prod_mul_distrib
  rw [hcount, ← Finset.add_sum_erase _ _ (Finset.mem_univ (∅ : Finset ι))]
  simp only [Finset.prod_empty, one_mul, Finset.sum_const, Finset.card_range, nsmul_eq_mul, mul_one]
  rw [add_sub_cancel_left]
  refine (Finset.abs_sum_le_sum_abs _ _).trans ?_
  have hterm : ∀ a ∈ (Finset.univ : Finset (Finset ι)).erase ∅,
      |(∏ i ∈ a, t i) * ∑ j ∈ Finset.range M, ∏ i ∈ a, e i (step^[j * L] s)| ≤ (B : ℤ) := by
    intro a ha
    obtain ⟨i, hi⟩ := Finset.nonempty_iff_ne_empty.mpr (Finset.ne_of_mem_erase ha)
    have h1 : |∏ i ∈ a, t i| = 1 := by
      rw [Finset.abs_prod]
      refine Finset.prod_eq_one fun i _ => ?_
      rcases mul_self_eq_one_iff.mp (ht i) with h2 | h2 <;> rw [h2] <;> rfl
    rw [abs_mul, h1, one_mul]
    have hv : (fun v => ∏ i ∈ a, e i v) (w i) = -1 := by
      show ∏ k ∈ a, e k (w i) = -1
      rw [Finset.prod_eq_single i]
      · exact hw i
      · exact fun k _ hk => hw' i k hk
      · exact fun hn => absurd hi hn
    have h2 := h.leap_sq hadd L (Sgn.prod e he a) hv hs
    rw [hM, hB] at h2
    rw [Nat.cast_pow] at h2
    exact abs_le_of_sq_le_sq h2 (Int.natCast_nonneg _)
  refine (Finset.sum_le_sum hterm).trans ?_
  rw [Finset.sum_const, Finset.card_erase_of_mem (Finset.mem_univ _), Finset.card_univ, Fintype.card_finset, nsmul_eq_mul,
    Nat.cast_sub Nat.one_le_two_pow]
  simp

end
end Crazy
