/-
Sequences of maximal period modulo 2: they visit all states, and how far their sums with others of short period are balanced.
-/
import Verif.Proofs.SeqPoly
import Verif.Proofs.Gf2
import Verif.Props.CallPeriod
import Mathlib.Algebra.Order.BigOperators.Ring.Finset
import Mathlib.Algebra.BigOperators.Ring.Finset
import Mathlib.Data.Fintype.BigOperators
import Mathlib.Tactic.LinearCombination
import Mathlib.Tactic.Linarith
import Mathlib.Tactic.Positivity
namespace Crazy.Kron
open Polynomial

theorem aeval_shift_sum {R : Type} [CommRing R] (P : R[X]) (s : ℕ → R) (k : Nat) :
    aeval (shift R) P s k = ∑ i ∈ Finset.range (P.natDegree + 1), P.coeff i * s (k + i) := by
  rw [aeval_eq_sum_range, LinearMap.sum_apply, Finset.sum_apply]
  refine Finset.sum_congr rfl fun i _ => ?_
  rw [LinearMap.smul_apply, Pi.smul_apply, shift_pow, smul_eq_mul]

theorem seq_period {f : (ZMod 2)[X]} {a : ℕ → ZMod 2} (ha : aeval (shift (ZMod 2)) f a = 0) (hne : a ≠ 0) {N : Nat} (hN : 0 < N) (h1 : f ∣ X ^ N - 1)
    (hq : ∀ q, q.Prime → q ∣ N → ∃ U : (ZMod 2)[X], f ∣ U * (X ^ (N / q) - 1) - 1) (d : Nat) : (∀ n, a (n + d) = a n) ↔ N ∣ d := by
  have per : ∀ n, a (n + N) = a n := fun n => by
    have := congrFun (act_of_dvd ha h1) n
    rwa [aeval_X_pow_shift, map_one, Module.End.one_apply] at this
  constructor
  · intro h
    have h2 := per_gcd a _ _ hN per h
    by_contra hc
    have h3 : Nat.gcd N d ≠ N := fun e => hc (e ▸ Nat.gcd_dvd_right _ d)
    obtain ⟨m, hm⟩ := Nat.gcd_dvd_left N d
    have hm1 : m ≠ 1 := fun e => h3 (by rw [e, Nat.mul_one] at hm; exact hm.symm)
    obtain ⟨q, hqp, r, rfl⟩ := Nat.exists_prime_and_dvd hm1
    have e1 : N / q = Nat.gcd N d * r := by
      conv_lhs => rw [hm, Nat.mul_left_comm, Nat.mul_div_cancel_left _ hqp.pos]
    obtain ⟨U, hU⟩ := hq q hqp (by rw [hm]; exact Dvd.dvd.mul_left (Nat.dvd_mul_right q r) _)
    have mul : ∀ r n, a (n + Nat.gcd N d * r) = a n := fun r => by
      induction r with
      | zero => intro n; rfl
      | succ r ih => intro n; rw [Nat.mul_succ, ← Nat.add_assoc, h2, ih]
    have h4 : aeval (shift (ZMod 2)) (X ^ (N / q) - 1 : (ZMod 2)[X]) a = 0 := by
      funext n
      rw [map_sub, LinearMap.sub_apply, Pi.sub_apply, aeval_X_pow_shift, map_one, Module.End.one_apply, e1, mul, sub_self]
      rfl
    have h5 := act_of_dvd ha hU
    rw [map_mul, Module.End.mul_apply, h4, map_zero, map_one, Module.End.one_apply] at h5
    exact hne h5.symm
  · rintro ⟨r, rfl⟩
    induction r with
    | zero => intro n; rfl
    | succ r ih => intro n; rw [Nat.mul_succ, ← Nat.add_assoc, per, ih]

/-- A sequence of zeros and ones with a recurrence of order `D` and the longest period it can have. -/
structure MSeq (g : (ZMod 2)[X]) (D : Nat) (a : ℕ → ZMod 2) : Prop where
  monic : g.Monic
  deg : g.natDegree = D
  pos : 0 < D
  ne : a ≠ 0
  annih : aeval (shift (ZMod 2)) g a = 0
  period : ∀ d, (∀ n, a (n + d) = a n) ↔ 2 ^ D - 1 ∣ d

section
variable {g : (ZMod 2)[X]} {D : Nat}

theorem sol_zero (hm : g.Monic) (hd : g.natDegree = D) {c : ℕ → ZMod 2} (hc : aeval (shift (ZMod 2)) g c = 0) (k : Nat)
    (h0 : ∀ i < D, c (k + i) = 0) (n : Nat) : c (k + n) = 0 := by
  induction n using Nat.strong_induction_on with
  | _ n ih =>
    rcases Nat.lt_or_ge n D with h | h
    · exact h0 n h
    · obtain ⟨m, rfl⟩ := Nat.exists_eq_add_of_le h
      have h1 := congrFun hc (k + m)
      rw [aeval_shift_sum, hd, Finset.sum_range_succ, Finset.sum_eq_zero fun i hi => ?_, zero_add] at h1
      · have : g.coeff D = 1 := by rw [← hd]; exact hm
        rw [this, one_mul] at h1
        rw [show k + (D + m) = k + m + D by omega, h1]
        rfl
      · have := Finset.mem_range.1 hi
        rw [Nat.add_assoc, ih (m + i) (by omega), mul_zero]

theorem sol_shift {c : ℕ → ZMod 2} (hc : aeval (shift (ZMod 2)) g c = 0) (k : Nat) : aeval (shift (ZMod 2)) g (fun n => c (n + k)) = 0 := by
  have e : (fun n => c (n + k)) = aeval (shift (ZMod 2)) (X ^ k : (ZMod 2)[X]) c := by
    funext n
    rw [aeval_X_pow_shift]
  rw [e, ← Module.End.mul_apply, ← map_mul, mul_comm, map_mul, Module.End.mul_apply, hc, map_zero]

theorem sol_add {c d : ℕ → ZMod 2} (hc : aeval (shift (ZMod 2)) g c = 0) (hd : aeval (shift (ZMod 2)) g d = 0) :
    aeval (shift (ZMod 2)) g (fun n => c n + d n) = 0 := by
  have := map_add (aeval (shift (ZMod 2)) g) c d
  rw [hc, hd, add_zero] at this
  exact this

/-- The states of a sequence. -/
def stateOf (D : Nat) (a : ℕ → ZMod 2) (n : Nat) : Fin D → ZMod 2 := fun i => a (n + i.val)

namespace MSeq
variable {a : ℕ → ZMod 2} (h : MSeq g D a)
include h

theorem one_lt : 1 ≤ 2 ^ D - 1 := by
  have := Nat.pow_le_pow_right (n := 2) (by decide) h.pos
  omega

theorem per (n : Nat) : a (n + (2 ^ D - 1)) = a n := (h.period _).2 (Nat.dvd_refl _) n

theorem ne_zero (n : Nat) : stateOf D a n ≠ 0 := fun h0 => by
  have h1 := fun m => sol_zero h.monic h.deg h.annih n (fun i hi => congrFun h0 ⟨i, hi⟩) m
  have z : ∀ m, a m = 0 := fun m => by
    have : ∀ r, a (m + (2 ^ D - 1) * r) = a m := fun r => (h.period _).2 (Nat.dvd_mul_right _ _) m
    rw [← this n]
    have := Nat.le_mul_of_pos_left n h.one_lt
    obtain ⟨t, ht⟩ := Nat.exists_eq_add_of_le (show n ≤ m + (2 ^ D - 1) * n by omega)
    rw [ht]
    exact h1 t
  exact h.ne (funext z)

theorem state_inj : Function.Injective fun n : Fin (2 ^ D - 1) => stateOf D a n.val := by
  have key : ∀ m k, m + k < 2 ^ D - 1 → stateOf D a m = stateOf D a (m + k) → k = 0 := fun m k hk e => by
    have h1 := sol_zero h.monic h.deg (sol_add h.annih (sol_shift h.annih k)) m fun i hi => by
      have := congrFun e ⟨i, hi⟩
      simp only [stateOf] at this
      rw [this, show m + k + i = m + i + k by omega]
      exact CharTwo.add_self_eq_zero _
    have h2 : ∀ n, a (n + k) = a n := fun n => by
      have e1 := h1 (n + (2 ^ D - 1) * m - m)
      have := Nat.le_mul_of_pos_left m h.one_lt
      rw [show m + (n + (2 ^ D - 1) * m - m) = n + (2 ^ D - 1) * m by omega] at e1
      have p : ∀ n, a (n + (2 ^ D - 1) * m) = a n := (h.period _).2 (Nat.dvd_mul_right _ _)
      rw [p, show n + (2 ^ D - 1) * m + k = n + k + (2 ^ D - 1) * m by omega, p] at e1
      exact (CharTwo.add_eq_zero.1 e1).symm
    exact Nat.eq_zero_of_dvd_of_lt ((h.period k).1 h2) (by omega)
  intro m n e
  refine Fin.ext ?_
  rcases Nat.le_total m.val n.val with hl | hl
  · obtain ⟨k, hk⟩ := Nat.exists_eq_add_of_le hl
    have := key m.val k (by have := n.isLt; omega) (by rw [← hk]; exact e)
    omega
  · obtain ⟨k, hk⟩ := Nat.exists_eq_add_of_le hl
    have := key n.val k (by have := m.isLt; omega) (by rw [← hk]; exact e.symm)
    omega

theorem reach (v : Fin D → ZMod 2) (hv : v ≠ 0) : ∃ n, stateOf D a n = v := by
  have hb : Function.Bijective fun n : Fin (2 ^ D - 1) => (⟨stateOf D a n.val, h.ne_zero _⟩ : {v : Fin D → ZMod 2 // ¬ v = 0}) := by
    rw [Fintype.bijective_iff_injective_and_card]
    refine ⟨fun m n e => h.state_inj (congrArg Subtype.val e), ?_⟩
    rw [Fintype.card_fin, Fintype.card_subtype_compl, Fintype.card_fun, ZMod.card, Fintype.card_fin, Fintype.card_unique]
  obtain ⟨n, hn⟩ := hb.2 ⟨v, hv⟩
  exact ⟨n.val, congrArg Subtype.val hn⟩

/-- Every other sequence with the same recurrence is the same one, started elsewhere. -/
theorem shift_of {c : ℕ → ZMod 2} (hc : aeval (shift (ZMod 2)) g c = 0) (hne : c ≠ 0) : ∃ k, ∀ n, c n = a (n + k) := by
  have h0 : stateOf D c 0 ≠ 0 := fun e => hne (funext fun n => by
    have := sol_zero h.monic h.deg hc 0 (fun i hi => congrFun e ⟨i, hi⟩) n
    rwa [Nat.zero_add] at this)
  obtain ⟨k, hk⟩ := h.reach _ h0
  refine ⟨k, fun n => ?_⟩
  have := sol_zero h.monic h.deg (sol_add hc (sol_shift h.annih k)) 0 (fun i hi => by
    have := congrFun hk ⟨i, hi⟩
    simp only [stateOf] at this
    rw [← this, Nat.zero_add, Nat.add_comm k]
    exact CharTwo.add_self_eq_zero _) n
  rw [Nat.zero_add] at this
  exact CharTwo.add_eq_zero.1 this

theorem of_sol {c : ℕ → ZMod 2} (hc : aeval (shift (ZMod 2)) g c = 0) (hne : c ≠ 0) : MSeq g D c where
  monic := h.monic
  deg := h.deg
  pos := h.pos
  ne := hne
  annih := hc
  period d := by
    obtain ⟨k, hk⟩ := h.shift_of hc hne
    rw [← h.period]
    simp only [hk]
    constructor
    · intro e n
      have p : ∀ n, a (n + (2 ^ D - 1) * k) = a n := (h.period _).2 (Nat.dvd_mul_right _ _)
      have e1 := e (n + (2 ^ D - 1) * k - k)
      have := Nat.le_mul_of_pos_left k h.one_lt
      rwa [show n + (2 ^ D - 1) * k - k + d + k = n + d + (2 ^ D - 1) * k by omega, show n + (2 ^ D - 1) * k - k + k = n + (2 ^ D - 1) * k by omega, p, p] at e1
    · intro e n
      rw [show n + d + k = n + k + d by omega, e]

end MSeq
end

/-! ### Sums of signs -/

/-- The sign of a bit. -/
def chi (x : ZMod 2) : ℤ := if x = 0 then 1 else -1

theorem chi_add (x y : ZMod 2) : chi (x + y) = chi x * chi y := by revert x y; decide

theorem chi_sq (x : ZMod 2) : chi x * chi x = 1 := by revert x; decide

theorem sum_shift (f : ℕ → ℤ) (P : Nat) (hf : ∀ n, f (n + P) = f n) (k : Nat) : ∑ n ∈ Finset.range P, f (n + k) = ∑ n ∈ Finset.range P, f n := by
  induction k with
  | zero => rfl
  | succ k ih =>
    rw [← ih]
    have h1 := Finset.sum_range_succ (fun n => f (n + k)) P
    have h2 := Finset.sum_range_succ' (fun n => f (n + k)) P
    have h3 : f (P + k) = f k := by rw [Nat.add_comm, hf]
    have h4 : ∀ n, n + 1 + k = n + (k + 1) := fun n => by omega
    simp only [h4, Nat.zero_add] at h2
    rw [h1, h3] at h2
    linarith

theorem sum_mult (f : ℕ → ℤ) (P A : Nat) (hf : ∀ n, f (n + P) = f n) : ∑ n ∈ Finset.range (P * A), f n = A * ∑ n ∈ Finset.range P, f n := by
  have h : ∀ A n, f (P * A + n) = f n := fun A => by
    induction A with
    | zero => intro n; rw [Nat.mul_zero, Nat.zero_add]
    | succ A ih => intro n; rw [Nat.mul_succ, show P * A + P + n = P * A + n + P by omega, hf, ih]
  induction A with
  | zero => simp
  | succ A ih =>
    rw [Nat.mul_succ, Finset.sum_range_add, ih]
    simp only [h]
    push_cast
    ring

namespace MSeq
variable {g : (ZMod 2)[X]} {D : Nat} {a : ℕ → ZMod 2} (h : MSeq g D a)
include h

theorem balance : ∑ n ∈ Finset.range (2 ^ D - 1), chi (a n) = -1 := by
  have hb : Function.Bijective fun n : Fin (2 ^ D - 1) => (⟨stateOf D a n.val, h.ne_zero _⟩ : {v : Fin D → ZMod 2 // ¬ v = 0}) := by
    rw [Fintype.bijective_iff_injective_and_card]
    refine ⟨fun m n e => h.state_inj (congrArg Subtype.val e), ?_⟩
    rw [Fintype.card_fin, Fintype.card_subtype_compl, Fintype.card_fun, ZMod.card, Fintype.card_fin, Fintype.card_unique]
  have e1 : ∑ n ∈ Finset.range (2 ^ D - 1), chi (a n) = ∑ v : {v : Fin D → ZMod 2 // ¬ v = 0}, chi (v.1 ⟨0, h.pos⟩) := by
    rw [Finset.sum_range, ← hb.sum_comp]
    rfl
  have e2 : ∑ v : Fin D → ZMod 2, chi (v ⟨0, h.pos⟩) = 0 := by
    have := Equiv.sum_comp (Equiv.addRight (Pi.single ⟨0, h.pos⟩ 1 : Fin D → ZMod 2)) fun v => chi (v ⟨0, h.pos⟩)
    simp only [Equiv.coe_addRight, Pi.add_apply, Pi.single_eq_same, chi_add] at this
    rw [← Finset.sum_mul, show chi 1 = -1 from rfl] at this
    linarith
  have e3 := Fintype.sum_eq_add_sum_compl (0 : Fin D → ZMod 2) fun v => chi (v ⟨0, h.pos⟩)
  rw [e2, Finset.sum_subtype (p := fun v => ¬ v = 0) _ (fun v => by simp)] at e3
  rw [e1]
  have : chi ((0 : Fin D → ZMod 2) ⟨0, h.pos⟩) = 1 := rfl
  rw [this] at e3
  linarith

theorem auto (d : Nat) (hd : ¬ 2 ^ D - 1 ∣ d) : ∑ n ∈ Finset.range (2 ^ D - 1), chi (a n + a (n + d)) = -1 := by
  refine (h.of_sol (sol_add h.annih (sol_shift h.annih d)) fun e => hd ((h.period d).1 fun n => ?_)).balance
  exact (CharTwo.add_eq_zero.1 (congrFun e n)).symm

theorem corr (γ : ℕ → ℤ) (hγ : ∀ n, γ n * γ n = 1) (Q : Nat) (hQ : ∀ n, γ (n + Q) = γ n) (A M : Nat) (hM : M = (2 ^ D - 1) * A) (hQM : Q ∣ M) (J : Nat)
    (hJ : ∀ j, 0 < j → j < J → ¬ 2 ^ D - 1 ∣ Q * j) : (J : ℤ) * (∑ n ∈ Finset.range M, chi (a n) * γ n) ^ 2 ≤ (M : ℤ) ^ 2 := by
  have aM : ∀ n, a (n + M) = a n := (h.period _).2 (by rw [hM]; exact Nat.dvd_mul_right _ _)
  have gm : ∀ r n, γ (n + Q * r) = γ n := fun r => by
    induction r with
    | zero => intro n; rfl
    | succ r ih => intro n; rw [Nat.mul_succ, ← Nat.add_assoc, hQ, ih]
  have gM : ∀ n, γ (n + M) = γ n := by
    obtain ⟨r, rfl⟩ := hQM
    exact gm r
  have e1 : ∀ j, ∑ n ∈ Finset.range M, chi (a (n + Q * j)) * γ n = ∑ n ∈ Finset.range M, chi (a n) * γ n := fun j => by
    rw [← sum_shift (fun n => chi (a n) * γ n) M (fun n => by rw [aM, gM]) (Q * j)]
    refine Finset.sum_congr rfl fun n _ => ?_
    rw [gm]
  have e2 : (J : ℤ) * ∑ n ∈ Finset.range M, chi (a n) * γ n = ∑ n ∈ Finset.range M, γ n * ∑ j ∈ Finset.range J, chi (a (n + Q * j)) := by
    simp only [Finset.mul_sum]
    rw [Finset.sum_comm]
    simp only [fun j n => mul_comm (γ n) (chi (a (n + Q * j))), e1]
    rw [Finset.sum_const, Finset.card_range, nsmul_eq_mul, Finset.mul_sum]
  have cs := Finset.sum_mul_sq_le_sq_mul_sq (Finset.range M) γ fun n => ∑ j ∈ Finset.range J, chi (a (n + Q * j))
  rw [← e2] at cs
  have e3 : ∑ n ∈ Finset.range M, γ n ^ 2 = M := by
    simp only [pow_two, hγ]
    rw [Finset.sum_const, Finset.card_range, nsmul_eq_mul, mul_one]
  have e4 : ∀ i j, i < j → j < J → ∑ n ∈ Finset.range M, chi (a (n + Q * i)) * chi (a (n + Q * j)) ≤ 0 := fun i j hij hj => by
    obtain ⟨r, rfl⟩ := Nat.exists_eq_add_of_lt hij
    have p : ∀ n, chi (a (n + (2 ^ D - 1)) + a (n + (2 ^ D - 1) + Q * (r + 1))) = chi (a n + a (n + Q * (r + 1))) := fun n => by
      rw [h.per, show n + (2 ^ D - 1) + Q * (r + 1) = n + Q * (r + 1) + (2 ^ D - 1) by omega, h.per]
    have pM : ∀ n, chi (a (n + M) + a (n + M + Q * (r + 1))) = chi (a n + a (n + Q * (r + 1))) := fun n => by
      rw [aM, show n + M + Q * (r + 1) = n + Q * (r + 1) + M by omega, aM]
    have s := sum_shift (fun n => chi (a n + a (n + Q * (r + 1)))) M pM (Q * i)
    have s2 := sum_mult (fun n => chi (a n + a (n + Q * (r + 1)))) _ A p
    rw [h.auto _ (hJ (r + 1) (by omega) (by omega)), ← hM] at s2
    have s3 := s.trans s2
    beta_reduce at s3
    have e : ∑ n ∈ Finset.range M, chi (a (n + Q * i)) * chi (a (n + Q * (i + r + 1))) =
        ∑ n ∈ Finset.range M, chi (a (n + Q * i) + a (n + Q * i + Q * (r + 1))) := Finset.sum_congr rfl fun n _ => by
      rw [chi_add, show n + Q * (i + r + 1) = n + Q * i + Q * (r + 1) by ring]
    rw [e, s3]
    have : (0 : ℤ) ≤ A := Int.natCast_nonneg _
    linarith
  have e5 : ∑ n ∈ Finset.range M, (∑ j ∈ Finset.range J, chi (a (n + Q * j))) ^ 2 ≤ J * M := by
    simp only [pow_two, Finset.sum_mul_sum]
    rw [Finset.sum_comm]
    have : ∀ i ∈ Finset.range J, ∑ n ∈ Finset.range M, ∑ j ∈ Finset.range J, chi (a (n + Q * i)) * chi (a (n + Q * j)) ≤ M := fun i hi => by
      rw [Finset.sum_comm]
      refine (Finset.sum_le_sum (g := fun j => if j = i then (M : ℤ) else 0) fun j hj => ?_).trans (le_of_eq ?_)
      · beta_reduce
        split
        · rename_i e
          subst e
          simp only [chi_sq]
          rw [Finset.sum_const, Finset.card_range, nsmul_eq_mul, mul_one]
        · rename_i e
          rcases Nat.lt_or_gt_of_ne e with hl | hl
          · refine le_of_eq_of_le (Finset.sum_congr rfl fun n _ => mul_comm _ _) (e4 j i hl (Finset.mem_range.1 hi))
          · exact e4 i j hl (Finset.mem_range.1 hj)
      · rw [Finset.sum_ite_eq' (Finset.range J) i, if_pos hi]
    refine (Finset.sum_le_sum this).trans (le_of_eq ?_)
    rw [Finset.sum_const, Finset.card_range, nsmul_eq_mul]
  rw [e3] at cs
  rcases Nat.eq_zero_or_pos J with rfl | hJ0
  · rw [Nat.cast_zero, zero_mul]
    exact sq_nonneg _
  · have hJp : (0 : ℤ) < J := by exact_mod_cast hJ0
    have hM0 : (0 : ℤ) ≤ M := Int.natCast_nonneg _
    have : (J : ℤ) * (J * (∑ n ∈ Finset.range M, chi (a n) * γ n) ^ 2) ≤ J * (M : ℤ) ^ 2 :=
      calc (J : ℤ) * (J * (∑ n ∈ Finset.range M, chi (a n) * γ n) ^ 2) = ((J : ℤ) * ∑ n ∈ Finset.range M, chi (a n) * γ n) ^ 2 := by ring
        _ ≤ (M : ℤ) * ((J : ℤ) * M) := cs.trans (mul_le_mul_of_nonneg_left e5 hM0)
        _ = J * (M : ℤ) ^ 2 := by ring
    exact le_of_mul_le_mul_left this hJp

/-- Sums of a few neighbouring elements are again such a sequence. -/
theorem parity (t : Finset Nat) (ht : t.Nonempty) (hD : ∀ i ∈ t, i < D) : MSeq g D fun n => ∑ i ∈ t, a (n + i) := by
  refine h.of_sol ?_ fun e => ?_
  · have e : (fun n => ∑ i ∈ t, a (n + i)) = aeval (shift (ZMod 2)) (∑ i ∈ t, X ^ i : (ZMod 2)[X]) a := by
      funext n
      rw [map_sum, LinearMap.sum_apply, Finset.sum_apply]
      simp only [aeval_X_pow_shift]
    rw [e, ← Module.End.mul_apply, ← map_mul, mul_comm, map_mul, Module.End.mul_apply, h.annih, map_zero]
  · obtain ⟨i, hi⟩ := ht
    obtain ⟨n, hn⟩ := h.reach (Pi.single ⟨i, hD i hi⟩ 1) (fun e => by
      have := congrFun e ⟨i, hD i hi⟩
      rw [Pi.single_eq_same] at this
      exact one_ne_zero this)
    have h1 := congrFun e n
    have h2 : ∀ j ∈ t, a (n + j) = if j = i then 1 else 0 := fun j hj => by
      have := congrFun hn ⟨j, hD j hj⟩
      simp only [stateOf] at this
      rw [this, Pi.single_apply]
      exact if_congr Fin.ext_iff rfl rfl
    beta_reduce at h1
    rw [Finset.sum_congr rfl h2, Finset.sum_ite_eq' t i, if_pos hi] at h1
    exact one_ne_zero h1

end MSeq

/-! ### Patterns -/

/-- From the sums of signs to the number of places where a pattern stands. -/
theorem pattern (p : ℕ → ZMod 2) (v : ℕ → ZMod 2) (M l : Nat) (ε : ℝ) (hε : 0 ≤ ε)
    (hS : ∀ t : Finset Nat, t.Nonempty → (∀ i ∈ t, i < l) → |((∑ n ∈ Finset.range M, chi (∑ i ∈ t, p (n + i)) : ℤ) : ℝ)| ≤ ε) :
    |(((Finset.range M).filter fun n => ∀ i < l, p (n + i) = v i).card : ℝ) - (M : ℝ) / 2 ^ l| ≤ ε := by
  have ind : ∀ n, ∏ i ∈ Finset.range l, (1 + chi (p (n + i) + v i)) = if ∀ i < l, p (n + i) = v i then 2 ^ l else 0 := fun n => by
    have two : ∀ x y : ZMod 2, 1 + chi (x + y) = if x = y then 2 else 0 := by decide
    split
    · rename_i h
      rw [Finset.prod_congr rfl (g := fun _ => 2) fun i hi => by rw [two, if_pos (h i (Finset.mem_range.1 hi))], Finset.prod_const, Finset.card_range]
    · rename_i h
      push Not at h
      obtain ⟨i, hi, hne⟩ := h
      exact Finset.prod_eq_zero (Finset.mem_range.2 hi) (by rw [two, if_neg hne])
  have sm : ∀ (t : Finset Nat) (f : ℕ → ZMod 2), ∏ i ∈ t, chi (f i) = chi (∑ i ∈ t, f i) := fun t f => by
    induction t using Finset.cons_induction with
    | empty => rfl
    | cons i t hi ih => rw [Finset.prod_cons, Finset.sum_cons, chi_add, ih]
  have e1 : (2 : ℤ) ^ l * (((Finset.range M).filter fun n => ∀ i < l, p (n + i) = v i).card : ℤ) =
      ∑ t ∈ (Finset.range l).powerset, chi (∑ i ∈ t, v i) * ∑ n ∈ Finset.range M, chi (∑ i ∈ t, p (n + i)) := by
    have := Finset.sum_congr rfl fun n (_ : n ∈ Finset.range M) => ind n
    rw [← Finset.sum_filter, Finset.sum_const, nsmul_eq_mul] at this
    rw [mul_comm, ← this]
    simp only [Finset.prod_one_add]
    rw [Finset.sum_comm]
    refine Finset.sum_congr rfl fun t _ => ?_
    rw [Finset.mul_sum]
    refine Finset.sum_congr rfl fun n _ => ?_
    rw [sm, Finset.sum_add_distrib, chi_add, mul_comm]
  have hz : ∅ ∈ (Finset.range l).powerset := Finset.empty_mem_powerset _
  rw [← Finset.add_sum_erase _ _ hz] at e1
  have e2 : chi (∑ i ∈ (∅ : Finset Nat), v i) * ∑ n ∈ Finset.range M, chi (∑ i ∈ (∅ : Finset Nat), p (n + i)) = (M : ℤ) := by
    simp only [Finset.sum_empty]
    rw [show chi 0 = 1 from rfl, Finset.sum_const, Finset.card_range, nsmul_eq_mul, mul_one, one_mul]
  rw [e2] at e1
  have e3 := congrArg (Int.cast : ℤ → ℝ) e1
  push_cast at e3
  have abs1 : ∀ x, |((chi x : ℤ) : ℝ)| = 1 := fun x => by
    unfold chi
    split <;> simp
  have bd : |∑ t ∈ (Finset.range l).powerset.erase ∅, ((chi (∑ i ∈ t, v i) : ℤ) : ℝ) * ∑ n ∈ Finset.range M, ((chi (∑ i ∈ t, p (n + i)) : ℤ) : ℝ)| ≤
      ((Finset.range l).powerset.erase ∅).card • ε := by
    refine (Finset.abs_sum_le_sum_abs _ _).trans (Finset.sum_le_card_nsmul _ _ _ fun t ht => ?_)
    rw [abs_mul, abs1, one_mul]
    have := hS t (Finset.nonempty_iff_ne_empty.2 (Finset.ne_of_mem_erase ht)) fun i hi =>
      Finset.mem_range.1 (Finset.mem_powerset.1 (Finset.mem_of_mem_erase ht) hi)
    push_cast at this
    exact this
  rw [Finset.card_erase_of_mem hz, Finset.card_powerset, Finset.card_range, nsmul_eq_mul] at bd
  have h2 : (0 : ℝ) < 2 ^ l := by positivity
  have e4 : (((Finset.range M).filter fun n => ∀ i < l, p (n + i) = v i).card : ℝ) - (M : ℝ) / 2 ^ l =
      (∑ t ∈ (Finset.range l).powerset.erase ∅, ((chi (∑ i ∈ t, v i) : ℤ) : ℝ) * ∑ n ∈ Finset.range M, ((chi (∑ i ∈ t, p (n + i)) : ℤ) : ℝ)) / 2 ^ l := by
    rw [eq_div_iff h2.ne', sub_mul, div_mul_cancel₀ _ h2.ne', mul_comm, e3]
    ring
  rw [e4, abs_div, abs_of_pos h2, div_le_iff₀ h2]
  refine bd.trans ?_
  rw [mul_comm]
  refine mul_le_mul_of_nonneg_left ?_ hε
  have : ((2 ^ l - 1 : Nat) : ℝ) ≤ ((2 ^ l : Nat) : ℝ) := by exact_mod_cast Nat.sub_le _ _
  push_cast at this
  exact this

end Crazy.Kron
