/-
Probabilities over tapes, as averages over the first word.
-/
import Verif.Spec.Prob
import Verif.Proofs.Cycle
import Mathlib.Data.Set.Finite.List
import Mathlib.Algebra.BigOperators.Field
import Mathlib.Algebra.BigOperators.Fin
import Mathlib.Algebra.Order.BigOperators.Group.Finset
import Mathlib.Tactic.Linarith
import Mathlib.Tactic.Positivity
import Mathlib.Tactic.FieldSimp
import Mathlib.Tactic.Ring
namespace Crazy

/-- The mean of the first `N` values. -/
noncomputable def avg (N : Nat) (g : Nat → ℝ) : ℝ := (∑ x ∈ Finset.range N, g x) / N

theorem avg_congr {N : Nat} {g h : Nat → ℝ} (e : ∀ x < N, g x = h x) : avg N g = avg N h := by
  unfold avg
  rw [Finset.sum_congr rfl fun x hx => e x (Finset.mem_range.mp hx)]

theorem avg_add (N : Nat) (g h : Nat → ℝ) : avg N (fun x => g x + h x) = avg N g + avg N h := by
  unfold avg
  rw [Finset.sum_add_distrib, add_div]

theorem avg_mul_right (N : Nat) (g : Nat → ℝ) (c : ℝ) : avg N (fun x => g x * c) = avg N g * c := by
  unfold avg
  rw [← Finset.sum_mul, mul_div_right_comm]

theorem avg_const {N : Nat} (hN : 0 < N) (c : ℝ) : avg N (fun _ => c) = c := by
  unfold avg
  rw [Finset.sum_const, Finset.card_range, nsmul_eq_mul, mul_div_cancel_left₀]
  exact Nat.cast_ne_zero.mpr hN.ne'

theorem avg_mono {N : Nat} {g h : Nat → ℝ} (e : ∀ x < N, g x ≤ h x) : avg N g ≤ avg N h := by
  unfold avg
  exact div_le_div_of_nonneg_right (Finset.sum_le_sum fun x hx => e x (Finset.mem_range.mp hx)) (Nat.cast_nonneg _)

theorem avg_nonneg {N : Nat} {g : Nat → ℝ} (e : ∀ x < N, 0 ≤ g x) : 0 ≤ avg N g := by
  unfold avg
  exact div_nonneg (Finset.sum_nonneg fun x hx => e x (Finset.mem_range.mp hx)) (Nat.cast_nonneg _)

theorem avg_le_one {N : Nat} {g : Nat → ℝ} (e : ∀ x < N, g x ≤ 1) : avg N g ≤ 1 := by
  rcases Nat.eq_zero_or_pos N with rfl | h
  · unfold avg; simp
  · exact (avg_mono e).trans (avg_const h 1).le

theorem sum_range_mul (a b : Nat) (g : Nat → ℝ) :
    ∑ x ∈ Finset.range (a * b), g x = ∑ i ∈ Finset.range a, ∑ j ∈ Finset.range b, g (i * b + j) := by
  induction a with
  | zero => simp
  | succ a ih => rw [Nat.succ_mul, Finset.sum_range_add, ih, Finset.sum_range_succ]

theorem avg_split (a b : Nat) (g : Nat → ℝ) : avg (a * b) g = avg a (fun i => avg b fun j => g (i * b + j)) := by
  unfold avg
  rw [sum_range_mul, ← Finset.sum_div, div_div, Nat.cast_mul, mul_comm (a : ℝ)]

/-- The mean of a function of a remainder. -/
theorem avg_mod (a b : Nat) (ha : 0 < a) (g : Nat → ℝ) : avg (a * b) (fun x => g (x % b)) = avg b g := by
  rw [avg_split]
  refine (avg_congr fun i _ => ?_).trans (avg_const ha _)
  refine avg_congr fun j hj => ?_
  rw [Nat.mul_comm, Nat.mul_add_mod, Nat.mod_eq_of_lt hj]

theorem avg_ite_le {N K : Nat} (hK : K ≤ N) (hN : 0 < N) (g : Nat → ℝ) (c : ℝ) :
    avg N (fun j => if j < K then g j else c) = (∑ j ∈ Finset.range K, g j) / N + (1 - (K : ℝ) / N) * c := by
  unfold avg
  have hN' : (N : ℝ) ≠ 0 := Nat.cast_ne_zero.mpr hN.ne'
  obtain ⟨d, rfl⟩ := Nat.exists_eq_add_of_le hK
  rw [Finset.sum_range_add, Finset.sum_congr rfl fun x hx => if_pos (Finset.mem_range.mp hx),
    Finset.sum_congr (s₁ := Finset.range d) rfl fun x _ => if_neg (by omega), Finset.sum_const, Finset.card_range, nsmul_eq_mul]
  push_cast at hN' ⊢
  field_simp
  ring

/-- How many lists of `k` words satisfy `P`. -/
noncomputable def tapes (k : Nat) (P : List U64 → Prop) : Nat := Nat.card {t : List U64 // t.length = k ∧ P t}

instance finite_tapes (k : Nat) (P : List U64 → Prop) : Finite {t : List U64 // t.length = k ∧ P t} :=
  Set.Finite.subset (List.finite_length_eq U64 k) fun _ h => h.1

theorem tapes_zero (P : List U64 → Prop) [Decidable (P [])] : tapes 0 P = if P [] then 1 else 0 := by
  unfold tapes
  split
  · next h =>
    rw [Nat.card_eq_one_iff_unique]
    exact ⟨⟨fun a b => Subtype.ext (by
      rw [List.length_eq_zero_iff.mp a.2.1, List.length_eq_zero_iff.mp b.2.1])⟩, ⟨⟨[], rfl, h⟩⟩⟩
  · next h =>
    rw [Nat.card_eq_zero]
    left
    exact ⟨fun a => h (by have := a.2.2; rwa [List.length_eq_zero_iff.mp a.2.1] at this)⟩

theorem tapes_succ (k : Nat) (P : List U64 → Prop) :
    tapes (k + 1) P = ∑ x ∈ Finset.range (2 ^ 64), tapes k (fun t => P (BitVec.ofNat 64 x :: t)) := by
  obtain ⟨e, he⟩ : ∃ e, e = 64 := ⟨_, rfl⟩
  rw [show (2 : Nat) ^ 64 = 2 ^ e by rw [he]]
  let E : {t : List U64 // t.length = k + 1 ∧ P t} ≃
      (x : Fin (2 ^ e)) × {t : List U64 // t.length = k ∧ P (BitVec.ofNat 64 x :: t)} := {
    toFun := fun t => match t with
      | ⟨w :: t, h⟩ => ⟨⟨w.toNat, he ▸ w.isLt⟩, ⟨t, by simpa using h.1, by
        show P (BitVec.ofNat 64 w.toNat :: t)
        rw [BitVec.ofNat_toNat, BitVec.setWidth_eq]
        exact h.2⟩⟩
    invFun := fun q => ⟨BitVec.ofNat 64 q.1 :: q.2.1, by simpa using q.2.2.1, q.2.2.2⟩
    left_inv := by
      rintro ⟨_ | ⟨w, t⟩, h1, h2⟩
      · cases h1
      · refine Subtype.ext ?_
        show BitVec.ofNat 64 w.toNat :: t = w :: t
        rw [BitVec.ofNat_toNat, BitVec.setWidth_eq]
    right_inv := by
      rintro ⟨x, t, h1, h2⟩
      have hx : x.val < 2 ^ 64 := lt_of_lt_of_eq x.isLt (congrArg (fun a => 2 ^ a) he)
      have e1 : (⟨(BitVec.ofNat 64 x.val).toNat, he ▸ (BitVec.ofNat 64 x.val).isLt⟩ : Fin (2 ^ e)) = x :=
        Fin.ext ((BitVec.toNat_ofNat x.val 64).trans (Nat.mod_eq_of_lt hx))
      refine Sigma.ext e1 ?_
      refine (Subtype.heq_iff_coe_eq fun t => ?_).mpr rfl
      rw [show (BitVec.ofNat 64 (BitVec.ofNat 64 x.val).toNat) = BitVec.ofNat 64 x.val by
        rw [BitVec.ofNat_toNat, BitVec.setWidth_eq]] }
  unfold tapes
  rw [Nat.card_congr E, Nat.card_sigma, Finset.sum_range]

theorem tapes_true (k : Nat) : tapes k (fun _ => True) = (2 ^ 64) ^ k := by
  induction k with
  | zero => classical rw [tapes_zero, if_pos trivial, pow_zero]
  | succ k ih =>
    rw [tapes_succ]
    simp only [ih]
    rw [Finset.sum_const, Finset.card_range, smul_eq_mul, pow_succ (2 ^ 64) k, Nat.mul_comm]

theorem prob_eq (k : Nat) (P : List U64 → Prop) : prob k P = (tapes k P : ℝ) / ((2 : ℝ) ^ 64) ^ k := by
  unfold prob
  have : Nat.card {t : List U64 // t.length = k} = (2 ^ 64) ^ k := by
    rw [← tapes_true k]
    unfold tapes
    exact Nat.card_congr (Equiv.subtypeEquivRight fun t => (and_iff_left trivial).symm)
  rw [this, Nat.cast_pow, Nat.cast_pow, Nat.cast_ofNat]
  rfl

theorem prob_zero (P : List U64 → Prop) [Decidable (P [])] : prob 0 P = if P [] then 1 else 0 := by
  rw [prob_eq, tapes_zero, pow_zero, div_one]
  split <;> simp

/-- The first word and the others. -/
theorem prob_succ (k : Nat) (P : List U64 → Prop) :
    prob (k + 1) P = avg (2 ^ 64) (fun x => prob k (fun t => P (BitVec.ofNat 64 x :: t))) := by
  rw [prob_eq, tapes_succ]
  unfold avg
  simp only [prob_eq]
  rw [← Finset.sum_div, div_div, ← Nat.cast_sum, pow_succ _ k, Nat.cast_pow, Nat.cast_ofNat]

theorem prob_congr {k : Nat} {P Q : List U64 → Prop} (h : ∀ t, t.length = k → (P t ↔ Q t)) : prob k P = prob k Q := by
  unfold prob
  rw [Nat.card_congr (Equiv.subtypeEquivRight fun t => and_congr_right fun ht => h t ht)]

theorem prob_true (k : Nat) : prob k (fun _ => True) = 1 := by
  rw [prob_eq, tapes_true, Nat.cast_pow, Nat.cast_pow, Nat.cast_ofNat, div_self]
  positivity

theorem prob_false (k : Nat) : prob k (fun _ => False) = 0 := by
  unfold prob
  have : IsEmpty {t : List U64 // t.length = k ∧ False} := ⟨fun t => t.2.2⟩
  rw [Nat.card_of_isEmpty, Nat.cast_zero, zero_div]

theorem prob_nonneg (k : Nat) (P : List U64 → Prop) : 0 ≤ prob k P := by
  unfold prob
  positivity

theorem prob_mono {k : Nat} {P Q : List U64 → Prop} (h : ∀ t, t.length = k → P t → Q t) : prob k P ≤ prob k Q := by
  rw [prob_eq, prob_eq]
  refine div_le_div_of_nonneg_right (Nat.cast_le.mpr ?_) (by positivity)
  unfold tapes
  exact Nat.card_le_card_of_injective (fun t => ⟨t.1, t.2.1, h _ t.2.1 t.2.2⟩)
    fun a b e => Subtype.ext (congrArg (fun q : {t : List U64 // t.length = k ∧ Q t} => q.1) e)

theorem prob_le_one (k : Nat) (P : List U64 → Prop) : prob k P ≤ 1 :=
  (prob_mono fun _ _ _ => trivial).trans (prob_true k).le

/-- Two words and the others. -/
theorem prob_two (k : Nat) (P : List U64 → Prop) : prob (k + 2) P =
    avg (2 ^ 64) (fun x => avg (2 ^ 64) fun y => prob k (fun t => P (BitVec.ofNat 64 x :: BitVec.ofNat 64 y :: t))) := by
  rw [prob_succ]
  exact avg_congr fun x _ => prob_succ k _

end Crazy
