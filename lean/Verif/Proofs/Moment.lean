/-
Averages of bounded quantities as integrals of probabilities.
-/
import Verif.Spec.Moment
import Verif.Proofs.Prob
import Mathlib.MeasureTheory.Integral.IntervalIntegral.FundThmCalculus
import Mathlib.MeasureTheory.Integral.IntervalIntegral.IntegrationByParts
namespace Crazy
open MeasureTheory Set

instance finite_len (k : Nat) : Finite {t : List U64 // t.length = k} :=
  Set.Finite.subset (finite_tapes k fun _ => True) fun _ ht => ⟨ht, trivial⟩

theorem layer (A B x : ℝ) (f ψ : ℝ → ℝ) (hf : ∀ t, HasDerivAt f (ψ t) t) (hψ : Continuous ψ) (h1 : A ≤ x) (h2 : x ≤ B) :
    IntervalIntegrable ((Iio x).indicator ψ) volume A B ∧ ∫ t in A..B, (Iio x).indicator ψ t = f x - f A := by
  have hB : A ≤ B := h1.trans h2
  refine ⟨?_, ?_⟩
  · rw [intervalIntegrable_iff_integrableOn_Ioc_of_le hB]
    exact Integrable.indicator ((hψ.intervalIntegrable A B).1) measurableSet_Iio
  · rw [intervalIntegral.integral_of_le hB, setIntegral_indicator measurableSet_Iio]
    have e : Ioc A B ∩ Iio x = Ioo A x := by
      ext t
      simp only [mem_inter_iff, mem_Ioc, mem_Iio, mem_Ioo]
      constructor
      · rintro ⟨⟨h3, -⟩, h4⟩; exact ⟨h3, h4⟩
      · rintro ⟨h3, h4⟩; exact ⟨⟨h3, h4.le.trans h2⟩, h4⟩
    rw [e, ← integral_Ioc_eq_integral_Ioo, ← intervalIntegral.integral_of_le h1]
    exact intervalIntegral.integral_eq_sub_of_hasDerivAt (fun t _ => hf t) (hψ.intervalIntegrable _ _)

open Classical in
theorem prob_sum (k : Nat) (P : List U64 → Prop) [Fintype {t : List U64 // t.length = k}] :
    prob k P = (∑ t : {t : List U64 // t.length = k}, if P t.1 then 1 else 0) / (Nat.card {t : List U64 // t.length = k} : ℝ) := by
  unfold prob
  refine congrArg (· / _) ?_
  rw [Finset.sum_boole]
  refine congrArg Nat.cast ?_
  rw [← Fintype.card_subtype, ← Nat.card_eq_fintype_card]
  exact Nat.card_congr ⟨fun t => ⟨⟨t.1, t.2.1⟩, t.2.2⟩, fun t => ⟨t.1.1, t.1.2, t.2⟩, fun _ => rfl, fun _ => rfl⟩

theorem card_len_pos (k : Nat) : (0 : ℝ) < (Nat.card {t : List U64 // t.length = k} : ℝ) := by
  have : Nonempty {t : List U64 // t.length = k} := ⟨⟨List.replicate k 0#64, List.length_replicate⟩⟩
  exact Nat.cast_pos.mpr Nat.card_pos

/-- The average of `f X` for a quantity between `A` and `B`. -/
theorem average_layer (k : Nat) (X : List U64 → ℝ) (A B : ℝ) (f ψ : ℝ → ℝ) (hf : ∀ t, HasDerivAt f (ψ t) t) (hψ : Continuous ψ)
    (hX : ∀ t, A ≤ X t ∧ X t ≤ B) :
    IntervalIntegrable (fun t => ψ t * prob k fun w => t < X w) volume A B ∧
      average k (fun w => f (X w)) = f A + ∫ t in A..B, ψ t * prob k fun w => t < X w := by
  classical
  have : Fintype {t : List U64 // t.length = k} := Fintype.ofFinite _
  have hN := card_len_pos k
  have e : (fun t => ψ t * prob k fun w => t < X w) =
      fun t => (∑ w : {t : List U64 // t.length = k}, (Iio (X w.1)).indicator ψ t) / (Nat.card {t : List U64 // t.length = k} : ℝ) := by
    funext t
    rw [prob_sum, mul_div_assoc', Finset.mul_sum]
    refine congrArg (· / _) (Finset.sum_congr rfl fun w _ => ?_)
    rw [indicator_apply]
    simp only [mem_Iio]
    split <;> simp
  have hi : ∀ w ∈ (Finset.univ : Finset {t : List U64 // t.length = k}), IntervalIntegrable (fun t => (Iio (X w.1)).indicator ψ t) volume A B :=
    fun w _ => (layer A B (X w.1) f ψ hf hψ (hX _).1 (hX _).2).1
  rw [e]
  refine ⟨?_, ?_⟩
  · have := IntervalIntegrable.sum Finset.univ hi
    simp only [div_eq_mul_inv]
    refine IntervalIntegrable.mul_const ?_ _
    have e2 : (∑ w : {t : List U64 // t.length = k}, fun t => (Iio (X w.1)).indicator ψ t) =
        fun t => ∑ w : {t : List U64 // t.length = k}, (Iio (X w.1)).indicator ψ t := by
      funext t
      rw [Finset.sum_apply]
    rw [← e2]
    exact this
  · have e3 : (∑ w : {t : List U64 // t.length = k}, ∫ t in A..B, (Iio (X w.1)).indicator ψ t) =
        ∑ w : {t : List U64 // t.length = k}, (f (X w.1) - f A) :=
      Finset.sum_congr rfl fun w _ => (layer A B (X w.1) f ψ hf hψ (hX _).1 (hX _).2).2
    rw [intervalIntegral.integral_div, intervalIntegral.integral_finsetSum hi, e3]
    unfold average
    rw [finsum_eq_sum_of_fintype, Finset.sum_sub_distrib,
      Finset.sum_const, Finset.card_univ, ← Nat.card_eq_fintype_card, nsmul_eq_mul]
    field_simp
    ring

/-- If the probabilities of `t < X` are within `δ` of `G t`, the average of `f X` is close to what it is for `G`. -/
theorem average_near (k : Nat) (X : List U64 → ℝ) (A B δ : ℝ) (f ψ G : ℝ → ℝ) (hf : ∀ t, HasDerivAt f (ψ t) t) (hψ : Continuous ψ)
    (hX : ∀ t, A ≤ X t ∧ X t ≤ B) (hB : A ≤ B) (hG : IntervalIntegrable (fun t => ψ t * G t) volume A B)
    (hδ : ∀ t, A < t → t < B → |prob k (fun w => t < X w) - G t| ≤ δ) :
    |average k (fun w => f (X w)) - (f A + ∫ t in A..B, ψ t * G t)| ≤ (∫ t in A..B, |ψ t|) * δ := by
  obtain ⟨h1, h2⟩ := average_layer k X A B f ψ hf hψ hX
  rw [h2, add_sub_add_left_eq_sub, ← intervalIntegral.integral_sub h1 hG, ← intervalIntegral.integral_mul_const, ← Real.norm_eq_abs]
  refine intervalIntegral.norm_integral_le_of_norm_le hB ?_ ((hψ.abs.mul continuous_const).intervalIntegrable _ _)
  have hne : ∀ᵐ t ∂(volume : Measure ℝ), t ≠ B := by
    rw [ae_iff]
    simp
  filter_upwards [hne] with t ht hm
  rw [mem_Ioc] at hm
  have hlt : t < B := lt_of_le_of_ne hm.2 ht
  rw [← mul_sub, norm_mul, Real.norm_eq_abs, Real.norm_eq_abs]
  exact mul_le_mul_of_nonneg_left (hδ t hm.1 hlt) (abs_nonneg _)

/-- The probability of a difference. -/
theorem prob_diff (k : Nat) (P Q R : List U64 → Prop) (h : ∀ t, t.length = k → (P t ↔ Q t ∧ ¬ R t)) (hR : ∀ t, t.length = k → R t → Q t) :
    prob k P = prob k Q - prob k R := by
  classical
  have : Fintype {t : List U64 // t.length = k} := Fintype.ofFinite _
  rw [prob_sum, prob_sum, prob_sum, ← sub_div, ← Finset.sum_sub_distrib]
  refine congrArg (· / _) (Finset.sum_congr rfl fun t _ => ?_)
  have h1 := h t.1 t.2
  have h2 := hR t.1 t.2
  by_cases hq : Q t.1 <;> by_cases hr : R t.1 <;> simp [h1, hq, hr]
  exact hq (h2 hr)

end Crazy
