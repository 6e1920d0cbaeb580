/-
Averages of independent calls, and Hoeffding's inequality for their results.
-/
import Verif.Spec.Sample
import Verif.Proofs.Average
import Verif.Proofs.Reads
import Verif.Proofs.UintnLaw
import Mathlib.Probability.Moments.SubGaussian
namespace Crazy
open MeasureTheory ProbabilityTheory

/-! ### Averages of what independent calls return -/

/-- `G` of the result and the remaining words, or 0. -/
def onOk {α : Type} (c : Go (α × List U64)) (G : α → List U64 → ℝ) : ℝ := match c with
  | .ok (r, rest) => G r rest
  | .error _ => 0

theorem average_append (m k : Nat) (Y : List U64 → ℝ) (h : ∀ w v, w.length = m → Y (w ++ v) = Y w) : average (m + k) Y = average m Y := by
  induction m generalizing Y with
  | zero =>
    have h0 : ∀ t, Y t = Y [] := fun t => h [] t rfl
    rw [average_congr (Y := fun _ => Y []) fun t _ => h0 t, average_const, average_zero]
  | succ m ih =>
    rw [Nat.add_right_comm, average_succ, average_succ]
    exact avg_congr fun x _ => ih _ fun w v hw => h (BitVec.ofNat 64 x :: w) v (by simp [hw])

theorem Reads.onOk_append {α : Type} {m : Nat} {f : List U64 → Go (α × List U64)} (hf : Reads m f) (F : α → ℝ) (w v : List U64) (hw : w.length = m) :
    onOk (f (w ++ v)) (fun r _ => F r) = onOk (f w) fun r _ => F r := by
  cases e : f w with
  | ok q =>
    obtain ⟨r, rest⟩ := q
    obtain ⟨p, h1, h2, h3⟩ := hf.cut _ _ _ e
    have := hf.ext p r h3 (rest ++ v)
    rw [← List.append_assoc, ← h2] at this
    rw [this]
    rfl
  | error x =>
    cases e' : f (w ++ v) with
    | error y => rfl
    | ok q =>
      obtain ⟨r, rest⟩ := q
      obtain ⟨r', rest', h, -⟩ := (hf.returns_iff (fun _ => True) w v hw).mp ⟨r, rest, e', trivial⟩
      rw [e] at h
      cases h

theorem Reads.average_indep {α : Type} (m k : Nat) (f : List U64 → Go (α × List U64)) (hf : Reads m f) (F : α → ℝ) (Y : List U64 → ℝ)
    (hY : ∀ w v, w.length = k → Y (w ++ v) = Y w) :
    average (m + k) (fun w => onOk (f w) fun r rest => F r * Y rest) = average m (fun w => onOk (f w) fun r _ => F r) * average k Y := by
  induction m generalizing f with
  | zero =>
    rw [Nat.zero_add]
    cases e : f [] with
    | ok q =>
      obtain ⟨r, rest⟩ := q
      obtain ⟨p, h1, h2, h3⟩ := hf.cut _ _ _ e
      have hall : ∀ w, f w = .ok (r, w) := fun w => by
        have := hf.ext p r h3 w
        rwa [List.length_eq_zero_iff.mp (Nat.le_zero.mp h1)] at this
      rw [average_congr (Y := fun w => F r * Y w) fun t _ => by rw [hall t]; rfl, average_mul, average_zero, hall []]
      rfl
    | error x =>
      have hno : ∀ w, ∃ e, f w = .error e := by
        intro w
        cases e' : f w with
        | error y => exact ⟨y, rfl⟩
        | ok q =>
          obtain ⟨r, rest⟩ := q
          obtain ⟨p, h1, h2, h3⟩ := hf.cut _ _ _ e'
          rw [List.length_eq_zero_iff.mp (Nat.le_zero.mp h1), e] at h3
          cases h3
      rw [average_congr (Y := fun _ => 0) fun t _ => by obtain ⟨y, hy⟩ := hno t; rw [hy]; rfl, average_const, average_zero, e]
      exact (zero_mul _).symm
  | succ m ih =>
    cases e : f [] with
    | ok q =>
      obtain ⟨r, rest⟩ := q
      obtain ⟨p, h1, h2, h3⟩ := hf.cut _ _ _ e
      have hp : p = [] := by
        have := congrArg List.length h2
        rw [List.length_append, List.length_nil] at this
        exact List.length_eq_zero_iff.mp (by omega)
      have hall : ∀ w, f w = .ok (r, w) := fun w => by
        have := hf.ext p r h3 w
        rwa [hp] at this
      rw [average_congr (Y := fun w => F r * Y w) fun t _ => by rw [hall t]; rfl, average_mul, Nat.add_comm (m + 1) k, average_append k (m + 1) Y hY,
        average_congr (X := fun w => onOk (f w) fun r _ => F r) (Y := fun _ => F r) fun t _ => by rw [hall t]; rfl, average_const]
    | error x =>
      rw [Nat.add_right_comm, average_succ, average_succ, ← avg_mul_right]
      refine avg_congr fun y _ => ih (fun t => f (BitVec.ofNat 64 y :: t)) ⟨fun p r h v => hf.ext _ r h v, fun w r rest h => ?_⟩
      obtain ⟨p, h1, h2, h3⟩ := hf.cut _ _ _ h
      cases p with
      | nil => rw [e] at h3; cases h3
      | cons z p =>
        rw [List.cons_append, List.cons.injEq] at h2
        exact ⟨p, by rw [List.length_cons] at h1; omega, h2.2, by rw [h2.1]; exact h3⟩

/-- `N` calls. -/
theorem reads_results {α : Type} {m : Nat} {next : List U64 → Go (α × List U64)} (h : Reads m next) (N : Nat) : Reads (N * m) (results next N) := by
  induction N with
  | zero =>
    rw [Nat.zero_mul]
    exact Reads.pure []
  | succ N ih =>
    rw [Nat.succ_mul, Nat.add_comm]
    exact h.bind (g := fun r s => results next N s >>= fun q => .ok (r :: q.1, q.2)) fun r => ih.map (r :: ·)

theorem average_results {α : Type} {m : Nat} {next : List U64 → Go (α × List U64)} (h : Reads m next) (F : α → ℝ) (N : Nat) :
    average (N * m) (fun w => onOk (results next N w) fun l _ => (l.map F).prod) = average m (fun w => onOk (next w) fun r _ => F r) ^ N := by
  induction N with
  | zero =>
    rw [Nat.zero_mul, average_zero, pow_zero]
    show (List.map F []).prod = 1
    rfl
  | succ N ih =>
    rw [Nat.succ_mul, Nat.add_comm, pow_succ', ← ih, ← Reads.average_indep m (N * m) next h F _ fun w v hw => (reads_results h N).onOk_append _ w v hw]
    refine average_congr fun w _ => ?_
    have hst : results next (N + 1) w = (next w >>= fun p => results next N p.2 >>= fun q => .ok (p.1 :: q.1, q.2)) := rfl
    rw [hst]
    cases next w with
    | error e => rfl
    | ok p =>
      obtain ⟨r, rest⟩ := p
      simp only [bind, Except.bind, onOk]
      cases results next N rest with
      | error e => exact (mul_zero _).symm
      | ok q => exact List.prod_cons

/-! ### Hoeffding -/

/-- The moments of a coin. -/
theorem coin_mgf (p s : ℝ) (h0 : 0 ≤ p) (h1 : p ≤ 1) : 1 + p * (Real.exp s - 1) ≤ Real.exp (p * s + s ^ 2 / 8) := by
  let μ : Measure ℝ := ENNReal.ofReal p • Measure.dirac 1 + ENNReal.ofReal (1 - p) • Measure.dirac 0
  have hμ : IsProbabilityMeasure μ := ⟨by
    simp only [μ, Measure.add_apply, Measure.smul_apply, measure_univ, smul_eq_mul, mul_one]
    rw [← ENNReal.ofReal_add h0 (by linarith)]
    simp⟩
  have hint : ∀ g : ℝ → ℝ, ∫ x, g x ∂μ = p * g 1 + (1 - p) * g 0 := fun g => by
    have i1 : Integrable g (ENNReal.ofReal p • Measure.dirac (1 : ℝ)) := (integrable_dirac (by simp)).smul_measure ENNReal.ofReal_ne_top
    have i2 : Integrable g (ENNReal.ofReal (1 - p) • Measure.dirac (0 : ℝ)) := (integrable_dirac (by simp)).smul_measure ENNReal.ofReal_ne_top
    rw [integral_add_measure i1 i2, integral_smul_measure, integral_smul_measure, integral_dirac, integral_dirac, ENNReal.toReal_ofReal h0,
      ENNReal.toReal_ofReal (by linarith)]
    rfl
  have hm : ∀ᵐ x ∂μ, x ∈ Set.Icc (0 : ℝ) 1 := by
    rw [ae_iff]
    simp only [μ, Measure.add_apply, Measure.smul_apply, smul_eq_mul]
    rw [Measure.dirac_apply, Measure.dirac_apply]
    simp
  have hs := (hasSubgaussianMGF_of_mem_Icc (μ := μ) (X := fun x => x) (a := 0) (b := 1) aemeasurable_id hm).mgf_le s
  unfold mgf at hs
  rw [hint, hint] at hs
  simp only [mul_one, mul_zero, add_zero] at hs
  have e : Real.exp (p * s + s ^ 2 / 8) = Real.exp (s ^ 2 / 8) * Real.exp (p * s) := by rw [← Real.exp_add]; ring_nf
  have e1 : Real.exp (s * (1 - p)) * Real.exp (p * s) = Real.exp s := by rw [← Real.exp_add]; ring_nf
  have e2 : Real.exp (s * (0 - p)) * Real.exp (p * s) = 1 := by rw [← Real.exp_add]; ring_nf; exact Real.exp_zero
  have e3 : ((((‖(1 : ℝ) - 0‖₊ / 2) ^ 2 : NNReal) : ℝ) * s ^ 2 / 2) = s ^ 2 / 8 := by
    simp
    ring
  rw [e3] at hs
  rw [e]
  have := mul_le_mul_of_nonneg_right hs (Real.exp_pos (p * s)).le
  refine le_trans (le_of_eq ?_) this
  rw [add_mul, mul_assoc, mul_assoc, e1, e2]
  ring

open Classical in
theorem prob_eq_average (k : Nat) (P : List U64 → Prop) : prob k P = average k fun w => if P w then 1 else 0 := by
  induction k generalizing P with
  | zero => rw [prob_zero, average_zero]
  | succ k ih => rw [prob_succ, average_succ]; exact avg_congr fun x _ => ih _

/-- Markov's inequality. -/
theorem prob_le_average (k : Nat) (P : List U64 → Prop) (X : List U64 → ℝ) (h0 : ∀ w, 0 ≤ X w) (h1 : ∀ w, P w → 1 ≤ X w) : prob k P ≤ average k X := by
  classical
  rw [prob_eq_average]
  refine average_mono fun w _ => ?_
  split
  · exact h1 w ‹_›
  · exact h0 w

theorem prob_not (k : Nat) (P : List U64 → Prop) : prob k (fun w => ¬ P w) = 1 - prob k P := by
  have h1 := prob_or k P (fun w => ¬ P w) fun t h => h.2 h.1
  have h2 := prob_congr (k := k) (P := fun w => P w ∨ ¬ P w) (Q := fun _ => True) fun w _ => ⟨fun _ => trivial, fun _ => Classical.em _⟩
  rw [prob_true] at h2
  linarith

theorem prob_union (k : Nat) (P Q : List U64 → Prop) : prob k (fun w => P w ∨ Q w) ≤ prob k P + prob k Q := by
  rw [prob_congr (Q := fun w => P w ∨ (Q w ∧ ¬ P w)) fun w _ => ?_, prob_or k _ _ fun t h => h.2.2 h.1]
  · exact add_le_add_right (prob_mono fun w _ h => h.1) _
  · by_cases h : P w <;> simp [h]

theorem expect_eq {α : Type} (m : Nat) (next : List U64 → Go (α × List U64)) (f : α → ℝ) : expect m next f = average m fun w => onOk (next w) fun r _ => f r := rfl

theorem expect_exp {α : Type} (m : Nat) (next : List U64 → Go (α × List U64)) (f : α → ℝ) (hf : ∀ r, 0 ≤ f r ∧ f r ≤ 1) (s : ℝ) :
    average m (fun w => onOk (next w) fun r _ => Real.exp (s * f r)) ≤ 1 + expect m next f * (Real.exp s - 1) := by
  rw [expect_eq, mul_comm, ← average_mul, ← average_const m 1, ← average_add, average_const m 1]
  refine average_mono fun w _ => ?_
  cases next w with
  | error e =>
    show (0 : ℝ) ≤ 1 + (Real.exp s - 1) * 0
    norm_num
  | ok q =>
    obtain ⟨r, rest⟩ := q
    show Real.exp (s * f r) ≤ 1 + (Real.exp s - 1) * f r
    obtain ⟨h0, h1⟩ := hf r
    have := convexOn_exp.2 (Set.mem_univ s) (Set.mem_univ 0) h0 (by linarith : 0 ≤ 1 - f r) (by ring)
    simp only [smul_eq_mul, mul_zero, add_zero, Real.exp_zero, mul_one] at this
    rw [mul_comm s]
    linarith

theorem expect_nonneg {α : Type} (m : Nat) (next : List U64 → Go (α × List U64)) (f : α → ℝ) (hf : ∀ r, 0 ≤ f r) : 0 ≤ expect m next f := by
  rw [expect_eq, ← average_const m 0]
  refine average_mono fun w _ => ?_
  cases next w with
  | error e => exact le_refl _
  | ok q => exact hf _

theorem expect_le_one {α : Type} (m : Nat) (next : List U64 → Go (α × List U64)) (f : α → ℝ) (hf : ∀ r, f r ≤ 1) : expect m next f ≤ 1 := by
  rw [expect_eq, ← average_const m 1]
  refine average_mono fun w _ => ?_
  cases next w with
  | error e => exact zero_le_one
  | ok q => exact hf _

theorem prod_exp {α : Type} (f : α → ℝ) (s : ℝ) (l : List α) : (l.map fun r => Real.exp (s * f r)).prod = Real.exp (s * (l.map f).sum) := by
  induction l with
  | nil => simp
  | cons r l ih => rw [List.map_cons, List.prod_cons, ih, List.map_cons, List.sum_cons, mul_add, Real.exp_add]

theorem sample_chernoff {α : Type} {m : Nat} {next : List U64 → Go (α × List U64)} (h : Reads m next) (f : α → ℝ) (hf : ∀ r, 0 ≤ f r ∧ f r ≤ 1)
    (N : Nat) (s c : ℝ) :
    prob (N * m) (fun w => ∃ l rest, results next N w = .ok (l, rest) ∧ c ≤ s * (l.map f).sum) ≤
      Real.exp (N * (expect m next f * s + s ^ 2 / 8) - c) := by
  have h1 : prob (N * m) (fun w => ∃ l rest, results next N w = .ok (l, rest) ∧ c ≤ s * (l.map f).sum) ≤
      average (N * m) (fun w => Real.exp (-c) * onOk (results next N w) fun l _ => (l.map fun r => Real.exp (s * f r)).prod) := by
    refine prob_le_average _ _ _ (fun w => ?_) fun w => ?_
    · refine mul_nonneg (Real.exp_pos _).le ?_
      cases results next N w with
      | error e => exact le_refl _
      | ok q =>
        show 0 ≤ (List.map _ _).prod
        rw [prod_exp]
        exact (Real.exp_pos _).le
    · rintro ⟨l, rest, h1, h2⟩
      rw [h1]
      show 1 ≤ Real.exp (-c) * (List.map _ _).prod
      rw [prod_exp, ← Real.exp_add]
      exact Real.one_le_exp (by linarith)
  refine h1.trans ?_
  rw [average_mul, average_results h]
  have h2 := expect_exp m next f hf s
  have h3 := coin_mgf (expect m next f) s (expect_nonneg m next f fun r => (hf r).1) (expect_le_one m next f fun r => (hf r).2)
  have h4 : 0 ≤ average m (fun w => onOk (next w) fun r _ => Real.exp (s * f r)) := expect_nonneg m next _ fun r => (Real.exp_pos _).le
  have h5 := pow_le_pow_left₀ h4 (h2.trans h3) N
  rw [← Real.exp_nat_mul] at h5
  refine (mul_le_mul_of_nonneg_left h5 (Real.exp_pos _).le).trans (le_of_eq ?_)
  rw [← Real.exp_add]
  ring_nf

theorem results_length {σ α : Type} {next : σ → Go (α × σ)} {N : Nat} {s s' : σ} {l : List α} (h : results next N s = .ok (l, s')) : l.length = N := by
  induction N generalizing s s' l with
  | zero =>
    simp only [results, Except.ok.injEq, Prod.mk.injEq] at h
    rw [← h.1]
    rfl
  | succ N ih =>
    have hst : results next (N + 1) s = (next s >>= fun p => results next N p.2 >>= fun q => .ok (p.1 :: q.1, q.2)) := rfl
    rw [hst] at h
    cases e : next s with
    | error x => rw [e] at h; cases h
    | ok p =>
      rw [e] at h
      simp only [bind, Except.bind] at h
      cases e' : results next N p.2 with
      | error x => rw [e'] at h; cases h
      | ok q =>
        rw [e'] at h
        simp only [Except.ok.injEq, Prod.mk.injEq] at h
        rw [← h.1, List.length_cons, ih e']

/-- All calls return. -/
theorem prob_results {α : Type} {m : Nat} {next : List U64 → Go (α × List U64)} (h : Reads m next) (N : Nat) :
    prob (N * m) (fun w => ∃ l rest, results next N w = .ok (l, rest)) = prob m (fun w => ∃ r rest, next w = .ok (r, rest)) ^ N := by
  classical
  have e : ∀ {β : Type} (k : Nat) (g : List U64 → Go (β × List U64)), prob k (fun w => ∃ r rest, g w = .ok (r, rest)) = average k fun w => onOk (g w) fun _ _ => 1 := by
    intro β k g
    rw [prob_eq_average]
    refine average_congr fun w _ => ?_
    cases g w with
    | error e => rw [if_neg (by rintro ⟨r, rest, h⟩; cases h)]; rfl
    | ok q => rw [if_pos ⟨q.1, q.2, rfl⟩]; rfl
  rw [e, e, ← average_results h]
  refine average_congr fun w _ => ?_
  cases results next N w with
  | error e => rfl
  | ok q =>
    show 1 = (List.map _ _).prod
    simp

/-- The probability that not all of `N` calls return with their words. -/
theorem sample_returns {α : Type} {m : Nat} {next : List U64 → Go (α × List U64)} (h : Reads m next) (N : Nat) :
    prob (N * m) (fun w => ¬ ∃ l rest, results next N w = .ok (l, rest)) ≤ N * (1 - prob m fun w => ∃ r rest, next w = .ok (r, rest)) := by
  rw [prob_not, prob_results h]
  have h0 := prob_nonneg m fun w => ∃ r rest, next w = .ok (r, rest)
  have := one_add_mul_le_pow (a := (prob m fun w => ∃ r rest, next w = .ok (r, rest)) - 1) (by linarith) N
  rw [add_sub_cancel] at this
  linarith

/-- The probability that they return, but that the mean is not near. -/
theorem sample_deviates {α : Type} {m : Nat} {next : List U64 → Go (α × List U64)} (h : Reads m next) (f : α → ℝ) (hf : ∀ r, 0 ≤ f r ∧ f r ≤ 1)
    (N : Nat) (hN : 0 < N) (ε : ℝ) (hε : 0 < ε) :
    prob (N * m) (fun w => ∃ l rest, results next N w = .ok (l, rest) ∧ ¬ |meanOf f l - expect m next f| < ε) ≤ 2 * Real.exp (-(2 * N * ε ^ 2)) := by
  have hN' : (0 : ℝ) < N := Nat.cast_pos.mpr hN
  have hu := sample_chernoff h f hf N (4 * ε) (4 * ε * (N * (expect m next f + ε)))
  have hl := sample_chernoff h f hf N (-(4 * ε)) (-(4 * ε) * (N * (expect m next f - ε)))
  rw [show (N : ℝ) * (expect m next f * (4 * ε) + (4 * ε) ^ 2 / 8) - 4 * ε * (N * (expect m next f + ε)) = -(2 * N * ε ^ 2) by ring] at hu
  rw [show (N : ℝ) * (expect m next f * -(4 * ε) + (-(4 * ε)) ^ 2 / 8) - -(4 * ε) * (N * (expect m next f - ε)) = -(2 * N * ε ^ 2) by ring] at hl
  have hcover := prob_mono (k := N * m) (P := fun w => ∃ l rest, results next N w = .ok (l, rest) ∧ ¬ |meanOf f l - expect m next f| < ε)
    (Q := fun w => (∃ l rest, results next N w = .ok (l, rest) ∧ 4 * ε * (N * (expect m next f + ε)) ≤ 4 * ε * (l.map f).sum) ∨
      (∃ l rest, results next N w = .ok (l, rest) ∧ -(4 * ε) * (N * (expect m next f - ε)) ≤ -(4 * ε) * (l.map f).sum)) fun w _ hn => by
    obtain ⟨l, rest, hl, h1⟩ := hn
    have hlen := results_length hl
    rw [not_lt, le_abs] at h1
    have hm : (l.map f).sum = N * meanOf f l := by
      unfold meanOf
      rw [hlen, mul_div_cancel₀ _ hN'.ne']
    rcases h1 with h1 | h1
    · refine Or.inl ⟨l, rest, hl, ?_⟩
      rw [hm]
      exact mul_le_mul_of_nonneg_left (mul_le_mul_of_nonneg_left (by linarith) hN'.le) (by linarith)
    · refine Or.inr ⟨l, rest, hl, ?_⟩
      rw [hm, neg_mul, neg_mul, neg_le_neg_iff]
      exact mul_le_mul_of_nonneg_left (mul_le_mul_of_nonneg_left (by linarith) hN'.le) (by linarith)
  refine hcover.trans ((prob_union _ _ _).trans ?_)
  linarith

theorem sample_mean {α : Type} {m : Nat} {next : List U64 → Go (α × List U64)} (h : Reads m next) (f : α → ℝ) (hf : ∀ r, 0 ≤ f r ∧ f r ≤ 1)
    (N : Nat) (hN : 0 < N) (ε : ℝ) (hε : 0 < ε) :
    prob (N * m) (fun w => ¬ ∃ l rest, results next N w = .ok (l, rest) ∧ |meanOf f l - expect m next f| < ε) ≤
      2 * Real.exp (-(2 * N * ε ^ 2)) + N * (1 - prob m fun w => ∃ r rest, next w = .ok (r, rest)) := by
  refine le_trans ?_ ((prob_union (N * m) _ _).trans (add_le_add (sample_deviates h f hf N hN ε hε) (sample_returns h N)))
  refine prob_mono fun w _ hn => ?_
  by_cases hex : ∃ l rest, results next N w = .ok (l, rest)
  · obtain ⟨l, rest, hl⟩ := hex
    exact Or.inl ⟨l, rest, hl, fun hh => hn ⟨l, rest, hl, hh⟩⟩
  · exact Or.inr hex

/-! ### Chebyshev -/

/-- One call and what the other calls give. -/
theorem average_first {α : Type} {m : Nat} {next : List U64 → Go (α × List U64)} (h : Reads m next) (N : Nat) (F : α → ℝ) (H : List α → ℝ) :
    average ((N + 1) * m) (fun w => onOk (next w) fun r rest => F r * onOk (results next N rest) fun l _ => H l) =
      average m (fun w => onOk (next w) fun r _ => F r) * average (N * m) (fun w => onOk (results next N w) fun l _ => H l) := by
  rw [Nat.succ_mul, Nat.add_comm]
  exact Reads.average_indep m (N * m) next h F _ fun w v hw => (reads_results h N).onOk_append _ w v hw

theorem onOk_results_succ {α : Type} (next : List U64 → Go (α × List U64)) (N : Nat) (w : List U64) (G : List α → ℝ) :
    onOk (results next (N + 1) w) (fun l _ => G l) = onOk (next w) fun r rest => onOk (results next N rest) fun l _ => G (r :: l) := by
  have hst : results next (N + 1) w = (next w >>= fun p => results next N p.2 >>= fun q => .ok (p.1 :: q.1, q.2)) := rfl
  rw [hst]
  cases next w with
  | error e => rfl
  | ok p =>
    obtain ⟨r, rest⟩ := p
    simp only [bind, Except.bind, onOk]
    cases results next N rest with
    | error e => rfl
    | ok q => rfl

/-- The mean square of the sum. -/
theorem average_sum {α : Type} {m : Nat} {next : List U64 → Go (α × List U64)} (h : Reads m next) (g : α → ℝ) (N : Nat) :
    |average (N * m) (fun w => onOk (results next N w) fun l _ => (l.map g).sum)| ≤ N * |expect m next g| ∧
    average (N * m) (fun w => onOk (results next N w) fun l _ => (l.map g).sum ^ 2) ≤
      N * expect m next (fun r => g r ^ 2) + N * (N - 1) * expect m next g ^ 2 := by
  have hq : ∀ N : Nat, 0 ≤ average (N * m) (fun w => onOk (results next N w) fun _ _ => 1) ∧
      average (N * m) (fun w => onOk (results next N w) fun _ _ => 1) ≤ 1 := fun N =>
    ⟨expect_nonneg (N * m) (results next N) (fun _ => 1) fun _ => zero_le_one, expect_le_one (N * m) (results next N) (fun _ => 1) fun _ => le_refl _⟩
  have hq1 : 0 ≤ average m (fun w => onOk (next w) fun _ _ => 1) ∧ average m (fun w => onOk (next w) fun _ _ => 1) ≤ 1 :=
    ⟨expect_nonneg m next (fun _ => 1) fun _ => zero_le_one, expect_le_one m next (fun _ => 1) fun _ => le_refl _⟩
  induction N with
  | zero =>
    rw [Nat.zero_mul, average_zero, average_zero]
    have e : results next 0 [] = .ok ([], []) := rfl
    rw [e]
    simp [onOk]
  | succ N ih =>
    obtain ⟨h1, h2⟩ := ih
    obtain ⟨q0, q1⟩ := hq N
    have hV : 0 ≤ expect m next (fun r => g r ^ 2) := expect_nonneg _ _ _ fun _ => sq_nonneg _
    have hT : average ((N + 1) * m) (fun w => onOk (results next (N + 1) w) fun l _ => (l.map g).sum) =
        expect m next g * average (N * m) (fun w => onOk (results next N w) fun _ _ => 1) +
          average m (fun w => onOk (next w) fun _ _ => 1) * average (N * m) (fun w => onOk (results next N w) fun l _ => (l.map g).sum) := by
      rw [expect_eq, ← average_first h N g fun _ => 1, ← average_first h N (fun _ => 1) fun l => (l.map g).sum, ← average_add]
      refine average_congr fun w _ => ?_
      rw [onOk_results_succ]
      cases next w with
      | error e => simp [onOk]
      | ok p =>
        simp only [onOk]
        cases results next N p.2 with
        | error e => simp
        | ok q => simp
    have hS : average ((N + 1) * m) (fun w => onOk (results next (N + 1) w) fun l _ => (l.map g).sum ^ 2) =
        expect m next (fun r => g r ^ 2) * average (N * m) (fun w => onOk (results next N w) fun _ _ => 1) +
          (expect m next g * average (N * m) (fun w => onOk (results next N w) fun l _ => 2 * (l.map g).sum) +
          average m (fun w => onOk (next w) fun _ _ => 1) * average (N * m) (fun w => onOk (results next N w) fun l _ => (l.map g).sum ^ 2)) := by
      rw [expect_eq, expect_eq, ← average_first h N _ fun _ => 1, ← average_first h N _ fun l => 2 * (l.map g).sum,
        ← average_first h N (fun _ => 1) fun l => (l.map g).sum ^ 2, ← average_add, ← average_add]
      refine average_congr fun w _ => ?_
      rw [onOk_results_succ]
      cases next w with
      | error e => simp [onOk]
      | ok p =>
        simp only [onOk]
        cases results next N p.2 with
        | error e => simp
        | ok q =>
          simp only [List.map_cons, List.sum_cons]
          ring
    have h2' : average (N * m) (fun w => onOk (results next N w) fun l _ => 2 * (l.map g).sum) =
        2 * average (N * m) (fun w => onOk (results next N w) fun l _ => (l.map g).sum) := by
      rw [← average_mul]
      refine average_congr fun w _ => ?_
      cases results next N w with
      | error e => exact (mul_zero _).symm
      | ok q => rfl
    have hS0 : 0 ≤ average (N * m) (fun w => onOk (results next N w) fun l _ => (l.map g).sum ^ 2) :=
      expect_nonneg (N * m) (results next N) (fun l => (l.map g).sum ^ 2) fun _ => sq_nonneg _
    rw [hT, hS, h2']
    generalize average (N * m) (fun w => onOk (results next N w) fun _ _ => 1) = Q at *
    generalize average (N * m) (fun w => onOk (results next N w) fun l _ => (l.map g).sum) = T at *
    generalize average (N * m) (fun w => onOk (results next N w) fun l _ => (l.map g).sum ^ 2) = S at *
    generalize average m (fun w => onOk (next w) fun _ _ => 1) = q at *
    generalize expect m next g = d at *
    generalize expect m next (fun r => g r ^ 2) = V at *
    push_cast
    constructor
    · refine (abs_add_le _ _).trans ?_
      rw [abs_mul, abs_mul, abs_of_nonneg q0, abs_of_nonneg hq1.1]
      have a1 : |d| * Q ≤ |d| := mul_le_of_le_one_right (abs_nonneg d) q1
      have a2 : q * |T| ≤ |T| := mul_le_of_le_one_left (abs_nonneg T) hq1.2
      linarith
    · have a1 : V * Q ≤ V := mul_le_of_le_one_right hV q1
      have a2 : q * S ≤ S := mul_le_of_le_one_left hS0 hq1.2
      have a3 : d * (2 * T) ≤ 2 * (N * d ^ 2) := by
        have : d * T ≤ |d| * (N * |d|) := (le_abs_self _).trans (by rw [abs_mul]; exact mul_le_mul_of_nonneg_left h1 (abs_nonneg d))
        have e : |d| * ((N : ℝ) * |d|) = N * d ^ 2 := by rw [← sq_abs d]; ring
        linarith
      nlinarith

theorem sample_chebyshev {α : Type} {m : Nat} {next : List U64 → Go (α × List U64)} (h : Reads m next) (g : α → ℝ) (c : ℝ) (N : Nat) (hN : 0 < N)
    (ε : ℝ) (hε : 0 < ε) :
    prob (N * m) (fun w => ¬ ∃ l rest, results next N w = .ok (l, rest) ∧ |meanOf g l - c| < ε) ≤
      (expect m next (fun r => (g r - c) ^ 2) / N + expect m next (fun r => g r - c) ^ 2) / ε ^ 2 +
        N * (1 - prob m fun w => ∃ r rest, next w = .ok (r, rest)) := by
  have hN' : (0 : ℝ) < N := Nat.cast_pos.mpr hN
  obtain ⟨-, h2⟩ := average_sum h (fun r => g r - c) N
  have hr : prob (N * m) (fun w => ¬ ∃ l rest, results next N w = .ok (l, rest)) ≤ N * (1 - prob m fun w => ∃ r rest, next w = .ok (r, rest)) := by
    rw [prob_not, prob_results h]
    have h0 := prob_nonneg m fun w => ∃ r rest, next w = .ok (r, rest)
    have := one_add_mul_le_pow (a := (prob m fun w => ∃ r rest, next w = .ok (r, rest)) - 1) (by linarith) N
    rw [add_sub_cancel] at this
    linarith
  have hm : prob (N * m) (fun w => ∃ l rest, results next N w = .ok (l, rest) ∧ ε ≤ |meanOf g l - c|) ≤
      (expect m next (fun r => (g r - c) ^ 2) / N + expect m next (fun r => g r - c) ^ 2) / ε ^ 2 := by
    have h3 : prob (N * m) (fun w => ∃ l rest, results next N w = .ok (l, rest) ∧ ε ≤ |meanOf g l - c|) ≤
        average (N * m) (fun w => (1 / (N * ε) ^ 2) * onOk (results next N w) fun l _ => (l.map fun r => g r - c).sum ^ 2) := by
      refine prob_le_average _ _ _ (fun w => ?_) fun w => ?_
      · refine mul_nonneg (by positivity) ?_
        cases results next N w with
        | error e => exact le_refl _
        | ok q => exact sq_nonneg _
      · rintro ⟨l, rest, h3, h4⟩
        rw [h3]
        have hlen := results_length h3
        show 1 ≤ (1 / (N * ε) ^ 2) * (l.map fun r => g r - c).sum ^ 2
        have hs : (l.map fun r => g r - c).sum = N * (meanOf g l - c) := by
          unfold meanOf
          rw [mul_sub, hlen, mul_div_cancel₀ _ hN'.ne', ← hlen]
          clear hlen h3 h4
          induction l with
          | nil => simp
          | cons r l ih => rw [List.map_cons, List.sum_cons, ih, List.map_cons, List.sum_cons, List.length_cons]; push_cast; ring
        rw [hs, mul_pow, mul_pow, ← sq_abs (meanOf g l - c), one_div, inv_mul_eq_div, le_div_iff₀ (by positivity), one_mul]
        exact mul_le_mul_of_nonneg_left (pow_le_pow_left₀ hε.le h4 2) (by positivity)
    refine h3.trans ?_
    rw [average_mul]
    refine (mul_le_mul_of_nonneg_left h2 (by positivity)).trans ?_
    have hd := sq_nonneg (expect m next fun r => g r - c)
    generalize expect m next (fun r => (g r - c) ^ 2) = V at *
    generalize expect m next (fun r => g r - c) = d at *
    have e : (V / N + d ^ 2) / ε ^ 2 = 1 / (N * ε) ^ 2 * (N * V + N * N * d ^ 2) := by field_simp
    rw [e]
    refine mul_le_mul_of_nonneg_left ?_ (by positivity)
    nlinarith
  refine (prob_mono (Q := fun w => (∃ l rest, results next N w = .ok (l, rest) ∧ ε ≤ |meanOf g l - c|) ∨ ¬ ∃ l rest, results next N w = .ok (l, rest))
    fun w _ hn => ?_).trans ((prob_union _ _ _).trans (add_le_add hm hr))
  by_cases hex : ∃ l rest, results next N w = .ok (l, rest)
  · obtain ⟨l, rest, hl⟩ := hex
    exact Or.inl ⟨l, rest, hl, not_lt.mp fun hh => hn ⟨l, rest, hl, hh⟩⟩
  · exact Or.inr hex

end Crazy
