/-
The tail of the ziggurat of the normal distribution.
-/
import Verif.Proofs.NormDist
set_option exponentiation.threshold 2200
set_option maxRecDepth 4000
namespace Crazy
open MeasureTheory Set intervalIntegral

/-- The candidate, before `R` is added. -/
noncomputable def tailX (lib : MathLib) (m : Nat) : F64 := F64.div (F64.neg (lib.log (unit m))) normalR

/-- The candidate is accepted. -/
def tailAcc (lib : MathLib) (m k : Nat) : Prop :=
  F64.le (F64.mul (tailX lib m) (tailX lib m)) (F64.add (F64.neg (lib.log (unit k))) (F64.neg (lib.log (unit k)))) = true

/-- The probability that the candidate is accepted. -/
noncomputable def tailAccShare (lib : MathLib) (m : Nat) : ℝ := avg (2 ^ 53) fun k => ind (tailAcc lib m k)

/-- The probability that a round of the tail returns something in `S`. -/
noncomputable def tailPart (lib : MathLib) (S : F64 → Prop) : ℝ :=
  avg (2 ^ 53) fun m => ind (S (F64.add (tailX lib m) normalR)) * tailAccShare lib m

theorem tail_norm_zero (lib : MathLib) (S : F64 → Prop) : tailGives (normalZig lib) S 0 = 0 := by
  unfold tailGives
  rw [← prob_false (2 * 0 + 1)]
  refine prob_congr fun t _ => ⟨?_, False.elim⟩
  rintro ⟨r, rest, h, -⟩
  exact err_ne_ok _ _ h

theorem tail_norm_succ (lib : MathLib) (S : F64 → Prop) (n : Nat) :
    tailGives (normalZig lib) S (n + 1) = tailPart lib S + (1 - tailPart lib fun _ => True) * tailGives (normalZig lib) S n := by
  obtain ⟨q, hq⟩ : ∃ q, tailGives (normalZig lib) S n = q := ⟨_, rfl⟩
  have key : ∀ y < 2 ^ 64, ∀ y' < 2 ^ 64, prob (2 * n + 1) (fun t => ∃ r rest, (normalZig lib).tail tape (n + 1)
      (BitVec.ofNat 64 y :: BitVec.ofNat 64 y' :: t) = .ok (r, rest) ∧ S r) =
      ind (tailAcc lib (y % 2 ^ 53) (y' % 2 ^ 53)) * (ind (S (F64.add (tailX lib (y % 2 ^ 53)) normalR)) - q) + q := by
    intro y hy y' hy'
    by_cases hc : tailAcc lib (y % 2 ^ 53) (y' % 2 ^ 53)
    · rw [ind_true hc, one_mul, sub_add_cancel, ← prob_const (2 * n + 1)]
      refine prob_congr fun t _ => ?_
      have ht : (normalZig lib).tail tape (n + 1) (BitVec.ofNat 64 y :: BitVec.ofNat 64 y' :: t) =
          .ok (F64.add (tailX lib (y % 2 ^ 53)) normalR, t) := by
        show normalTail lib tape (n + 1) _ = _
        unfold normalTail
        simp only [uniform01_ofNat y hy, uniform01_ofNat y' hy', bind, Except.bind, pure, Except.pure]
        exact if_pos hc
      rw [ht]
      exact ok_and _ _
    · rw [ind_false hc, zero_mul, zero_add, ← hq]
      unfold tailGives
      refine prob_congr fun t _ => ?_
      have ht : (normalZig lib).tail tape (n + 1) (BitVec.ofNat 64 y :: BitVec.ofNat 64 y' :: t) = (normalZig lib).tail tape n t := by
        show normalTail lib tape (n + 1) _ = normalTail lib tape n t
        rw [normalTail]
        simp only [uniform01_ofNat y hy, uniform01_ofNat y' hy', bind, Except.bind, pure, Except.pure]
        exact if_neg hc
      rw [ht]
  have e64 : 2 ^ 11 * 2 ^ 53 = (2 : Nat) ^ 64 := by decide
  have inner : ∀ y < 2 ^ 64, prob (2 * n + 1 + 1) (fun t => ∃ r rest, (normalZig lib).tail tape (n + 1)
      (BitVec.ofNat 64 y :: t) = .ok (r, rest) ∧ S r) =
      tailAccShare lib (y % 2 ^ 53) * (ind (S (F64.add (tailX lib (y % 2 ^ 53)) normalR)) - q) + q := by
    intro y hy
    rw [prob_succ, avg_congr fun y' hy' => key y hy y' hy', avg_add, avg_mul_right, avg_const (by positivity)]
    have := avg_mod (2 ^ 11) (2 ^ 53) (by decide) fun k => ind (tailAcc lib (y % 2 ^ 53) k)
    rw [e64] at this
    unfold tailAccShare
    rw [this]
  rw [hq]
  unfold tailGives
  rw [show 2 * (n + 1) + 1 = 2 * n + 1 + 1 + 1 by omega, prob_succ, avg_congr inner]
  have := avg_mod (2 ^ 11) (2 ^ 53) (by decide) fun m => tailAccShare lib m * (ind (S (F64.add (tailX lib m) normalR)) - q) + q
  rw [e64] at this
  rw [this, avg_add, avg_const (by positivity)]
  unfold tailPart
  have e1 : ∀ m < 2 ^ 53, tailAccShare lib m * (ind (S (F64.add (tailX lib m) normalR)) - q) =
      ind (S (F64.add (tailX lib m) normalR)) * tailAccShare lib m - ind True * tailAccShare lib m * q := by
    intro m _
    rw [ind_true trivial]; ring
  rw [avg_congr e1, avg_sub, avg_mul_right]
  ring

theorem tailAccShare_bounds (lib : MathLib) (m : Nat) : 0 ≤ tailAccShare lib m ∧ tailAccShare lib m ≤ 1 :=
  ⟨avg_nonneg fun _ _ => ind_nonneg _, avg_le_one fun _ _ => ind_le_one _⟩

theorem tailPart_bounds (lib : MathLib) (S : F64 → Prop) : 0 ≤ tailPart lib S ∧ tailPart lib S ≤ tailPart lib fun _ => True := by
  unfold tailPart
  refine ⟨avg_nonneg fun m _ => mul_nonneg (ind_nonneg _) (tailAccShare_bounds lib m).1, avg_mono fun m _ => ?_⟩
  rw [ind_true trivial]
  exact mul_le_mul_of_nonneg_right (ind_le_one _) (tailAccShare_bounds lib m).1

theorem tailPart_not (lib : MathLib) (S : F64 → Prop) :
    (tailPart lib fun x => ¬ S x) = (tailPart lib fun _ => True) - tailPart lib S := by
  unfold tailPart
  rw [← avg_sub]
  refine avg_congr fun m _ => ?_
  rw [ind_not, ind_true trivial]
  ring

theorem tailPart_le_one (lib : MathLib) (S : F64 → Prop) : tailPart lib S ≤ 1 := by
  refine avg_le_one fun m _ => mul_le_one₀ (ind_le_one _) (tailAccShare_bounds lib m).1 (tailAccShare_bounds lib m).2

/-- The rounds of the tail. -/
theorem tail_norm_converge (lib : MathLib) (S : F64 → Prop) (h : 15 / 16 ≤ tailPart lib fun _ => True) (n : Nat) :
    |tailGives (normalZig lib) S n - tailPart lib S / tailPart lib fun _ => True| ≤ (1 / 16) ^ n := by
  have b := tailPart_bounds lib S
  have h1 := tailPart_le_one lib fun _ => True
  have ha : 0 < tailPart lib fun _ => True := by linarith
  induction n with
  | zero =>
    rw [tail_norm_zero, pow_zero, zero_sub, abs_neg, abs_of_nonneg (div_nonneg b.1 ha.le), div_le_one ha]
    exact b.2
  | succ n ih =>
    have e : tailGives (normalZig lib) S (n + 1) - tailPart lib S / (tailPart lib fun _ => True) =
        (1 - tailPart lib fun _ => True) * (tailGives (normalZig lib) S n - tailPart lib S / tailPart lib fun _ => True) := by
      rw [tail_norm_succ]
      field_simp
      ring
    rw [e, abs_mul, pow_succ', abs_of_nonneg (by linarith)]
    exact mul_le_mul (by linarith) ih (abs_nonneg _) (by norm_num)

end Crazy
