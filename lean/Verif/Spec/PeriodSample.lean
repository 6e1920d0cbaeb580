/-
Specification vocabulary: samples drawn from the states of a whole period of a generator.
-/
import Verif.Spec.PeriodDist
import Verif.Spec.Sample
import Verif.Spec.Uniform
import Mathlib.MeasureTheory.Integral.IntervalIntegral.Basic
namespace Crazy
open ProbabilityTheory

/-- Of the `2^N - 1` states of a period from `s` on, samples of `n` draws are good from all but a share of `β`, and one state. -/
def GoodSamples {σ α : Type} (next : σ → Go (U64 × σ)) (s : σ) (N n : Nat) (call : Nat → σ → Go (α × σ)) (good : List α → Prop) (β : ℝ) : Prop :=
  1 - β - 1 / ((2 ^ N - 1 : Nat) : ℝ) ≤ shareOf next s (2 ^ N - 1) (ReturnsSome (fun retries => results (call retries) n) good)

/-- From most of the states of a period of `2^N - 1` words from `s` on, samples that take up to `D` words show the distribution. -/
structure SamplesOver {σ : Type} (next : σ → Go (U64 × σ)) (src : Source σ) (s : σ) (N D : Nat) : Prop where
  /-- Monte Carlo integration with `n ≤ D` points. -/
  integral : ∀ (f : ℝ → ℝ) (_ : ∀ x, 0 ≤ f x ∧ f x ≤ 1) (L : ℝ) (_ : ∀ x ∈ Set.Icc (0 : ℝ) 1, ∀ y ∈ Set.Icc (0 : ℝ) 1, |f x - f y| ≤ L * |x - y|)
    (n : Nat) (_ : 0 < n) (_ : n ≤ D) (ε : ℝ) (_ : 0 < ε),
    GoodSamples next s N n (fun _ => uniform01 src) (fun l => |meanOf (fun x => f (rv x)) l - ∫ x in (0 : ℝ)..1, f x| < ε + L / 2 ^ 53)
      (2 * Real.exp (-(2 * n * ε ^ 2)))
  /-- The distribution function of `n ≤ D` results of `Uniform0_1`, at all points at once. -/
  uniform01 : ∀ (n : Nat) (_ : 0 < n) (_ : n ≤ D) (k : Nat) (_ : 0 < k) (ε : ℝ) (_ : 0 < ε),
    GoodSamples next s N n (fun _ => uniform01 src) (fun l => ∀ t, |shareIn (AtMost t) l - unitCdf t| < ε + 1 / 2 ^ 53 + 1 / k)
      ((k - 1 : Nat) * (2 * Real.exp (-(2 * n * ε ^ 2))))
  /-- How often each number occurs among `n ≤ D` results of `Uintn(max)`. -/
  uintn : ∀ (max : U64) (_ : max ≠ 0#64) (n : Nat) (_ : 0 < n) (_ : n ≤ D) (ε : ℝ) (_ : 0 < ε),
    GoodSamples next s N n (fun retries => RNG.uintn src retries max)
      (fun l => ∀ j < max.toNat, |shareIn (fun r : U64 => r.toNat = j) l - 1 / max.toNat| < ε + (max.toNat + 2) / 2 ^ 64)
      (max.toNat * (2 * Real.exp (-(2 * n * ε ^ 2))) + n * (max.toNat / 2 ^ 64))
  /-- The distribution function of `n` results of `Exponential`, at all points at once; `2 r` words are set aside for each. -/
  exponential : ∀ (lib : MathLib) (_ : LogOk lib) (_ : ExpOk lib) (fused : Bool) (rate : F64) (_ : PosRate rate) (_ : 1 / 2 ^ 900 ≤ rv rate)
    (_ : rv rate ≤ 2 ^ 900) (r n : Nat) (_ : 0 < n) (_ : n * (2 * r) ≤ D) (k : Nat) (_ : 0 < k) (ε : ℝ) (_ : 0 < ε),
    GoodSamples next s N n (exponential lib fused rate src)
      (fun l => ∀ t, |shareIn (AtMost t) l - (1 - Real.exp (-(rv rate * max 0 t)))| < ε + (1 / 2 ^ 31 + (1 / 256) ^ r) + 1 / k)
      ((k - 1 : Nat) * (2 * Real.exp (-(2 * n * ε ^ 2))) + n * (1 / 256) ^ r)
  /-- And of `Normal`. -/
  normal : ∀ (lib : MathLib) (_ : LogOk lib) (_ : ExpOk lib) (fused fused' : Bool) (mean stddev : F64) (_ : mean.IsFin) (_ : |rv mean| ≤ 2 ^ 900)
    (_ : stddev.IsFin) (_ : 1 / 2 ^ 900 ≤ rv stddev) (_ : rv stddev ≤ 2 ^ 900) (r n : Nat) (_ : 0 < n) (_ : n * (2 * r) ≤ D) (k : Nat) (_ : 0 < k)
    (ε : ℝ) (_ : 0 < ε),
    GoodSamples next s N n (normal lib fused fused' mean stddev src)
      (fun l => ∀ t, |shareIn (AtMost t) l - (gaussianReal (rv mean) ⟨rv stddev ^ 2, sq_nonneg _⟩).real (Set.Iic t)| <
        ε + (1 / 2 ^ 31 + |rv mean| / rv stddev / 2 ^ 53 + (1 / 16) ^ r) + 1 / k)
      ((k - 1 : Nat) * (2 * Real.exp (-(2 * n * ε ^ 2))) + n * (1 / 16) ^ r)

end Crazy
