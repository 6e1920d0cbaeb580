/-
Specification vocabulary: how the results of a call are distributed over the states of a whole period of a generator.
-/
import Verif.Spec.EvenReads
import Verif.Spec.MathLib
import Verif.Model.Distr
import Mathlib.Probability.Distributions.Gaussian.Real
namespace Crazy
open ProbabilityTheory

/-- From the state `s` the call returns, and what it returns is of the kind `S`. (The argument of `call` bounds the number of its retries.) -/
def ReturnsSome {σ α : Type} (call : Nat → σ → Go (α × σ)) (S : α → Prop) (s : σ) : Prop :=
  ∃ retries r s', call retries s = .ok (r, s') ∧ S r

/-- Of the first `P` states that a run of outputs from `s` goes through, the share of those of the kind `A`. -/
noncomputable def shareOf {σ : Type} (next : σ → Go (U64 × σ)) (s : σ) (P : Nat) (A : σ → Prop) : ℝ := (places next s P A : ℝ) / (P : ℝ)

/-- Over the `P` states from `s` on, `Exponential{rate}.Next` is exponentially distributed up to `ε`: for every `t`, the share of the states from
which it returns a number up to `t` is `1 - e^(-rate t)` up to `ε`. -/
def ExponentialOver {σ : Type} (next : σ → Go (U64 × σ)) (src : Source σ) (s : σ) (P : Nat) (ε : ℝ) : Prop :=
  ∀ (lib : MathLib) (_ : LogOk lib) (_ : ExpOk lib) (fused : Bool) (rate : F64) (_ : PosRate rate) (_ : 1 / 2 ^ 900 ≤ rv rate)
    (_ : rv rate ≤ 2 ^ 900) (t : ℝ) (_ : 0 ≤ t),
    |shareOf next s P (ReturnsSome (exponential lib fused rate src) (AtMost t)) - (1 - Real.exp (-(rv rate * t)))| ≤ ε

/-- Over the `P` states from `s` on, `Normal{mean, stddev}.Next` is normally distributed up to `ε` and the rounding of the mean. -/
def NormalOver {σ : Type} (next : σ → Go (U64 × σ)) (src : Source σ) (s : σ) (P : Nat) (ε : ℝ) : Prop :=
  ∀ (lib : MathLib) (_ : LogOk lib) (_ : ExpOk lib) (fused fused' : Bool) (mean stddev : F64) (_ : mean.IsFin) (_ : |rv mean| ≤ 2 ^ 900)
    (_ : stddev.IsFin) (_ : 1 / 2 ^ 900 ≤ rv stddev) (_ : rv stddev ≤ 2 ^ 900) (t : ℝ),
    |shareOf next s P (ReturnsSome (normal lib fused fused' mean stddev src) (AtMost t)) -
      (gaussianReal (rv mean) ⟨rv stddev ^ 2, sq_nonneg _⟩).real (Set.Iic t)| ≤ ε + |rv mean| / rv stddev / 2 ^ 53

end Crazy
