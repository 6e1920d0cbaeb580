/-
Specification vocabulary: what a generator gives right after seeding, averaged over all seeds.
-/
import Verif.Spec.PeriodDist
import Verif.Spec.Prob
import Verif.Model.RandString
import Verif.Props.Shuffle
import Verif.Model.GenSources
namespace Crazy
open ProbabilityTheory

/-- Of all the seeds in `ι`, the share of those after which the generator is in a state of the kind `A`. -/
noncomputable def shareOfSeeds {ι σ : Type} (seed : ι → Go σ) (A : σ → Prop) : ℝ :=
  (Nat.card {x : ι // ∃ s, seed x = .ok s ∧ A s} : ℝ) / (Nat.card ι : ℝ)

/-- Over all the seeds in `ι`, what is computed from the first words is distributed as if these were ideally random: the first `l` words
exactly so, and random numbers, shuffles, strings up to the stated errors, which are due to the draws beyond the first `l` words. The numbers
`εe` and `εn` are such errors for exponential and normal variates. -/
structure FairSeeds {ι σ : Type} (seed : ι → Go σ) (src : Source σ) (l : Nat) (εe εn : ℝ) : Prop where
  words : ∀ m ≤ l, ∀ S : List U64 → Prop,
    shareOfSeeds seed (fun s => ∃ ws s', draws (RNG.uint64 src) m s = .ok (ws, s') ∧ S ws) = prob m S
  uintn : ∀ (max : U64) (_ : max ≠ 0#64) (m : Nat) (_ : 0 < m) (_ : m ≤ l) (S : List Nat → Prop),
    |shareOfSeeds seed (ReturnsSome (fun retries => draws (RNG.uintn src retries max) m) fun js => S (js.map BitVec.toNat)) -
      uniformShare max.toNat m S| ≤ m * (max.toNat + 1) / 2 ^ 64
  shuffle : ∀ {α : Type} (data : List α) (_ : data ≠ []) (_ : data.length ≤ l) (T : List α → Prop),
    |shareOfSeeds seed (ReturnsSome (fun retries => shuffleSlice src retries data) T) -
      (Nat.card {j : Fin data.length → Fin data.length // T (permuted data (shufflePerm j))} : ℝ) / (data.length : ℝ) ^ data.length| ≤
        data.length * (data.length + 1) / 2 ^ 64
  randString : ∀ (alphabet : List Byte) (_ : alphabet ≠ []) (_ : alphabet.length < 2 ^ 63) (ts : List Nat) (_ : ts ≠ []) (_ : ts.length ≤ l),
    |shareOfSeeds seed (ReturnsSome (fun retries => randString src retries alphabet ts.length) fun out => runes out = ts) -
      (ts.map fun t => ((runes alphabet).count t : ℝ) / (runes alphabet).length).prod| ≤ ts.length * ((runes alphabet).length + 1) / 2 ^ 64
  exponential : ∀ (lib : MathLib) (_ : LogOk lib) (_ : ExpOk lib) (fused : Bool) (rate : F64) (_ : PosRate rate) (_ : 1 / 2 ^ 900 ≤ rv rate)
    (_ : rv rate ≤ 2 ^ 900) (t : ℝ) (_ : 0 ≤ t),
    |shareOfSeeds seed (ReturnsSome (exponential lib fused rate src) (AtMost t)) - (1 - Real.exp (-(rv rate * t)))| ≤ εe
  normal : ∀ (lib : MathLib) (_ : LogOk lib) (_ : ExpOk lib) (fused fused' : Bool) (mean stddev : F64) (_ : mean.IsFin) (_ : |rv mean| ≤ 2 ^ 900)
    (_ : stddev.IsFin) (_ : 1 / 2 ^ 900 ≤ rv stddev) (_ : rv stddev ≤ 2 ^ 900) (t : ℝ),
    |shareOfSeeds seed (ReturnsSome (normal lib fused fused' mean stddev src) (AtMost t)) -
      (gaussianReal (rv mean) ⟨rv stddev ^ 2, sq_nonneg _⟩).real (Set.Iic t)| ≤ εn + |rv mean| / rv stddev / 2 ^ 53

end Crazy
