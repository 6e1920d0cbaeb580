/-
Specification vocabulary: random numbers, orders and texts over the states of a whole period of a generator.
-/
import Verif.Spec.PeriodDist
import Verif.Spec.Prob
import Verif.Model.RandString
import Verif.Props.Shuffle
namespace Crazy

/-- Over the states of a period of `2^N - 1` words from `s` on, up to `D` calls in a row of `Uintn`, the shuffles of up to `D` elements and
random strings of up to `D` letters come as often as on ideal words, with the stated error. -/
structure CallsOver {σ : Type} (next : σ → Go (U64 × σ)) (src : Source σ) (s : σ) (N D : Nat) : Prop where
  /-- For every set `S` of lists: the share of the states from which `m` calls of `Uintn(max)` return a list in `S` is the share of `S` among
  the lists of `m` numbers below `max`, up to `m (max + 2) / 2^64`. -/
  uintn : ∀ (max : U64) (_ : max ≠ 0#64) (m : Nat) (_ : 0 < m) (_ : m ≤ D) (S : List Nat → Prop),
    |shareOf next s (2 ^ N - 1) (ReturnsSome (fun retries => draws (RNG.uintn src retries max) m) fun js => S (js.map BitVec.toNat)) -
      uniformShare max.toNat m S| ≤ m * (max.toNat + 2) / 2 ^ 64
  /-- For every set `T` of slices: the share of the states from which a shuffle of `n` elements ends in `T` is the share of the `n^n` lists of
  swap partners that lead to `T`, up to `n (n + 2) / 2^64`. -/
  shuffle : ∀ {α : Type} (data : List α) (_ : data ≠ []) (_ : data.length ≤ D) (T : List α → Prop),
    |shareOf next s (2 ^ N - 1) (ReturnsSome (fun retries => shuffleSlice src retries data) T) -
      (Nat.card {j : Fin data.length → Fin data.length // T (permuted data (shufflePerm j))} : ℝ) / (data.length : ℝ) ^ data.length| ≤
        data.length * (data.length + 2) / 2 ^ 64
  /-- The share of the states from which `RandString` gives the text `ts` is the product of the relative frequencies of its letters in the
  alphabet, up to `n (a + 2) / 2^64` for `n` letters from an alphabet of `a`. -/
  randString : ∀ (alphabet : List Byte) (_ : alphabet ≠ []) (_ : alphabet.length < 2 ^ 63) (ts : List Nat) (_ : ts ≠ []) (_ : ts.length ≤ D),
    |shareOf next s (2 ^ N - 1) (ReturnsSome (fun retries => randString src retries alphabet ts.length) fun out => runes out = ts) -
      (ts.map fun t => ((runes alphabet).count t : ℝ) / (runes alphabet).length).prod| ≤ ts.length * ((runes alphabet).length + 2) / 2 ^ 64

/-- In the course of a period of `P` words from `s` on every list of up to `D` random numbers, every order of up to `D` elements and every text
of up to `D` letters is returned from some state. -/
structure AllOccur {σ : Type} (next : σ → Go (U64 × σ)) (src : Source σ) (s : σ) (P D : Nat) : Prop where
  uintn : ∀ (max : U64) (js : List U64), max.toNat < 2 ^ 62 → (∀ j ∈ js, j.toNat < max.toNat) → js.length ≤ D →
    ∃ n < P, ∃ ws t t', draws next n s = .ok (ws, t) ∧ draws (RNG.uintn src 0 max) js.length t = .ok (js, t')
  shuffle : ∀ {α : Type} (data out : List α), out.Perm data → data.length ≤ D →
    ∃ n < P, ∃ ws t t', draws next n s = .ok (ws, t) ∧ shuffleSlice src 0 data t = .ok (out, t')
  randString : ∀ (alphabet : List Byte) (ts : List Nat), alphabet.length < 2 ^ 62 → (∀ t ∈ ts, t ∈ runes alphabet) → ts.length ≤ D →
    ∃ n < P, ∃ ws t out t', draws next n s = .ok (ws, t) ∧ randString src 0 alphabet ts.length t = .ok (out, t') ∧ runes out = ts

end Crazy
