/-
Specification vocabulary: periods of runs of calls of one method.
-/
import Verif.Spec.Calls
namespace Crazy

/-- In a run of calls from `s`, every result comes again `p` calls later. -/
def CallPeriod {σ α : Type} (call : σ → Go (α × σ)) (s : σ) (p : Nat) : Prop := ∀ n v, Nth call n s v ↔ Nth call (n + p) s v

/-- In a run of `Uint64` calls from `s`, what `f` makes of a result comes again `p` calls later. -/
def FnPeriod {σ α : Type} (src : Source σ) (f : U64 → α) (s : σ) (p : Nat) : Prop :=
  ∀ n v w, Nth (RNG.uint64 src) n s v → Nth (RNG.uint64 src) (n + p) s w → f v = f w

/-- The results of each method, and each single bit of those of `Uint64`, repeat after the multiples of `P` calls and not otherwise, and
whatever else is made of the results of `Uint64` does not repeat before the `P/2^64`-th call, unless it is constant. -/
structure FullPeriod {σ : Type} (src : Source σ) (s : σ) (P : Nat) : Prop where
  uint64 : ∀ k, CallPeriod (RNG.uint64 src) s k ↔ P ∣ k
  uint32 : ∀ k, CallPeriod (RNG.uint32 src) s k ↔ P ∣ k
  uint16 : ∀ k, CallPeriod (RNG.uint16 src) s k ↔ P ∣ k
  uniform1_2 : ∀ k, CallPeriod (uniform12 src) s k ↔ P ∣ k
  uniform0_1 : ∀ k, CallPeriod (uniform01 src) s k ↔ P ∣ k
  bit : ∀ b < 64, ∀ k, FnPeriod src (fun w => w.getLsbD b) s k ↔ P ∣ k
  fn : ∀ (f : U64 → Prop) (v w : U64), f v → ¬ f w → ∀ k, 0 < k → FnPeriod src f s k → P < k * 2 ^ 64

/-- Bit `b` of the results of `Uint64` repeats after the multiples of `M 2^b` calls and not otherwise, so that what is made of the `k` lowest
bits, by the other methods, repeats after the multiples of `M 2^(k-1)` calls only. -/
structure BitPeriods {σ : Type} (src : Source σ) (s : σ) (M : Nat) : Prop where
  bit : ∀ b < 64, ∀ k, FnPeriod src (fun w => w.getLsbD b) s k ↔ M * 2 ^ b ∣ k
  uint64 : ∀ k, CallPeriod (RNG.uint64 src) s k ↔ M * 2 ^ 63 ∣ k
  uint32 : ∀ k, CallPeriod (RNG.uint32 src) s k ↔ M * 2 ^ 31 ∣ k
  uint16 : ∀ k, CallPeriod (RNG.uint16 src) s k ↔ M * 2 ^ 15 ∣ k
  uniform1_2 : ∀ k, CallPeriod (uniform12 src) s k ↔ M * 2 ^ 51 ∣ k
  uniform0_1 : ∀ k, CallPeriod (uniform01 src) s k ↔ M * 2 ^ 52 ∣ k

/-- Bit `b` of the results of `Uint64` repeats after the multiples of `P b` calls and not otherwise, and the results of the methods, which
keep the lowest 64, 32, 16, 52 and 53 bits, after the multiples of the number for the highest bit they keep. -/
structure Periods {σ : Type} (src : Source σ) (s : σ) (P : Nat → Nat) : Prop where
  bit : ∀ b < 64, ∀ k, FnPeriod src (fun w => w.getLsbD b) s k ↔ P b ∣ k
  uint64 : ∀ k, CallPeriod (RNG.uint64 src) s k ↔ P 63 ∣ k
  uint32 : ∀ k, CallPeriod (RNG.uint32 src) s k ↔ P 31 ∣ k
  uint16 : ∀ k, CallPeriod (RNG.uint16 src) s k ↔ P 15 ∣ k
  uniform1_2 : ∀ k, CallPeriod (uniform12 src) s k ↔ P 51 ∣ k
  uniform0_1 : ∀ k, CallPeriod (uniform01 src) s k ↔ P 52 ∣ k

/-- From `s`, the `n`-th of the reads of `k` bytes gives the bytes `a n`. -/
def RunOf {σ : Type} (k : Nat) (src : Source σ) (s : σ) (a : Nat → List Byte) : Prop :=
  ∃ st : Nat → σ, st 0 = s ∧ ∀ n, src.read (zeros k) (st n) = .ok (⟨a n, k, none⟩, st (n + 1))

/-- The reads the methods make can go on for ever. -/
def Runs {σ : Type} (src : Source σ) (s : σ) : Prop := ∀ k ≤ 8, ∃ a, RunOf k src s a

end Crazy
