/-
Specification vocabulary: the infinite run of a generator under `Uint64`.
-/
import Verif.Spec.Stream
namespace Crazy

/-- `n` calls of `Uint64` lead from state `s` to state `t`. -/
def Leads {σ : Type} (next : σ → Go (U64 × σ)) (n : Nat) (s t : σ) : Prop := ∃ xs, draws next n s = .ok (xs, t)

/-- In a run from `s`, the calls number `n`, `n + 1`, ... (counting from 0) return the words `ws`. -/
def Emits {σ : Type} (next : σ → Go (U64 × σ)) (s : σ) (n : Nat) (ws : List U64) : Prop :=
  ∃ t t', Leads next n s t ∧ draws next ws.length t = .ok (ws, t')

/-- In a run from `s`, the output after any number of calls comes again `p` calls later. -/
def OutputPeriod {σ : Type} (next : σ → Go (U64 × σ)) (s : σ) (p : Nat) : Prop :=
  ∀ n x, Emits next s n [x] ↔ Emits next s (n + p) [x]

end Crazy
