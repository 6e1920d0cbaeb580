/-
Specification vocabulary: what a call gives from all the states of a whole period.
-/
import Verif.Model.RNG
import Verif.Spec.Stream
import Mathlib.SetTheory.Cardinal.Finite
namespace Crazy

/-- How many of the first `P` states that a run of outputs from `s` goes through are of the kind `A`. -/
noncomputable def places {σ : Type} (next : σ → Go (U64 × σ)) (s : σ) (P : Nat) (A : σ → Prop) : Nat :=
  Nat.card {n : Nat // n < P ∧ ∃ ws t, draws next n s = .ok (ws, t) ∧ A t}

open Classical in
/-- From the `2^N - 1` states of a period every result of a call that reads no more than `8 D` bytes comes exactly as often as it would if
the bytes were ideally random, but the result of reading only zeros once less. -/
structure EvenReads {σ : Type} (next : σ → Go (U64 × σ)) (src : Source σ) (s : σ) (N D : Nat) : Prop where
  read : ∀ p q : List Byte, q.length = p.length → p.length ≤ 8 * D →
    places next s (2 ^ N - 1) (fun t => ∃ t', src.read p t = .ok (⟨q, p.length, none⟩, t')) =
      if ∀ b ∈ q, b = 0#8 then 2 ^ (N - 8 * p.length) - 1 else 2 ^ (N - 8 * p.length)
  big : ∀ nbits v : Nat, nbits % 8 ≠ 0 → nbits ≤ 64 * D → v < 2 ^ nbits →
    places next s (2 ^ N - 1) (fun t => ∃ t', RNG.big src nbits t = .ok ((v : Int), t')) =
      if v = 0 then 2 ^ (N - nbits) - 1 else 2 ^ (N - nbits)
  big8 : ∀ nbits v : Nat, 0 < nbits → nbits % 8 = 0 → nbits ≤ 64 * D → v < 2 ^ (nbits - 8) →
    places next s (2 ^ N - 1) (fun t => ∃ t', RNG.big src nbits t = .ok ((v : Int), t')) =
      if v = 0 then 2 ^ (N - nbits + 8) - 1 else 2 ^ (N - nbits + 8)
  words : ∀ l ≤ D, ∀ S : List U64 → Prop,
    places next s (2 ^ N - 1) (fun t => ∃ ws t', draws (RNG.uint64 src) l t = .ok (ws, t') ∧ S ws) + (if S (List.replicate l 0#64) then 1 else 0) =
      2 ^ (N - 64 * l) * Nat.card {ws : List U64 // ws.length = l ∧ S ws}

end Crazy
