/-
Specification vocabulary: the output stream of a generator and its byte image.
-/
import Verif.Model.Go
namespace Crazy

/-- `n` successive outputs of a generator and the state afterwards (or the panic that stopped it). -/
def draws {σ : Type} (next : σ → Go (U64 × σ)) : Nat → σ → Go (List U64 × σ)
  | 0, s => .ok ([], s)
  | n + 1, s => do
    let (x, s) ← next s
    let (xs, s) ← draws next n s
    return (x :: xs, s)

/-- The bytes of a list of 64-bit words, each least significant byte first. -/
def bytesOf (ws : List U64) : List Byte :=
  ws.flatMap fun w => (List.range 8).map fun k => BitVec.ofNat 8 (w.toNat / 256 ^ k)

end Crazy
