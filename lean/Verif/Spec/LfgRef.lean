/-
Specification: the sequence of which `LFG` returns a part after `SeedIV`, independently of the ring buffer.
-/
import Verif.Model.LfgTable
namespace Crazy
namespace LfgRef

/-- 335 starting words, then the sum of the last word and the one 335 places back. -/
def y (w : Nat → U64) (n : Nat) : U64 := if n < 335 then w n else y w (n - 1) + y w (n - 335)
termination_by n

/-- Word `j` of the constant table `lfgS0` (`lfg.go`). -/
def table (j : Nat) : U64 := BitVec.ofNat 64 (lfgS0Nat.getD j 0)

/-- The starting words for `iv`: to word `k` of the table is added, for every byte `v` of `iv` whose position `i` is `k - 334` modulo
607, word `v + 256 * i` (modulo 607) of the table. -/
def start (iv : List Byte) (k : Nat) : U64 :=
  table k + (((List.range iv.length).filter fun i => (i + 334) % 607 = k).map fun i => table (((iv.getD i 0#8).toNat + 256 * i) % 607)).sum

end LfgRef
end Crazy
