/-
The state updates of the xo* generators are bijections.
-/
import Verif.Model.Xoshiro
set_option linter.unusedSimpArgs false
namespace Crazy

theorem rotl64_bit (x : U64) (k : Nat) (hk : 0 < k) (hk' : k < 64) (i : Nat) (hi : i < 64) :
    (rotl64 x k).getLsbD i = if i < k then x.getLsbD (64 - k + i) else x.getLsbD (i - k) := by
  unfold rotl64
  rw [Nat.mod_eq_of_lt hk', Nat.mod_eq_of_lt (by omega : 64 - k < 64)]
  simp only [BitVec.getLsbD_or, BitVec.getLsbD_shiftLeft, BitVec.getLsbD_ushiftRight]
  by_cases h : i < k
  · simp [h, hi]
  · have : x.getLsbD (64 - k + i) = false := BitVec.getLsbD_of_ge _ _ (by omega)
    simp [h, hi, this]

theorem rotl64_xor (x y : U64) (k : Nat) (hk : 0 < k) (hk' : k < 64) :
    rotl64 (x ^^^ y) k = rotl64 x k ^^^ rotl64 y k := by
  apply BitVec.eq_of_getLsbD_eq
  intro i hi
  rw [BitVec.getLsbD_xor, rotl64_bit _ k hk hk' i hi, rotl64_bit _ k hk hk' i hi, rotl64_bit _ k hk hk' i hi]
  split <;> rw [BitVec.getLsbD_xor]

theorem rotl64_rotl64 (x : U64) (j k : Nat) (hj : 0 < j) (h : j + k = 64) (hk : 0 < k) :
    rotl64 (rotl64 x j) k = x := by
  apply BitVec.eq_of_getLsbD_eq
  intro i hi
  rw [rotl64_bit _ k hk (by omega) i hi]
  by_cases h1 : i < k
  · rw [if_pos h1, rotl64_bit _ j hj (by omega) _ (by omega), if_neg (by omega)]
    congr 1; omega
  · rw [if_neg h1, rotl64_bit _ j hj (by omega) _ (by omega), if_pos (by omega)]
    congr 1; omega

theorem xor_cancel_left (x y : U64) : x ^^^ (x ^^^ y) = y := by
  rw [← BitVec.xor_assoc, BitVec.xor_self, BitVec.zero_xor]

theorem shl_shl (x : U64) (j k : Nat) : (x <<< j) <<< k = x <<< (j + k) := (BitVec.shiftLeft_add x j k).symm

theorem shl_ge (x : U64) (j : Nat) (h : 64 ≤ j) : x <<< j = 0#64 := BitVec.shiftLeft_eq_zero h

theorem xor_lc (x y z : U64) : x ^^^ (y ^^^ z) = y ^^^ (x ^^^ z) := by
  rw [← BitVec.xor_assoc, BitVec.xor_comm x y, BitVec.xor_assoc]

theorem shl68 (x : U64) : x <<< 68 = 0#64 := shl_ge x 68 (by decide)

namespace Xoshiro

theorem unshift (x v : U64) : ((x ^^^ v) ^^^ ((x ^^^ v) <<< 17)) ^^^ (((x ^^^ v) ^^^ ((x ^^^ v) <<< 17)) <<< 34) ^^^
    (((v ^^^ (x <<< 17)) ^^^ ((v ^^^ (x <<< 17)) <<< 17)) ^^^ (((v ^^^ (x <<< 17)) ^^^ ((v ^^^ (x <<< 17)) <<< 17)) <<< 34)) = x := by
  simp only [BitVec.shiftLeft_xor_distrib, shl_shl, Nat.reduceAdd, shl68, BitVec.xor_assoc, xor_lc, BitVec.xor_comm,
    xor_cancel_left, BitVec.xor_self, BitVec.xor_zero, BitVec.zero_xor]

theorem reverse_step (g : Xoshiro) : g.step.reverse = g := by
  obtain ⟨w, x, y, z⟩ := g
  simp only [step, reverse, rotl64_rotl64 _ 45 19 (by decide) (by decide) (by decide), unshift]
  simp only [mk.injEq, BitVec.xor_assoc, xor_lc, BitVec.xor_comm, xor_cancel_left,
    BitVec.xor_self, BitVec.xor_zero, BitVec.zero_xor, and_self]

theorem step_reverse (g : Xoshiro) : g.reverse.step = g := by
  obtain ⟨w, x, y, z⟩ := g
  have hz := rotl64_rotl64 z 19 45 (by decide) (by decide) (by decide)
  simp only [step, reverse, rotl64_xor _ _ 45 (by decide) (by decide), hz, mk.injEq, BitVec.shiftLeft_xor_distrib, shl_shl, Nat.reduceAdd, shl68, BitVec.xor_assoc, xor_lc, BitVec.xor_comm, xor_cancel_left,
    BitVec.xor_self, BitVec.xor_zero, BitVec.zero_xor, and_self]

end Xoshiro

namespace Xoroshiro

/-- The inverse of a step. -/
def unstep (g : Xoroshiro) : Xoroshiro :=
  let u := rotl64 g.s1 28
  let s0 := rotl64 (g.s0 ^^^ u ^^^ (u <<< 14)) 9
  ⟨s0, u ^^^ s0⟩

theorem unstep_step (g : Xoroshiro) : g.step.unstep = g := by
  obtain ⟨a, b⟩ := g
  simp only [step, unstep, rotl64_rotl64 _ 36 28 (by decide) (by decide) (by decide)]
  have e : rotl64 a 55 ^^^ (b ^^^ a) ^^^ ((b ^^^ a) <<< 14) ^^^ (b ^^^ a) ^^^ ((b ^^^ a) <<< 14) = rotl64 a 55 := by
    generalize b ^^^ a = c
    simp only [BitVec.xor_assoc, xor_lc, BitVec.xor_comm, xor_cancel_left, BitVec.xor_self, BitVec.xor_zero]
  rw [e, rotl64_rotl64 _ 55 9 (by decide) (by decide) (by decide), BitVec.xor_assoc, BitVec.xor_self, BitVec.xor_zero]

theorem step_unstep (g : Xoroshiro) : g.unstep.step = g := by
  obtain ⟨a, b⟩ := g
  simp only [step, unstep]
  rw [rotl64_rotl64 _ 9 55 (by decide) (by decide) (by decide)]
  rw [BitVec.xor_assoc (rotl64 b 28), BitVec.xor_self, BitVec.xor_zero,
    rotl64_rotl64 _ 28 36 (by decide) (by decide) (by decide)]
  generalize rotl64 b 28 = c
  simp only [BitVec.xor_assoc, xor_lc, BitVec.xor_comm, xor_cancel_left, BitVec.xor_self, BitVec.xor_zero]

end Xoroshiro
end Crazy
