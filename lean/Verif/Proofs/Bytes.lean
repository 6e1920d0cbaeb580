/-
Lemmas about the byte-level primitives of `Verif.Model.Go`.
-/
import Verif.Model.Go
namespace Crazy

/-- Specification: the natural number a byte list denotes, least significant byte first. -/
def leNat : List Byte → Nat
  | [] => 0
  | b :: bs => b.toNat + 256 * leNat bs

@[simp] theorem le64_length (v : U64) : (le64 v).length = 8 := rfl

@[simp] theorem zeros_length (n : Nat) : (zeros n).length = n := by simp [zeros]

theorem copyInto_length (d s : List Byte) : (copyInto d s).length = d.length := by
  simp [copyInto]; omega

theorem u64le_le64 (x : U64) (r : List Byte) : u64le (le64 x ++ r) = .ok x := by
  simp only [le64, List.cons_append, u64le]
  congr 1
  apply BitVec.eq_of_getLsbD_eq
  intro i hi
  simp only [BitVec.getLsbD_or, BitVec.getLsbD_setWidth, BitVec.getLsbD_shiftLeft,
    BitVec.getLsbD_ushiftRight]
  grind

theorem u64le_eq (b : List Byte) (h : 8 ≤ b.length) :
    ∃ x, u64le b = .ok x ∧ le64 x = b.take 8 := by
  match b, h with
  | b0 :: b1 :: b2 :: b3 :: b4 :: b5 :: b6 :: b7 :: r, _ =>
    refine ⟨_, rfl, ?_⟩
    simp only [le64, List.take_succ_cons, List.take_zero, List.cons.injEq, and_true]
    refine ⟨?_, ?_, ?_, ?_, ?_, ?_, ?_, ?_⟩ <;>
    · apply BitVec.eq_of_getLsbD_eq
      intro i hi
      simp only [BitVec.getLsbD_or, BitVec.getLsbD_setWidth, BitVec.getLsbD_shiftLeft,
        BitVec.getLsbD_ushiftRight]
      grind

theorem le64_injective {x y : U64} (h : le64 x = le64 y) : x = y := by
  have := u64le_le64 x []
  rw [h, u64le_le64] at this
  exact (Except.ok.inj this).symm

end Crazy
