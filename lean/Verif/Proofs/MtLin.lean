/-
The word sequence of `MT64`, bit by bit: its characteristic polynomial.
-/
import Verif.Proofs.SeqPoly
import Verif.Props.MtRef
import Mathlib.Algebra.CharP.Two
import Mathlib.Tactic.Ring
import Mathlib.Tactic.LinearCombination
set_option maxRecDepth 8000
namespace Crazy
open Polynomial Kron
namespace MT64

/-- A bit as an element of the field with two elements. -/
def bit (x : U64) (j : Nat) : ZMod 2 := if x.getLsbD j then 1 else 0

theorem bit_xor (x y : U64) (j : Nat) : bit (x ^^^ y) j = bit x j + bit y j := by
  unfold bit
  rw [BitVec.getLsbD_xor]
  cases x.getLsbD j <;> cases y.getLsbD j <;> decide

theorem bit_ge (x : U64) {j : Nat} (h : 64 ≤ j) : bit x j = 0 := by
  unfold bit
  rw [BitVec.getLsbD_of_ge _ _ h]
  rfl

theorem bit_inj {x y : U64} (h : ∀ j < 64, bit x j = bit y j) : x = y := by
  apply BitVec.eq_of_getLsbD_eq
  intro i hi
  have := h i hi
  unfold bit at this
  revert this
  cases x.getLsbD i <;> cases y.getLsbD i <;> decide

/-- Upper 33 bits of one word, lower 31 of the next. -/
def join (a b : U64) : U64 := a.extractLsb' 31 33 ++ b.extractLsb' 0 31

theorem bit_join_lo (a b : U64) {j : Nat} (h : j < 31) : bit (join a b) j = bit b j := by
  unfold bit join
  rw [BitVec.getLsbD_append]
  simp [h]

theorem bit_join_hi (a b : U64) {j : Nat} (h : 31 ≤ j) : bit (join a b) j = bit a j := by
  by_cases h64 : 64 ≤ j
  · rw [bit_ge _ h64, bit_ge _ h64]
  · unfold bit join
    rw [BitVec.getLsbD_append]
    simp [show ¬ j < 31 by omega, show 31 + (j - 31) = j by omega, show j - 31 < 33 by omega]

theorem bit_twist (a b : U64) (j : Nat) : bit (twist a b) j = bit (join a b) (j + 1) + bit mt64A j * bit b 0 := by
  rw [twist_eq]
  show bit (if (join a b).getLsbD 0 then (join a b >>> 1) ^^^ mt64A else join a b >>> 1) j = _
  have h1 : bit (join a b >>> 1) j = bit (join a b) (j + 1) := by
    unfold bit
    rw [BitVec.getLsbD_ushiftRight, Nat.add_comm]
  have h0 : bit b 0 = bit (join a b) 0 := (bit_join_lo a b (by decide)).symm
  rw [h0]
  unfold bit at h1 ⊢
  by_cases hc : (join a b).getLsbD 0 = true
  · rw [if_pos hc, if_pos hc, mul_one, ← h1]
    exact bit_xor _ _ _
  · rw [if_neg hc, if_neg hc, mul_zero, add_zero]
    exact h1

/-- Bit `j` of the word sequence. -/
def bits (s : Vector U64 312) (j : Nat) : ℕ → ZMod 2 := fun n => bit (seq s n) j

/-- `X^312 + X^156`. -/
noncomputable def uP : (ZMod 2)[X] := X ^ 312 + X ^ 156

theorem act_two (a b : Nat) (y : ℕ → ZMod 2) (n : Nat) :
    aeval (shift (ZMod 2)) (X ^ a + X ^ b : (ZMod 2)[X]) y n = y (n + a) + y (n + b) := by
  rw [map_add, LinearMap.add_apply, Pi.add_apply, aeval_X_pow_shift, aeval_X_pow_shift]

theorem uP_act (s : Vector U64 312) (j : Nat) :
    aeval (shift (ZMod 2)) uP (bits s j) = fun n => bit (twist (seq s n) (seq s (n + 1))) j := by
  funext n
  have h := act_two 312 156 (bits s j) n
  rw [← uP] at h
  rw [h]
  show bit (seq s (n + 312)) j + bit (seq s (n + 156)) j = _
  rw [seq_ge, bit_xor, add_right_comm, CharTwo.add_self_eq_zero, zero_add]

/-- `X^min(j,30)` times bit `j` is this multiple of bit 0. -/
noncomputable def qP : Nat → (ZMod 2)[X]
  | 0 => 1
  | j + 1 => uP * qP j + C (bit mt64A j) * X ^ min (j + 1) 31

theorem qP_succ (j : Nat) : qP (j + 1) = uP * qP j + C (bit mt64A j) * X ^ min (j + 1) 31 := by rw [qP]

theorem qP_act (s : Vector U64 312) (j : Nat) (h : j ≤ 64) :
    aeval (shift (ZMod 2)) (X ^ min j 30 : (ZMod 2)[X]) (bits s j) = aeval (shift (ZMod 2)) (qP j) (bits s 0) := by
  induction j with
  | zero => rw [Nat.zero_min, pow_zero, qP]
  | succ j ih =>
    have ih := ih (by omega)
    have h2 : bit mt64A j • aeval (shift (ZMod 2)) (X : (ZMod 2)[X]) (bits s 0) + aeval (shift (ZMod 2)) uP (bits s j) =
        if j < 30 then aeval (shift (ZMod 2)) (X : (ZMod 2)[X]) (bits s (j + 1)) else bits s (j + 1) := by
      rw [uP_act]
      funext n
      rw [aeval_X]
      show bit mt64A j * bit (seq s (n + 1)) 0 + bit (twist (seq s n) (seq s (n + 1))) j = _
      rw [bit_twist, add_comm, add_assoc, CharTwo.add_self_eq_zero, add_zero]
      by_cases hj : j < 30
      · rw [if_pos hj, bit_join_lo _ _ (by omega)]; rfl
      · rw [if_neg hj, bit_join_hi _ _ (by omega)]; rfl
    rw [qP_succ, map_add, map_mul, LinearMap.add_apply, Module.End.mul_apply, ← ih]
    have e : aeval (shift (ZMod 2)) uP (aeval (shift (ZMod 2)) (X ^ min j 30 : (ZMod 2)[X]) (bits s j)) =
        aeval (shift (ZMod 2)) (X ^ min j 30 : (ZMod 2)[X]) (aeval (shift (ZMod 2)) uP (bits s j)) := by
      rw [← Module.End.mul_apply, ← Module.End.mul_apply, ← map_mul, ← map_mul, mul_comm]
    have e2 : aeval (shift (ZMod 2)) (C (bit mt64A j) * X ^ min (j + 1) 31) (bits s 0) =
        aeval (shift (ZMod 2)) (X ^ min j 30 : (ZMod 2)[X]) (bit mt64A j • aeval (shift (ZMod 2)) (X : (ZMod 2)[X]) (bits s 0)) := by
      rw [show min (j + 1) 31 = min j 30 + 1 by omega, pow_succ, map_mul, aeval_C, map_mul, map_smul,
        Module.End.mul_apply, Module.algebraMap_end_apply, Module.End.mul_apply]
    rw [e, e2, ← map_add, add_comm (aeval (shift (ZMod 2)) uP (bits s j)), h2]
    by_cases hj : j < 30
    · rw [if_pos hj, ← Module.End.mul_apply, ← map_mul, ← pow_succ]
      congr 3; omega
    · rw [if_neg hj]
      congr 3; omega

/-- The characteristic polynomial, with a power of `X` to spare. -/
theorem qP_bits0 (s : Vector U64 312) : aeval (shift (ZMod 2)) (qP 64) (bits s 0) = 0 := by
  rw [← qP_act s 64 le_rfl]
  have : bits s 64 = 0 := by
    funext n
    exact bit_ge _ le_rfl
  rw [this, map_zero]

theorem qP_bits (s : Vector U64 312) (j : Nat) : aeval (shift (ZMod 2)) (qP 64 * X ^ 30) (bits s j) = 0 := by
  by_cases h : j ≤ 64
  · have e : qP 64 * X ^ 30 = qP 64 * X ^ (30 - min j 30) * X ^ min j 30 := by
      rw [mul_assoc, ← pow_add]; congr 2; omega
    rw [e, map_mul, Module.End.mul_apply, qP_act s j h, ← Module.End.mul_apply, ← map_mul,
      show qP 64 * X ^ (30 - min j 30) * qP j = X ^ (30 - min j 30) * qP j * qP 64 by ring, map_mul,
      Module.End.mul_apply, qP_bits0, map_zero]
  · have : bits s j = 0 := by
      funext n
      exact bit_ge _ (by omega)
    rw [this, map_zero]

end MT64
end Crazy
