/-
The tempering of `MT64` loses nothing.
-/
import Verif.Proofs.MtCycle
import Verif.Proofs.Cycle
import Mathlib.Data.Fintype.EquivFin
namespace Crazy
namespace MT64

theorem shr_inj (k : Nat) (hk : 0 < k) (m x y : U64) (h : x ^^^ ((x >>> k) &&& m) = y ^^^ ((y >>> k) &&& m)) : x = y := by
  have key : ∀ d i, 64 ≤ i + d → x.getLsbD i = y.getLsbD i := by
    intro d
    induction d with
    | zero =>
      intro i hi
      rw [BitVec.getLsbD_of_ge _ _ (by omega), BitVec.getLsbD_of_ge _ _ (by omega)]
    | succ d ih =>
      intro i hi
      have h1 := congrArg (BitVec.getLsbD · i) h
      simp only [BitVec.getLsbD_xor, BitVec.getLsbD_and, BitVec.getLsbD_ushiftRight] at h1
      rw [ih (k + i) (by omega)] at h1
      exact Bool.xor_left_inj.mp h1
  apply BitVec.eq_of_getLsbD_eq
  intro i hi
  exact key 64 i (by omega)

theorem shl_inj (k : Nat) (hk : 0 < k) (m x y : U64) (h : x ^^^ ((x <<< k) &&& m) = y ^^^ ((y <<< k) &&& m)) : x = y := by
  apply BitVec.eq_of_getLsbD_eq
  intro i hi
  induction i using Nat.strongRecOn with
  | ind i ih =>
    have h1 := congrArg (BitVec.getLsbD · i) h
    simp only [BitVec.getLsbD_xor, BitVec.getLsbD_and, BitVec.getLsbD_shiftLeft] at h1
    by_cases hik : i < k
    · simpa [hik] using h1
    · rw [ih (i - k) (by omega) (by omega)] at h1
      exact Bool.xor_left_inj.mp h1

theorem shr_inj' (k : Nat) (hk : 0 < k) (x y : U64) (h : x ^^^ (x >>> k) = y ^^^ (y >>> k)) : x = y :=
  shr_inj k hk (BitVec.allOnes 64) x y (by rw [BitVec.and_allOnes, BitVec.and_allOnes]; exact h)

theorem temper_inj {x y : U64} (h : temper x = temper y) : x = y := by
  unfold temper at h
  have h1 := shr_inj' 43 (by decide) _ _ h
  exact shr_inj 29 (by decide) _ _ _ (shl_inj 17 (by decide) _ _ _ (shl_inj 37 (by decide) _ _ _ h1))

theorem temper_zero : temper 0#64 = 0#64 := by decide

theorem temper_surj : Function.Surjective temper :=
  Finite.injective_iff_surjective.mp fun _ _ h => temper_inj h

/-- The most significant bit of an output. -/
theorem temper_msb (x : U64) : bit (temper x) 63 = bit x 63 + bit x 26 + bit x 55 + bit x 9 := by
  have e : (temper x).getLsbD 63 = (x.getLsbD 63 ^^ x.getLsbD 26 ^^ x.getLsbD 55 ^^ x.getLsbD 9) := by
    unfold temper
    simp
  unfold bit
  rw [e]
  cases x.getLsbD 63 <;> cases x.getLsbD 26 <;> cases x.getLsbD 55 <;> cases x.getLsbD 9 <;> decide

end MT64
end Crazy
