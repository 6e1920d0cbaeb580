/-
A check that decimal constants round to given numbers, cheap enough for the kernel.
-/
import Verif.Model.ZigTables
import Verif.Proofs.Float
namespace Crazy
open F64

/-- The constant `d` rounds to `m * 2^k * 2^-114` for `w = (m, k)`: it is nearer to it than half a last place, or equal. -/
def chkRow (d w : Nat × Nat) : Bool :=
  Nat.blt w.1 (2 ^ 53) &&
  ((Nat.blt (2 ^ 52) w.1 && Nat.blt (2 * (d.1 * 2 ^ 114)) ((2 * w.1 + 1) * 2 ^ w.2 * 10 ^ d.2) &&
    Nat.blt ((2 * w.1 - 1) * 2 ^ w.2 * 10 ^ d.2) (2 * (d.1 * 2 ^ 114))) || Nat.beq (d.1 * 2 ^ 114) (w.1 * 2 ^ w.2 * 10 ^ d.2))

def chkRows : List (Nat × Nat) → List (Nat × Nat) → Bool
  | [], [] => true
  | d :: l, w :: m => chkRow d w && chkRows l m
  | _, _ => false

theorem chkRow_eq (e : Nat) (d w : Nat × Nat) (h : chkRow d w = true) :
    rndNat (d.1 * 2 ^ (114 + e)) (10 ^ d.2) = w.1 * 2 ^ (w.2 + e) ∧ w.1 < 2 ^ 53 := by
  unfold chkRow at h
  simp only [Bool.and_eq_true, Bool.or_eq_true, Nat.beq_eq, Nat.blt_eq] at h
  obtain ⟨h2, h3⟩ := h
  obtain ⟨m, k⟩ := w
  simp only at *
  have h10 : 0 < 10 ^ d.2 := Nat.pow_pos (by decide)
  have hp := Nat.two_pow_pos e
  refine ⟨?_, h2⟩
  rcases h3 with ⟨⟨h3, h4⟩, h5⟩ | h3
  · refine rndNat_of_close _ _ _ _ h10 h3 h2 ?_ ?_
    · calc 2 * (d.1 * 2 ^ (114 + e)) = 2 * (d.1 * 2 ^ 114) * 2 ^ e := by rw [pow_add]; ring
        _ < (2 * m + 1) * 2 ^ k * 10 ^ d.2 * 2 ^ e := Nat.mul_lt_mul_of_pos_right h4 hp
        _ = _ := by rw [pow_add]; ring
    · calc (2 * m - 1) * 2 ^ (k + e) * 10 ^ d.2 = (2 * m - 1) * 2 ^ k * 10 ^ d.2 * 2 ^ e := by rw [pow_add]; ring
        _ < 2 * (d.1 * 2 ^ 114) * 2 ^ e := Nat.mul_lt_mul_of_pos_right h5 hp
        _ = _ := by rw [pow_add]; ring
  · have : d.1 * 2 ^ (114 + e) = m * 2 ^ (k + e) * 10 ^ d.2 := by
      calc d.1 * 2 ^ (114 + e) = d.1 * 2 ^ 114 * 2 ^ e := by rw [pow_add]; ring
        _ = m * 2 ^ k * 10 ^ d.2 * 2 ^ e := by rw [h3]
        _ = _ := by rw [pow_add]; ring
    rw [this, rndNat_exact _ _ h10 ⟨m, k + e, h2, rfl⟩]

theorem chkRows_get : ∀ (l m : List (Nat × Nat)), chkRows l m = true →
    l.length = m.length ∧ ∀ i (h : i < l.length) (h' : i < m.length), chkRow l[i] m[i] = true
  | [], [], _ => ⟨rfl, fun i h => absurd h (Nat.not_lt_zero _)⟩
  | d :: l, w :: m, h => by
    rw [chkRows, Bool.and_eq_true] at h
    obtain ⟨h1, h2⟩ := chkRows_get l m h.2
    refine ⟨by simp [h1], fun i hi hi' => ?_⟩
    cases i with
    | zero => exact h.1
    | succ i => exact h2 i (by simpa using hi) (by simpa using hi')

end Crazy
