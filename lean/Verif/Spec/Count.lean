/-
Specification vocabulary: counting 64-bit words, and a source that replays given words.
-/
import Verif.Model.Source
import Verif.Proofs.Bytes
import Mathlib.SetTheory.Cardinal.Finite
namespace Crazy

/-- How many of the 2^64 words satisfy `P`. -/
noncomputable def countWords (P : U64 → Prop) : Nat := Nat.card {x : U64 // P x}

/-- A source that answers each read with the little-endian bytes of the next word of a tape (it is only ever asked for
eight bytes below), and panics when the tape is used up. -/
def tape : Source (List U64) where
  read p
    | [] => .error (.explicit "tape used up")
    | x :: xs => .ok (⟨copyInto p (le64 x), p.length, none⟩, xs)
  len_buf p s r s' h := by
    cases s with
    | nil => contradiction
    | cons x xs =>
      simp only [Except.ok.injEq, Prod.mk.injEq] at h
      rw [← h.1]
      exact copyInto_length _ _

end Crazy
