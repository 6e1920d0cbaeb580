/-
Specification vocabulary: counting byte strings, and a source that replays given bytes.
-/
import Verif.Model.Source
import Mathlib.SetTheory.Cardinal.Finite
namespace Crazy

/-- How many of the 256^n byte strings of length `n` satisfy `P`. -/
noncomputable def countBytes (n : Nat) (P : List Byte → Prop) : Nat := Nat.card {b : List Byte // b.length = n ∧ P b}

/-- A source that answers each read with the next bytes of a tape, and panics when there are not enough. -/
def byteTape : Source (List Byte) where
  read p s := if p.length ≤ s.length then .ok (⟨s.take p.length, p.length, none⟩, s.drop p.length)
    else .error (.explicit "tape used up")
  len_buf p s r s' h := by
    by_cases hl : p.length ≤ s.length
    · simp only [if_pos hl, Except.ok.injEq, Prod.mk.injEq] at h
      rw [← h.1, List.length_take]
      omega
    · rw [if_neg hl] at h; contradiction

end Crazy
