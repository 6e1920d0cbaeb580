/-
Three sources of their own, composed (`util.go` 25-41).
-/
import Verif.Spec.Pair
import Verif.Spec.CallPeriod
namespace Crazy

/-- `SelectCompose{S, A, B}`, where `S`, `A` and `B` share nothing. -/
def Source.select {σ τ υ : Type} (S : Source σ) (A : Source τ) (B : Source υ) : Source (σ × τ × υ) where
  read := selectCompose S.left A.left.right B.right.right
  len_buf p s r s' h := by
    have hc := C20_selectCompose (S.left (τ := τ × υ)) ((A.left (τ := υ)).right (σ := σ)) ((B.right (σ := τ)).right (σ := σ)) p s
    cases hs : (S.left (τ := τ × υ)).read (List.replicate p.length 0#8) s with
    | error e => rw [hc.2.1 e hs] at h; contradiction
    | ok rs =>
      cases ha : ((A.left (τ := υ)).right (σ := σ)).read p rs.2 with
      | error e => rw [hc.2.2.1 rs.1 rs.2 e hs ha] at h; contradiction
      | ok ra =>
        cases hb : ((B.right (σ := τ)).right (σ := σ)).read (List.replicate p.length 0#8) ra.2 with
        | error e => rw [hc.2.2.2 rs.1 rs.2 ra.1 ra.2 e hs ha hb] at h; contradiction
        | ok rb =>
          obtain ⟨q, h1, h2, -⟩ := hc.1 rs.1 rs.2 ra.1 ra.2 rb.1 rb.2 hs ha hb
          rw [h1, Except.ok.injEq, Prod.mk.injEq] at h
          rw [← h.1]
          exact h2

/-- Each bit `i` of the reads of up to eight bytes repeats after the multiples of `P i` reads and not otherwise. -/
def BitRun {σ : Type} (src : Source σ) (s : σ) (P : Nat → Nat) : Prop :=
  ∀ k ≤ 8, ∃ a, RunOf k src s a ∧ ∀ i < 8 * k, ∀ T, (∀ n, (leNat (a (n + T))).testBit i = (leNat (a n)).testBit i) ↔ P i ∣ T

/-- Bit `j` of the byte at place `m`. -/
def bitOf (m j : Nat) (t : List Byte) : Bool := (t[m]?.getD 0#8).getLsbD j

end Crazy
