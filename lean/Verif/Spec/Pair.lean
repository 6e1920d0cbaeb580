/-
Two sources of their own, composed (`util.go` 7-23).
-/
import Verif.Spec.Calls
import Verif.Spec.Period
import Verif.Props.Compose
namespace Crazy

/-- `XorCompose{A, B}`, where `A` and `B` share nothing. -/
def Source.xor {σ τ : Type} (A : Source σ) (B : Source τ) : Source (σ × τ) where
  read := xorCompose A.left B.right
  len_buf p s r s' h := by
    have hc := C19_xorCompose (A.left (τ := τ)) (B.right (σ := σ)) p s
    cases ha : (A.left (τ := τ)).read p s with
    | error e => rw [hc.2.1 e ha] at h; contradiction
    | ok ra =>
      cases hb : (B.right (σ := σ)).read (List.replicate p.length 0#8) ra.2 with
      | error e => rw [hc.2.2 ra.1 ra.2 e ha hb] at h; contradiction
      | ok rb =>
        obtain ⟨q, h1, h2, -⟩ := hc.1 ra.1 ra.2 rb.1 rb.2 ha hb
        rw [h1, Except.ok.injEq, Prod.mk.injEq] at h
        rw [← h.1]
        exact h2

/-- No call in a run from `s` fails. -/
def NeverFails {σ : Type} (next : σ → Go (U64 × σ)) (s : σ) : Prop := ∀ n, ∃ x, Emits next s n [x]

end Crazy
