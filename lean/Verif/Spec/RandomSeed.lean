/-
Specification vocabulary: generators seeded with random bytes, as `CryptoSeeded(g, n)` does.
-/
import Verif.Spec.Period
import Verif.Spec.ProbBytes
import Verif.Model.Util
namespace Crazy

/-- The probability that a generator seeded with `SeedIV` from `L` independent, uniform bytes and then called `n` times is in a state of the
kind `A`. -/
noncomputable def seedShare {σ : Type} (seedIV : List Byte → σ → Go σ) (next : σ → Go (U64 × σ)) (g : σ) (L n : Nat) (A : σ → Prop) : ℝ :=
  probBytes L fun iv => ∃ s t, seedIV iv g = .ok s ∧ Leads next n s t ∧ A t

/-- The probability that `P` holds of `k` ivs of `L` bytes each, all bytes independent and uniform. -/
noncomputable def probSeedings (k L : Nat) (P : (Fin k → List Byte) → Prop) : ℝ :=
  (Nat.card {v : Fin k → List Byte // (∀ i, (v i).length = L) ∧ P v} : ℝ) / (256 ^ L) ^ k

/-- While drawing `n` outputs each, two generators in the states `s` and `t` get into a state they have in common (and their outputs are the
same from there on). -/
def Meet {σ : Type} (next : σ → Go (U64 × σ)) (n : Nat) (s t : σ) : Prop :=
  ∃ a < n, ∃ b < n, ∃ h, Leads next a s h ∧ Leads next b t h

/-- `crypto/rand.Reader`, in a world made of the random bytes still to come and a generator: each read takes the next bytes. -/
def cryptoTape (σ : Type) : Source (List Byte × σ) where
  read p w := do
    let (r, t) ← byteTape.read p w.1
    return (r, (t, w.2))
  len_buf p w r w' h := by
    cases hb : byteTape.read p w.1 with
    | error e => rw [hb] at h; contradiction
    | ok q =>
      rw [hb] at h
      have h1 : r = q.1 := (congrArg Prod.fst (Except.ok.inj h)).symm
      rw [h1]
      exact byteTape.len_buf _ _ _ _ hb

/-- The generator of that world, as far as it can be read from and seeded with `SeedIV`. -/
def beside {σ : Type} (seedIV : List Byte → σ → Go σ) (src : Source σ) : Obj (List Byte × σ) where
  read? := some fun p w => do
    let (r, t) ← src.read p w.2
    return (r, (w.1, t))
  seedIV? := some fun iv w => do
    let t ← seedIV iv w.2
    return (w.1, t)
  int63? := none
  uint64? := none
  seed? := none
  len_buf f hf p w r w' h := by
    obtain rfl := (Option.some.inj hf).symm
    cases hb : src.read p w.2 with
    | error e => simp only [hb, bind, Except.bind] at h; contradiction
    | ok q =>
      simp only [hb, bind, Except.bind, pure, Except.pure] at h
      have h1 : r = q.1 := (congrArg Prod.fst (Except.ok.inj h)).symm
      rw [h1]
      exact src.len_buf _ _ _ _ hb

end Crazy
