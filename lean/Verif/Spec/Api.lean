/-
Specification vocabulary: what a caller can and cannot tell apart.
-/
import Verif.Model.Source
namespace Crazy

/-- Two generators of one type that no sequence of API calls can tell apart. -/
def Indist {σ ε : Type} (a : Api σ ε) (s t : σ) : Prop :=
  ∀ ops : List (Op ε), a.run s ops = a.run t ops

/-- A state some sequence of API calls leads to from `init` (no call having panicked). -/
def Reachable {σ ε : Type} (a : Api σ ε) (init s : σ) : Prop :=
  ∃ ops : List (Op ε), a.after init ops = .ok s

/-- No sequence of API calls panics. -/
def NeverPanics {σ ε : Type} (a : Api σ ε) (init : σ) : Prop :=
  ∀ ops : List (Op ε), ∀ p, Obs.panic p ∉ a.run init ops

/-- `op` is one of the two seeding calls, `SeedIV(iv)` or `Seed(x)`. -/
def Op.IsSeeding {ε : Type} (op : Op ε) : Prop := (∃ iv, op = .seedIV iv) ∨ ∃ x, op = .seed x

/-- Seeding makes any two generators of the type indistinguishable, whatever they were before. -/
def SeedingForgets {σ ε : Type} (a : Api σ ε) : Prop :=
  ∀ op : Op ε, op.IsSeeding → ∀ s t : σ,
    ∃ s' t', a.call s op = .ok (.unit, s') ∧ a.call t op = .ok (.unit, t') ∧ Indist a s' t'

/-- The reader delivers exactly the bytes `b` when asked for that many. -/
def Reader.Delivers (r : Reader) (b : List Byte) : Prop := r.reply b.length = ⟨b, b.length, none⟩

/-- Saving `s` writes some bytes and leaves `s` as it is; restoring these bytes into any generator `t`
of the type, from any reader that delivers them, succeeds and makes it indistinguishable from `s`. -/
def SaveRestores {σ ε : Type} (a : Api σ ε) (s : σ) : Prop :=
  ∃ b : List Byte,
    (∀ w : Writer, a.call s (.save w) = .ok (.saved b (w.reply b).1 (w.reply b).2, s)) ∧
    ∀ (t : σ) (r : Reader), r.Delivers b →
      ∃ t', a.call t (.restore r) = .ok (.restored b.length none, t') ∧ Indist a t' s

/-- Saving `s` passes exactly the bytes `b` to the writer, in one call, reports what the writer reported and leaves
`s` as it is. -/
def SavesAs {σ ε : Type} (a : Api σ ε) (s : σ) (b : List Byte) : Prop :=
  ∀ w : Writer, a.call s (.save w) = .ok (.saved b (w.reply b).1 (w.reply b).2, s)

/-- `Restore` asks for `size` bytes. If the reader reports fewer, the generator keeps its state and the caller gets the
reader's count and error; otherwise it gets the state that the bytes encode, whatever it was before. -/
def RestoreAllOrNothing {σ ε : Type} (a : Api σ ε) (size : Nat) : Prop :=
  ∀ r : Reader,
    ((r.reply size).n < size →
      ∀ s, a.call s (.restore r) = .ok (.restored (r.reply size).n (r.reply size).err, s)) ∧
    (size ≤ (r.reply size).n →
      ∃ t, (∀ s, a.call s (.restore r) = .ok (.restored (r.reply size).n none, t)) ∧ SavesAs a t (r.reply size).buf)

/-- A reader that delivers exactly the bytes `b` to a request for as many (and otherwise nothing). -/
def Reader.of (b : List Byte) : Reader where
  reply k := if b.length = k then ⟨b, k, none⟩ else ⟨zeros k, 0, some .eof⟩
  len_buf k := by
    by_cases h : b.length = k
    · simp [h]
    · simp [h, zeros]

theorem Reader.of_delivers (b : List Byte) : (Reader.of b).Delivers b := by
  simp [Reader.Delivers, Reader.of]

end Crazy
