/-
The bound on the number of rejections is only that: a larger one gives the same result.
-/
import Verif.Model.Util
import Verif.Model.RandString
import Verif.Model.Distr
import Mathlib.Tactic.DefEqTransformations
set_option linter.unusedSimpArgs false
namespace Crazy

/-- If the call returns with some bound, it returns the same with every larger one. -/
def Grows {α : Type} (f : Nat → Go α) : Prop := ∀ n m, n ≤ m → ∀ r, f n = .ok r → f m = .ok r

theorem Grows.unique {α : Type} {f : Nat → Go α} (h : Grows f) {n m : Nat} {r r' : α} (h1 : f n = .ok r) (h2 : f m = .ok r') : r = r' := by
  rcases Nat.le_total n m with hl | hl
  · exact Except.ok.inj ((h _ _ hl _ h1).symm.trans h2)
  · exact Except.ok.inj (h1.symm.trans (h _ _ hl _ h2))

theorem grows_const {α : Type} (x : Go α) : Grows (fun _ => x) := fun _ _ _ _ h => h

theorem grows_bind {α β : Type} {f : Nat → Go α} {k : Nat → α → Go β} (hf : Grows f) (hk : ∀ a, Grows (fun n => k n a)) :
    Grows (fun n => f n >>= k n) := fun n m hl r h => by
  have h : Except.bind (f n) (k n) = .ok r := h
  show Except.bind (f m) (k m) = .ok r
  cases hn : f n with
  | error e => rw [hn] at h; cases h
  | ok a =>
    rw [hn] at h
    rw [hf n m hl a hn]
    exact hk a n m hl r h

theorem grows_forIdx {σ : Type} (body : Nat → Nat → σ → Go σ) (h : ∀ i s, Grows (fun n => body n i s)) (k : Nat) (s : σ) :
    Grows (fun n => forIdx k (body n) s) := by
  induction k with
  | zero => exact grows_const _
  | succ k ih => exact grows_bind ih fun a => h k a

section
variable {σ : Type}

theorem grows_uintnLoop (src : Source σ) (max bad : U64) (x : U64) (s : σ) : Grows (fun n => RNG.uintnLoop src max bad n x s) := by
  intro n
  induction n generalizing x s with
  | zero =>
    intro m _ r h
    beta_reduce at h ⊢
    rw [RNG.uintnLoop.eq_def] at h ⊢
    dsimp only at h ⊢
    by_cases hx : bad < x
    · rw [if_pos hx] at h; cases h
    · rw [if_neg hx] at h ⊢; exact h
  | succ n ih =>
    intro m hm r h
    obtain ⟨m, rfl⟩ : ∃ k, m = k + 1 := ⟨m - 1, by omega⟩
    beta_reduce at h ⊢
    rw [RNG.uintnLoop.eq_def] at h ⊢
    dsimp only at h ⊢
    by_cases hx : bad < x
    · rw [if_pos hx] at h ⊢
      have h : Except.bind (RNG.uint64 src s) (fun q => RNG.uintnLoop src max bad n q.1 q.2) = .ok r := h
      show Except.bind (RNG.uint64 src s) (fun q => RNG.uintnLoop src max bad m q.1 q.2) = .ok r
      cases hu : RNG.uint64 src s with
      | error e => rw [hu] at h; cases h
      | ok q => rw [hu] at h; exact ih q.1 q.2 m (by omega) r h
    · rw [if_neg hx] at h ⊢; exact h

theorem grows_uintn (src : Source σ) (max : U64) (s : σ) : Grows (fun n => RNG.uintn src n max s) := by
  unfold RNG.uintn
  by_cases h : max = 0#64
  · simp only [if_pos h]
    exact grows_const (.error .divide)
  · simp only [if_neg h]
    exact grows_bind (grows_const _) fun q => grows_uintnLoop _ _ _ _ _

theorem grows_intn (src : Source σ) (max : Int) (s : σ) : Grows (fun n => RNG.intn src n max s) := by
  unfold RNG.intn
  by_cases h : max < 0
  · simp only [if_pos h]
    exact grows_const (.error _)
  · simp only [if_neg h]
    exact grows_bind (grows_uintn _ _ _) fun q => grows_const _

theorem grows_bignLoop (src : Source σ) (max k : Int) (nbits : Nat) (x : Int) (s : σ) : Grows (fun n => RNG.bignLoop src max k nbits n x s) := by
  intro n
  induction n generalizing x s with
  | zero =>
    intro m _ r h
    beta_reduce at h ⊢
    rw [RNG.bignLoop.eq_def] at h ⊢
    dsimp only at h ⊢
    by_cases hx : k < x
    · rw [if_pos hx] at h; cases h
    · rw [if_neg hx] at h ⊢; exact h
  | succ n ih =>
    intro m hm r h
    obtain ⟨m, rfl⟩ : ∃ k, m = k + 1 := ⟨m - 1, by omega⟩
    beta_reduce at h ⊢
    rw [RNG.bignLoop.eq_def] at h ⊢
    dsimp only at h ⊢
    by_cases hx : k < x
    · rw [if_pos hx] at h ⊢
      have h : Except.bind (RNG.big src nbits s) (fun q => RNG.bignLoop src max k nbits n q.1 q.2) = .ok r := h
      show Except.bind (RNG.big src nbits s) (fun q => RNG.bignLoop src max k nbits m q.1 q.2) = .ok r
      cases hu : RNG.big src nbits s with
      | error e => rw [hu] at h; cases h
      | ok q => rw [hu] at h; exact ih q.1 q.2 m (by omega) r h
    · rw [if_neg hx] at h ⊢; exact h

theorem grows_bign (src : Source σ) (max : Int) (s : σ) : Grows (fun n => RNG.bign src n max s) := by
  unfold RNG.bign
  by_cases h : max ≤ 0
  · simp only [if_pos h]
    exact grows_const (.error _)
  · simp only [if_neg h]
    exact grows_bind (grows_const _) fun q => grows_bignLoop _ _ _ _ _ _

theorem grows_shuffleSlice {α : Type} (src : Source σ) (data : List α) (s : σ) : Grows (fun n => shuffleSlice src n data s) := by
  unfold shuffleSlice
  refine grows_forIdx (fun n i (q : List α × σ) => _) (fun i q => ?_) _ _
  exact grows_bind (grows_intn _ _ _) fun _ => grows_const _

theorem grows_shuffle {δ : Type} (data : Swapper δ) (src : Source σ) (d : δ) (s : σ) : Grows (fun n => shuffle data src n d s) := by
  unfold shuffle
  refine grows_bind (grows_const _) fun _ => ?_
  refine grows_forIdx (fun n i (q : δ × σ) => _) (fun i q => ?_) _ _
  exact grows_bind (grows_uintn _ _ _) fun _ => grows_const _

theorem grows_randString (src : Source σ) (alphabet : List Byte) (length : Int) (s : σ) : Grows (fun n => randString src n alphabet length s) := by
  unfold randString
  refine grows_bind (grows_const _) fun _ => grows_bind ?_ fun _ => grows_const _
  refine grows_forIdx (fun n i (q : List Nat × σ) => _) (fun i q => ?_) _ _
  exact grows_bind (grows_uintn _ _ _) fun _ => grows_const _

end

end Crazy
