/-
The ring buffer of `LFG` as a sliding window over a sequence.
-/
import Verif.Model.LFG
import Verif.Proofs.Stream
namespace Crazy

theorem vget_congr {n : Nat} (v : Vector U64 n) {i j : Nat} (h : i = j) (hi : i < n) (hj : j < n) :
    v[i] = v[j] := by subst h; rfl

namespace LFG

/-- Invariant of every generator made by `NewLFG`: `f` runs 334 ahead of `t` around the ring. -/
def Inv (g : LFG) : Prop := g.t < 607 ∧ g.f = (g.t + 334) % 607

/-- The ring read from its oldest word (`i = 0`) to its newest (`i = 606`). -/
def hist (g : LFG) (i : Nat) : U64 := g.s[(g.t + 335 + i) % 607]'(Nat.mod_lt _ (by decide))

theorem hist_mod (g : LFG) (i : Nat) : g.hist (i + 607) = g.hist i := by
  exact vget_congr _ (by omega) _ _

theorem inv_new : Inv new := ⟨by decide, by decide⟩

/-- The state after one output. -/
def next (g : LFG) : LFG :=
  { f := (g.t + 335) % 607
    t := (g.t + 1) % 607
    s := g.s.set ((g.t + 335) % 607) (g.hist 606 + g.hist 272) (Nat.mod_lt _ (by decide)) }

theorem uint64_eq (g : LFG) (h : Inv g) :
    g.uint64 = .ok (g.hist 606 + g.hist 272, g.next) := by
  obtain ⟨ht, hf⟩ := h
  have hf' : g.f < 607 := by omega
  have e1 : g.s[g.f] = g.hist 606 := vget_congr _ (by omega) _ _
  have e2 : g.s[g.t] = g.hist 272 := vget_congr _ (by omega) _ _
  have e3 : (if lfgK ≤ g.f + 1 then ((0 : Nat), g.t + 1)
      else if lfgK ≤ g.t + 1 then (g.f + 1, 0) else (g.f + 1, g.t + 1))
      = ((g.t + 335) % 607, (g.t + 1) % 607) := by
    have hK : lfgK = 607 := rfl
    by_cases c1 : lfgK ≤ g.f + 1
    · rw [if_pos c1]
      rw [show (g.t + 335) % 607 = 0 by omega, show (g.t + 1) % 607 = g.t + 1 by omega]
    · rw [if_neg c1]
      by_cases c2 : lfgK ≤ g.t + 1
      · rw [if_pos c2, show (g.t + 335) % 607 = g.f + 1 by omega, show (g.t + 1) % 607 = 0 by omega]
      · rw [if_neg c2]
        rw [show (g.t + 335) % 607 = g.f + 1 by omega, show (g.t + 1) % 607 = g.t + 1 by omega]
  simp only [uint64, aget, hf', ht, dif_pos, bind, Except.bind, e1, e2, e3, aset,
    Nat.mod_lt _ (show 607 > 0 by decide), pure, Except.pure, next]

theorem inv_next (g : LFG) (_ : Inv g) : Inv g.next := by
  simp only [Inv, next]; omega

theorem hist_next (g : LFG) (i : Nat) (hi : i < 607) :
    g.next.hist i = if i = 606 then g.hist 606 + g.hist 272 else g.hist (i + 1) := by
  have hm : ∀ k : Nat, k % 607 < 607 := fun k => Nat.mod_lt _ (by decide)
  show (g.s.set ((g.t + 335) % 607) (g.hist 606 + g.hist 272) (hm _))[((g.t + 1) % 607 + 335 + i) % 607]'(hm _) = _
  rw [Vector.getElem_set]
  by_cases h : i = 606
  · subst h
    rw [if_pos (by omega), if_pos rfl]
  · rw [if_neg (by omega), if_neg h]
    exact vget_congr _ (by omega) _ _

/-- `n` outputs later. -/
def nexts : Nat → LFG → LFG
  | 0, g => g
  | n + 1, g => nexts n g.next

theorem nexts_succ' (n : Nat) (g : LFG) : nexts (n + 1) g = (nexts n g).next := by
  induction n generalizing g with
  | zero => rfl
  | succ n ih => rw [nexts, ih, ← nexts]

theorem inv_nexts (n : Nat) (g : LFG) (h : Inv g) : Inv (nexts n g) := by
  induction n generalizing g with
  | zero => exact h
  | succ n ih => exact ih _ (inv_next g h)

/-- The sequence a ring state defines: the ring's words, oldest first, continued by
`h n = h (n-1) + h (n-335)`. -/
def seq (g : LFG) (n : Nat) : U64 :=
  if n < 607 then g.hist n else seq g (n - 1) + seq g (n - 335)
termination_by n

theorem seq_lt (g : LFG) {n : Nat} (h : n < 607) : g.seq n = g.hist n := by
  rw [seq, if_pos h]

theorem seq_ge (g : LFG) {n : Nat} (h : 607 ≤ n) : g.seq n = g.seq (n - 1) + g.seq (n - 335) := by
  rw [seq, if_neg (by omega)]

theorem seq_next (g : LFG) (n : Nat) : g.next.seq n = g.seq (n + 1) := by
  induction n using Nat.strongRecOn with
  | ind n ih =>
    by_cases h : n < 607
    · rw [seq_lt _ h, hist_next g n h]
      split
      · subst_vars
        rw [seq_ge _ (by decide), seq_lt _ (by decide), seq_lt _ (by decide)]
      · rw [seq_lt _ (by omega)]
    · rw [seq_ge (n := n) g.next (by omega), seq_ge (n := n + 1) g (by omega), ih _ (by omega),
        ih _ (by omega), show n - 1 + 1 = n + 1 - 1 by omega,
        show n - 335 + 1 = n + 1 - 335 by omega]

theorem seq_nexts (g : LFG) (k n : Nat) : (nexts k g).seq n = g.seq (n + k) := by
  induction k generalizing g with
  | zero => rfl
  | succ k ih => rw [nexts, ih, seq_next]; congr 1

theorem draws_eq (n : Nat) (g : LFG) (h : Inv g) :
    draws uint64 n g = .ok ((List.range n).map (fun k => g.seq (607 + k)), nexts n g) := by
  induction n generalizing g with
  | zero => rfl
  | succ n ih =>
    simp only [draws, bind, Except.bind, pure, Except.pure, uint64_eq g h, ih _ (inv_next g h)]
    congr 2
    rw [List.range_succ_eq_map, List.map_cons, List.map_map]
    congr 1
    · rw [seq_ge _ (by decide), seq_lt _ (by decide), seq_lt _ (by decide)]
    · apply List.map_congr_left
      intro k _
      simp only [Function.comp, seq_next]
      congr 1

/-- A state satisfying the invariant is determined by `t` and the words in age order. -/
theorem ext_hist {g h : LFG} (hg : Inv g) (hh : Inv h) (ht : g.t = h.t)
    (he : ∀ i < 607, g.hist i = h.hist i) : g = h := by
  have hs : g.s = h.s := by
    apply Vector.ext
    intro i hi
    have := he ((i + 607 - (g.t + 335) % 607) % 607) (Nat.mod_lt _ (by decide))
    unfold hist at this
    have e1 : (g.t + 335 + (i + 607 - (g.t + 335) % 607) % 607) % 607 = i := by omega
    have e2 : (h.t + 335 + (i + 607 - (g.t + 335) % 607) % 607) % 607 = i := by rw [← ht]; omega
    simp only [e1, e2] at this
    exact this
  have hf : g.f = h.f := by rw [hg.2, hh.2, ht]
  cases g; cases h; simp_all

end LFG
end Crazy
