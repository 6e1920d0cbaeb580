/-
C78: the outputs of LFG after `SeedIV`, exactly.
-/
import Verif.Spec.LfgRef
import Verif.Props.LfgSeed
namespace Crazy
namespace LFG

theorem lfgS0_table (j : Nat) (h : j < 607) : lfgS0[j] = LfgRef.table j := by
  apply BitVec.eq_of_toNat_eq
  have hl : j < lfgS0Nat.length := by rw [lfgS0Nat_length]; exact h
  rw [lfgS0_get j h, LfgRef.table, List.getD_eq_getElem?_getD, List.getElem?_eq_getElem hl, Option.getD_some, BitVec.toNat_ofNat, Nat.mod_eq_of_lt]
  have := List.all_eq_true.mp lfgS0Nat_lt _ (List.getElem_mem hl)
  exact Nat.blt_eq.mp this

theorem contrib_sum (iv : List Byte) (o k : Nat) : contrib o iv k =
    (((List.range iv.length).filter fun i => (o + i + 334) % 607 = k).map fun i =>
      LfgRef.table (((iv.getD i 0#8).toNat + 256 * (o + i)) % 607)).sum := by
  induction iv generalizing o with
  | nil => rfl
  | cons v iv ih =>
    rw [contrib, ih, List.length_cons, List.range_succ_eq_map, List.filter_cons, List.filter_map, lfgS0_table _ (Nat.mod_lt _ (by decide))]
    have e : (((List.range iv.length).filter ((fun i => decide ((o + i + 334) % 607 = k)) ∘ Nat.succ)).map Nat.succ).map
        (fun i => LfgRef.table ((((v :: iv).getD i 0#8).toNat + 256 * (o + i)) % 607)) =
        ((List.range iv.length).filter fun i => (o + 1 + i + 334) % 607 = k).map fun i =>
          LfgRef.table (((iv.getD i 0#8).toNat + 256 * (o + 1 + i)) % 607) := by
      rw [List.map_map]
      have e1 : ((fun i => decide ((o + i + 334) % 607 = k)) ∘ Nat.succ) = fun i => decide ((o + 1 + i + 334) % 607 = k) := by
        funext i
        simp only [Function.comp, show o + Nat.succ i = o + 1 + i by omega]
      rw [e1]
      refine List.map_congr_left fun i _ => ?_
      simp only [Function.comp, show o + Nat.succ i = o + 1 + i by omega, List.getD_cons_succ, Nat.succ_eq_add_one]
    by_cases hc : (o + 334) % 607 = k
    · rw [if_pos hc, if_pos (by simpa using hc), List.map_cons, List.sum_cons, e]
      rfl
    · rw [if_neg hc, if_neg (by simpa using hc), e, BitVec.zero_add]

theorem seedStart_y (iv : List Byte) (n : Nat) : (seedStart iv).seq (272 + n) = LfgRef.y (LfgRef.start iv) n := by
  induction n using Nat.strongRecOn with
  | ind n ih =>
    rw [LfgRef.y]
    by_cases h : n < 335
    · rw [if_pos h, seq_lt _ (by omega), seedStart_hist iv (272 + n) (by omega) (by omega)]
      have e : 272 + n - 272 = n := by omega
      simp only [e]
      rw [lfgS0_table n (by omega), contrib_sum, LfgRef.start]
      simp only [Nat.zero_add]
    · rw [if_neg h, seq_ge _ (by omega), ← ih (n - 1) (by omega), ← ih (n - 335) (by omega), show 272 + n - 1 = 272 + (n - 1) by omega,
        show 272 + n - 335 = 272 + (n - 335) by omega]

end LFG

/-- C78: `SeedIV` with any `iv` succeeds on any generator, and the `n` outputs that follow are those of the sequence of `LfgRef` with the
starting words for `iv`, numbers 4856 and up (counted after the starting words). -/
theorem C78_LFG_outputs (iv : List Byte) (g : LFG) (n : Nat) :
    ∃ s t, g.seedIV iv = .ok s ∧
      draws LFG.uint64 n s = .ok ((List.range n).map fun k => LfgRef.y (LfgRef.start iv) (335 + 4856 + k), t) := by
  refine ⟨_, LFG.nexts n (LFG.nexts 4856 (LFG.seedStart iv)), LFG.seedIV_eq iv g, (LFG.draws_eq n _ (LFG.inv_nexts _ _ (LFG.inv_seedStart iv))).trans ?_⟩
  refine congrArg Except.ok (Prod.ext ?_ rfl)
  refine List.map_congr_left fun k _ => ?_
  rw [LFG.seq_nexts, ← LFG.seedStart_y]
  exact congrArg _ (by omega)

/-- C78: `Seed` is `SeedIV` with the 8 bytes of the number, the lowest first. -/
theorem C78_LFG_Seed (x : U64) (g : LFG) : g.seed x = g.seedIV (bytesOf [x]) := by
  rw [bytesOf_one]
  rfl

/-- The spec on an example: a byte 7 at position 273 adds word (7 + 256*273) mod 607 = 90 of the table to word 0. -/
example : LfgRef.start (List.replicate 273 0#8 ++ [7#8]) 0 = LfgRef.table 0 + LfgRef.table 90 := by decide +kernel

end Crazy
