/-
C60: `MT64` seeded by `Seed` is MT19937-64.
-/
import Verif.Proofs.MT64
import Verif.Spec.MT
namespace Crazy
namespace MT64

/-- The masks select the upper 33 bits of `a` and the lower 31 of `b`. -/
theorem join_eq (a b : U64) :
    (a &&& 0xffffffff80000000#64) ||| (b &&& 0x000000007fffffff#64)
      = a.extractLsb' 31 33 ++ b.extractLsb' 0 31 := by
  apply BitVec.eq_of_getLsbD_eq
  intro i hi
  have h1 : (0xffffffff80000000#64 : U64).getLsbD i = decide (31 ≤ i) := by
    revert i; decide
  have h2 : (0x000000007fffffff#64 : U64).getLsbD i = decide (i < 31) := by
    revert i; decide
  rw [BitVec.getLsbD_or, BitVec.getLsbD_and, BitVec.getLsbD_and, h1, h2, BitVec.getLsbD_append]
  by_cases h : i < 31
  · simp [h, show ¬ 31 ≤ i by omega]
  · have : 31 + (i - 31) = i := by omega
    simp [h, show 31 ≤ i by omega, this, show i - 31 < 33 by omega]

theorem mul_bit (y : U64) : mt64A * (y &&& 1#64) = if y.getLsbD 0 then mt64A else 0#64 := by
  have h : y &&& 1#64 = if y.getLsbD 0 then 1#64 else 0#64 := by
    apply BitVec.eq_of_getLsbD_eq
    intro i hi
    rw [BitVec.getLsbD_and]
    by_cases h0 : i = 0
    · subst h0
      cases y.getLsbD 0 <;> decide
    · have : (1#64 : U64).getLsbD i = false := by
        revert i; decide
      rw [this]
      cases y.getLsbD 0 <;> simp [this]
  rw [h]
  split <;> simp

theorem twist_eq (a b : U64) : twist a b =
    let y : U64 := a.extractLsb' 31 33 ++ b.extractLsb' 0 31
    if y.getLsbD 0 then (y >>> 1) ^^^ 0xB5026F5AA96619E9#64 else y >>> 1 := by
  simp only [twist]
  rw [join_eq, mul_bit]
  split
  · rfl
  · rw [BitVec.xor_zero]

theorem seedSeq_ref (x : U64) (i : Nat) (h : i < 312) : seedSeq x i = MTRef.x x i := by
  induction i with
  | zero => rw [MTRef.x, if_pos rfl]; rfl
  | succ i ih =>
    rw [MTRef.x, if_neg (by omega), if_pos h, Nat.add_sub_cancel, ← ih (by omega)]
    rfl

theorem seq_ref (x : U64) (i : Nat) : seq (Vector.ofFn fun i : Fin 312 => seedSeq x i) i = MTRef.x x i := by
  induction i using Nat.strongRecOn with
  | ind i ih =>
    by_cases h : i < 312
    · rw [seq_lt _ h, Vector.getElem_ofFn, seedSeq_ref x i h]
    · obtain ⟨k, rfl⟩ : ∃ k, i = k + 312 := ⟨i - 312, by omega⟩
      rw [seq_ge, ih _ (by omega), ih _ (by omega), ih _ (by omega), MTRef.x.eq_def x (k + 312), if_neg (by omega), if_neg (by omega),
        twist_eq, show k + 312 - 156 = k + 156 by omega, show k + 312 - 312 = k by omega,
        show k + 312 - 311 = k + 1 by omega]

end MT64

/-- C60: after `Seed(x)`, whatever the generator was before, the outputs are the MT19937-64 sequence for the seed `x`. -/
theorem C60_MT64_reference (x : U64) (g : MT64) (n : Nat) :
    ∃ s t, g.seed x = .ok s ∧ draws MT64.uint64 n s = .ok ((List.range n).map (MTRef.out x), t) := by
  refine ⟨_, MT64.nexts n { i := 312, s := Vector.ofFn fun i : Fin 312 => MT64.seedSeq x i }, MT64.seed_eq x g, ?_⟩
  rw [MT64.draws_eq]
  refine congrArg Except.ok (Prod.ext ?_ rfl)
  refine List.map_congr_left fun k _ => ?_
  rw [MT64.seq_ref]
  rfl

/-- The published test vector: the first output for the default seed 5489 is 14514284786278117030. -/
example : MTRef.out 5489#64 0 = 14514284786278117030#64 := by
  rw [MTRef.out, MTRef.x, if_neg (by decide), if_neg (by decide), ← MT64.seedSeq_ref _ _ (by decide),
    ← MT64.seedSeq_ref _ _ (by decide), ← MT64.seedSeq_ref _ _ (by decide)]
  decide +kernel

end Crazy
