/-
C82: how many outputs determine the rest.
-/
import Verif.Spec.Predict
import Verif.Props.BitRec
import Verif.Props.Period
import Verif.Props.LfgPeriod
namespace Crazy
open Polynomial Kron

theorem sameOut_iff {σ : Type} {next : σ → Go (U64 × σ)} {s t : σ} {n : Nat} {x y : U64} (hx : ∀ w, Emits next s n [w] ↔ x = w)
    (hy : ∀ w, Emits next t n [w] ↔ y = w) : SameOut next s t n ↔ x = y := by
  unfold SameOut
  simp only [hx, hy]
  exact ⟨fun ⟨w, h1, h2⟩ => h1.trans h2.symm, fun h => ⟨y, h, rfl⟩⟩

theorem sameBit_iff {σ : Type} {next : σ → Go (U64 × σ)} {s t : σ} {n b : Nat} {x y : U64} (hx : ∀ w, Emits next s n [w] ↔ x = w)
    (hy : ∀ w, Emits next t n [w] ↔ y = w) : SameBit next b s t n ↔ MT64.bit x b = MT64.bit y b := by
  unfold SameBit
  simp only [hx, hy]
  rw [← bitAt_cast, ← bitAt_cast, ZMod.natCast_eq_natCast_iff']
  unfold bitAt
  rw [Nat.mod_mod, Nat.mod_mod]
  constructor
  · rintro ⟨a, c, rfl, rfl, h⟩
    exact h
  · intro h
    exact ⟨x, y, rfl, rfl, h⟩

namespace Xoshiro

theorem emits_val (g : Xoshiro) (n : Nat) (w : U64) : Emits uint64 g n [w] ↔ out (step^[n] g) = w := emits_one uint64_pure g n w

theorem same (s t : Xoshiro) (n : Nat) : SameOut uint64 s t n ↔ out (step^[n] s) = out (step^[n] t) :=
  sameOut_iff (fun w => emits_val s n w) (fun w => emits_val t n w)

end Xoshiro

/-- C82: four outputs of Xoshiro determine all later ones, three do not. -/
theorem C82_Xoshiro : Predicts Xoshiro.uint64 (fun _ => True) 4 ∧ ¬ Predicts Xoshiro.uint64 (fun g => g ≠ ⟨0#64, 0#64, 0#64, 0#64⟩) 3 := by
  constructor
  · intro s t _ _ h n
    have e : s = t := by
      refine Xoshiro.outs_inj ?_
      simp only [Xoshiro.outs, Prod.mk.injEq]
      exact ⟨(Xoshiro.same s t 0).mp (h 0 (by decide)), (Xoshiro.same s t 1).mp (h 1 (by decide)),
        (Xoshiro.same s t 2).mp (h 2 (by decide)), (Xoshiro.same s t 3).mp (h 3 (by decide))⟩
    rw [e, Xoshiro.same]
  · intro h
    obtain ⟨s, hs⟩ := Xoshiro.outs_bij.2 (0#64, 0#64, 0#64, 1#64)
    obtain ⟨t, ht⟩ := Xoshiro.outs_bij.2 (0#64, 0#64, 0#64, 2#64)
    have hs0 : s ≠ ⟨0#64, 0#64, 0#64, 0#64⟩ := by
      rintro rfl
      rw [Xoshiro.outs_zero] at hs
      revert hs
      decide
    have ht0 : t ≠ ⟨0#64, 0#64, 0#64, 0#64⟩ := by
      rintro rfl
      rw [Xoshiro.outs_zero] at ht
      revert ht
      decide
    simp only [Xoshiro.outs, Prod.mk.injEq] at hs ht
    have h1 := h s t hs0 ht0 (fun n hn => by
      rw [Xoshiro.same]
      obtain rfl | rfl | rfl : n = 0 ∨ n = 1 ∨ n = 2 := by omega
      · exact hs.1.trans ht.1.symm
      · exact hs.2.1.trans ht.2.1.symm
      · exact hs.2.2.1.trans ht.2.2.1.symm) 3
    rw [Xoshiro.same] at h1
    have h2 := hs.2.2.2.symm.trans (h1.trans ht.2.2.2)
    revert h2
    decide

namespace Xoroshiro

theorem same (s t : Xoroshiro) (n : Nat) : SameOut uint64 s t n ↔ out (step^[n] s) = out (step^[n] t) :=
  sameOut_iff (fun w => emits_val s n w) (fun w => emits_val t n w)

/-- States whose outputs have the same first 128 lowest bits are equal. -/
theorem eq_of_low (s t : Xoroshiro) (h : ∀ n < 128, MT64.bit (out (step^[n] s)) 0 = MT64.bit (out (step^[n] t)) 0) : s = t := by
  by_contra hne
  have hu : s + t ≠ (0 : Xoroshiro) := by
    intro h0
    have h3 : s + t + t = 0 + t := by rw [h0]
    rw [add_assoc, add_self, add_zero, zero_add] at h3
    exact hne h3
  have hz : ∀ n, low (step^[n] (s + t)) = 0 := by
    intro n
    induction n using Nat.strong_induction_on with
    | _ n ih =>
      rcases Nat.lt_or_ge n 128 with hn | hn
      · rw [step_iter_add, map_add, low_apply, low_apply, h n hn, CharTwo.add_self_eq_zero]
      · have h1 := low_rec (s + t) (n - 128)
        rw [show n - 128 + 128 = n by omega, ← low_apply] at h1
        rw [h1]
        refine Finset.sum_eq_zero fun i hi => ?_
        rw [Finset.mem_range] at hi
        rw [← low_apply, ih _ (by omega), mul_zero]
  obtain ⟨n, ⟨-, h1⟩, -⟩ := cycle.existsUnique (s := s + t) (t := ⟨1#64, 0#64⟩) hu (by decide)
  have h2 := hz n
  rw [h1, low_apply] at h2
  revert h2
  decide

end Xoroshiro

/-- C82: the lowest bits of 128 outputs of Xoroshiro determine all outputs; two whole outputs do not. -/
theorem C82_Xoroshiro : BitPredicts Xoroshiro.uint64 (fun _ => True) 0 128 ∧
    ¬ Predicts Xoroshiro.uint64 (fun g => g ≠ ⟨0#64, 0#64⟩) 2 := by
  constructor
  · intro s t _ _ h n
    rw [Xoroshiro.eq_of_low s t (fun n hn =>
      (sameBit_iff (fun w => Xoroshiro.emits_val s n w) (fun w => Xoroshiro.emits_val t n w)).mp (h n hn)), Xoroshiro.same]
  · intro h
    have h1 := h ⟨0x88de2858eb808473#64, 0x78451d0e9e2b497c#64⟩ ⟨0x9b2a3a8b9c2084ed#64, 0x65f90adbed8b4902#64⟩ (by decide) (by decide)
      (fun n hn => by
        rw [Xoroshiro.same]
        obtain rfl | rfl : n = 0 ∨ n = 1 := by omega
        · decide +kernel
        · decide +kernel) 2
    rw [Xoroshiro.same] at h1
    revert h1
    decide +kernel

/-- C82: Rexoroshiro, bit 56 in place of the lowest. -/
theorem C82_Rexoroshiro : BitPredicts Rexoroshiro.uint64 (fun _ => True) 56 128 ∧
    ¬ Predicts Rexoroshiro.uint64 (fun g => g ≠ ⟨⟨0#64, 0#64⟩⟩) 2 := by
  have he : ∀ (g : Rexoroshiro) n w, Emits Rexoroshiro.uint64 g n [w] ↔ reverseBytes64 (Xoroshiro.out (Xoroshiro.step^[n] g.xoro)) = w :=
    fun g n w => by rw [emits_one Rexoroshiro.uint64_pure, Rexoroshiro.iter]
  have hs : ∀ s t n, SameOut Rexoroshiro.uint64 s t n ↔ SameOut Xoroshiro.uint64 s.xoro t.xoro n := fun s t n => by
    rw [sameOut_iff (fun w => he s n w) (fun w => he t n w), Xoroshiro.same, Rexoroshiro.reverse_inj]
  constructor
  · intro s t _ _ h n
    rw [hs]
    rw [Xoroshiro.eq_of_low s.xoro t.xoro (fun n hn => by
      have h1 := (sameBit_iff (fun w => he s n w) (fun w => he t n w)).mp (h n hn)
      rwa [bit_reverse, bit_reverse] at h1), Xoroshiro.same]
  · intro h
    refine C82_Xoroshiro.2 fun s t h1 h2 h3 n => ?_
    rw [← hs ⟨s⟩ ⟨t⟩]
    exact h ⟨s⟩ ⟨t⟩ (fun h => h1 (congrArg Rexoroshiro.xoro h)) (fun h => h2 (congrArg Rexoroshiro.xoro h))
      (fun n hn => (hs ⟨s⟩ ⟨t⟩ n).mpr (h3 n hn)) n

namespace LFG

theorem same (s t : LFG) (hs : Inv s) (ht : Inv t) (n : Nat) : SameOut uint64 s t n ↔ s.seq (607 + n) = t.seq (607 + n) :=
  sameOut_iff (fun w => emits_iff s hs n w) (fun w => emits_iff t ht n w)

/-- A state that gives 334 zeros, then `a`. -/
def quiet (a : U64) : LFG :=
  { f := 334, t := 0, s := ⟨((List.range 607).map fun i => if i = 0 then -a else if i = 334 then a else 0#64).toArray, by
      rw [List.size_toArray, List.length_map, List.length_range]⟩ }

theorem quiet_inv (a : U64) : Inv (quiet a) := ⟨by show 0 < 607; decide, by show 334 = (0 + 334) % 607; decide⟩

theorem quiet_hist (a : U64) (i : Nat) : (quiet a).hist i = if (335 + i) % 607 = 0 then -a else if (335 + i) % 607 = 334 then a else 0#64 := by
  unfold hist
  show (Vector.mk ((List.range 607).map fun i => if i = 0 then -a else if i = 334 then a else 0#64).toArray _)[(0 + 335 + i) % 607]'(_) = _
  simp only [Vector.getElem_mk, List.getElem_toArray, List.getElem_map, List.getElem_range, Nat.zero_add]

theorem quiet_zero (a : U64) (n : Nat) (hn : n < 334) : (quiet a).seq (607 + n) = 0#64 := by
  induction n with
  | zero =>
    rw [seq_ge _ (by omega), seq_lt _ (by omega), seq_lt _ (by omega), quiet_hist, quiet_hist]
    simp only [Nat.add_zero, Nat.reduceAdd, Nat.reduceSub, Nat.reduceMod, if_true]
    rw [if_neg (by decide), BitVec.add_right_neg]
  | succ n ih =>
    rw [seq_ge _ (by omega), show 607 + (n + 1) - 1 = 607 + n by omega, ih (by omega), seq_lt _ (by omega), quiet_hist,
      if_neg (by omega), if_neg (by omega)]
    rfl

theorem quiet_last (a : U64) : (quiet a).seq (607 + 334) = a := by
  rw [seq_ge _ (by omega), show 607 + 334 - 1 = 607 + 333 by omega, quiet_zero a 333 (by decide), seq_lt _ (by omega), quiet_hist,
    if_neg (by decide), if_pos (by decide), BitVec.zero_add]

/-- Every array can be restored. -/
theorem restored_reachable (ws : List U64) (hlen : ws.length = 607) :
    Reachable LFG.methods.api LFG.new { f := 334, t := 0, s := ⟨ws.toArray, by rw [List.size_toArray, hlen]⟩ } := by
  have hbl : (bytesOf ws).length = lfgK * 8 := by rw [bytesOf_length, hlen]; rfl
  have hr := Reader.of_delivers (bytesOf ws)
  rw [Reader.Delivers, hbl] at hr
  have e := restore_ok (Reader.of (bytesOf ws)) LFG.new (by rw [hr]; exact Int.lt_irrefl _) ws hlen (by rw [hr])
  refine ⟨[.restore (Reader.of (bytesOf ws))], ?_⟩
  have hc : LFG.methods.api.call LFG.new (.restore (Reader.of (bytesOf ws))) =
      (do let (x, g) ← LFG.new.restore (Reader.of (bytesOf ws)); return (Obs.restored x.1 x.2, g)) := rfl
  rw [Api.after, hc, e]
  rfl

theorem quiet_reachable (a : U64) : Reachable LFG.methods.api LFG.new (quiet a) :=
  restored_reachable _ (by rw [List.length_map, List.length_range])

end LFG

/-- C82: 335 outputs of LFG determine all later ones, 334 do not. -/
theorem C82_LFG : Predicts LFG.uint64 (Reachable LFG.methods.api LFG.new) 335 ∧
    ¬ Predicts LFG.uint64 (Reachable LFG.methods.api LFG.new) 334 := by
  constructor
  · intro s t hs ht h n
    have hs := LFG.safe.reachable LFG.inv_new hs
    have ht := LFG.safe.reachable LFG.inv_new ht
    rw [LFG.same s t hs ht]
    induction n using Nat.strong_induction_on with
    | _ n ih =>
      rcases Nat.lt_or_ge n 335 with hn | hn
      · exact (LFG.same s t hs ht n).mp (h n hn)
      · rw [LFG.seq_ge s (by omega), LFG.seq_ge t (by omega), show 607 + n - 1 = 607 + (n - 1) by omega,
          show 607 + n - 335 = 607 + (n - 335) by omega, ih (n - 1) (by omega), ih (n - 335) (by omega)]
  · intro h
    have h1 := h (LFG.quiet 1#64) (LFG.quiet 2#64) (LFG.quiet_reachable _) (LFG.quiet_reachable _) (fun n hn => by
      rw [LFG.same _ _ (LFG.quiet_inv _) (LFG.quiet_inv _), LFG.quiet_zero _ n hn, LFG.quiet_zero _ n hn]) 334
    rw [LFG.same _ _ (LFG.quiet_inv _) (LFG.quiet_inv _), LFG.quiet_last, LFG.quiet_last] at h1
    revert h1
    decide

namespace MT64

theorem same (s t : MT64) (n : Nat) : SameOut uint64 s t n ↔ temper (seq s.s (s.pos + n)) = temper (seq t.s (t.pos + n)) :=
  sameOut_iff (fun w => emits_one s n w) (fun w => emits_one t n w)

theorem twist_xor (a b c d : U64) : twist (a ^^^ c) (b ^^^ d) = twist a b ^^^ twist c d := by
  refine bit_inj fun j _ => ?_
  rw [bit_xor, bit_twist, bit_twist, bit_twist, bit_xor]
  have h : bit (join (a ^^^ c) (b ^^^ d)) (j + 1) = bit (join a b) (j + 1) + bit (join c d) (j + 1) := by
    by_cases hj : j + 1 < 31
    · rw [bit_join_lo _ _ hj, bit_join_lo _ _ hj, bit_join_lo _ _ hj, bit_xor]
    · rw [bit_join_hi _ _ (by omega), bit_join_hi _ _ (by omega), bit_join_hi _ _ (by omega), bit_xor]
  rw [h]
  ring

/-- The difference of two blocks. -/
def vxor (s t : Vector U64 312) : Vector U64 312 := Vector.ofFn fun i : Fin 312 => s[i] ^^^ t[i]

theorem seq_vxor (s t : Vector U64 312) (n : Nat) : seq (vxor s t) n = seq s n ^^^ seq t n := by
  induction n using Nat.strong_induction_on with
  | _ n ih =>
    rcases Nat.lt_or_ge n 312 with hn | hn
    · rw [seq_lt _ hn, seq_lt _ hn, seq_lt _ hn, vxor, Vector.getElem_ofFn]
      rfl
    · obtain ⟨m, rfl⟩ : ∃ m, n = m + 312 := ⟨n - 312, by omega⟩
      rw [seq_ge, seq_ge, seq_ge, ih _ (by omega), ih _ (by omega), ih _ (by omega), twist_xor, BitVec.xor_assoc, BitVec.xor_assoc,
        ← BitVec.xor_assoc (seq t _), BitVec.xor_comm (seq t (m + 156)), BitVec.xor_assoc]

/-- The outputs, read off a block that starts at the live part. -/
theorem out_block (g : MT64) (hi : g.Begun) (n : Nat) : seq g.s (g.pos + n) = seq (block (effOf g.s (g.pos - 1))) (1 + n) := by
  have h1 : effOf g.s (g.pos - 1) = effOf (block (effOf g.s (g.pos - 1))) 0 := (effOf_block _).symm
  have h2 := seq_dep _ _ _ _ h1 (1 + n) (by omega)
  have hp := pos_of_begun hi
  rw [show g.pos - 1 + (1 + n) = g.pos + n by omega, Nat.zero_add] at h2
  exact h2

/-- Words of which one bit of the first 19937 outputs agrees agree. -/
theorem eq_of_bit (g h : MT64) (hg : g.Begun) (hh : h.Begun) (b : Nat) (hb : b < 64) (D : Nat) (hD : D = 19937)
    (he : ∀ n < D, bit (temper (seq g.s (g.pos + n))) b = bit (temper (seq h.s (h.pos + n))) b) (n : Nat) :
    seq g.s (g.pos + n) = seq h.s (h.pos + n) := by
  obtain ⟨p, hp⟩ : ∃ p, p + 1 = 2 ^ 19937 := ⟨2 ^ 19937 - 1, Nat.sub_add_cancel Nat.one_le_two_pow⟩
  have hd : ∀ n, seq (vxor (block (effOf g.s (g.pos - 1))) (block (effOf h.s (h.pos - 1)))) (1 + n) =
      seq g.s (g.pos + n) ^^^ seq h.s (h.pos + n) := fun n => by
    rw [seq_vxor, ← out_block g hg, ← out_block h hh]
  generalize vxor (block (effOf g.s (g.pos - 1))) (block (effOf h.s (h.pos - 1))) = d at hd
  obtain ⟨f, -, hf⟩ := mtC_for
  have hz : ∀ n, bit (temper (seq d (1 + n))) b = 0 := by
    intro n
    induction n using Nat.strong_induction_on with
    | _ n ih =>
      rcases Nat.lt_or_ge n D with hn | hn
      · rw [hd, temper_xor, bit_xor, he n hn, CharTwo.add_self_eq_zero]
      · have h1 := all_rec hf D hD p hp d b (1 + (n - D)) (by omega)
        rw [show 1 + (n - D) + D = 1 + n by omega] at h1
        rw [h1]
        refine Finset.sum_eq_zero fun i hi => ?_
        rw [Finset.mem_range] at hi
        rw [Nat.add_assoc, ih _ (by omega), mul_zero]
  have hbeg : (⟨1, d⟩ : MT64).Begun := Nat.le_refl 1
  have hpos : (⟨1, d⟩ : MT64).pos = 1 := by show min 1 312 = 1; decide
  have hna : ¬ (⟨1, d⟩ : MT64).Alive := by
    intro ha
    obtain ⟨m, hm⟩ := emits_some _ ha hbeg (BitVec.allOnes 64)
    rw [hpos] at hm
    have h1 := hz m
    have hm : temper (seq d (1 + m)) = BitVec.allOnes 64 := hm
    rw [hm] at h1
    unfold bit at h1
    rw [BitVec.getLsbD_allOnes, decide_eq_true hb] at h1
    revert h1
    decide
  have h1 := (emits_one _ n _).mp (C61_MT64_dead _ hna hbeg n)
  rw [hpos] at h1
  have h1 : temper (seq d (1 + n)) = 0#64 := h1
  have h2 : seq d (1 + n) = 0#64 := temper_inj (h1.trans temper_zero.symm)
  rw [hd] at h2
  exact BitVec.xor_eq_zero_iff.mp h2

end MT64

/-- C82: 312 outputs of MT64 determine all later ones, 311 do not; so does any one bit of 19937 outputs. -/
theorem C82_MT64 : Predicts MT64.uint64 (fun _ => True) 312 ∧ ¬ Predicts MT64.uint64 (fun g => g.Alive ∧ g.Begun) 311 ∧
    ∀ b < 64, BitPredicts MT64.uint64 MT64.Begun b 19937 := by
  refine ⟨?_, ?_, ?_⟩
  · intro s t _ _ h n
    rw [MT64.same]
    refine congrArg MT64.temper ?_
    have h1 : ∀ n < 312, MT64.seq s.s (s.pos + n) = MT64.seq t.s (t.pos + n) := fun n hn =>
      MT64.temper_inj ((MT64.same s t n).mp (h n hn))
    rcases Nat.eq_zero_or_pos n with rfl | hn
    · exact h1 0 (by decide)
    · refine MT64.seq_dep _ _ _ _ ?_ n hn
      refine Prod.ext (congrArg MT64.top (h1 0 (by decide))) (funext fun i => ?_)
      show MT64.seq s.s (s.pos + 1 + i.val) = MT64.seq t.s (t.pos + 1 + i.val)
      rw [Nat.add_assoc, Nat.add_assoc, h1 _ (by omega)]
  · intro h
    have hpos : ∀ a : BitVec 33, (⟨1, MT64.block (a, 0)⟩ : MT64).pos = 1 := fun a => by show min 1 312 = 1; decide
    have hok : ∀ a : BitVec 33, a ≠ 0#33 → (⟨1, MT64.block (a, 0)⟩ : MT64).Alive ∧ (⟨1, MT64.block (a, 0)⟩ : MT64).Begun := fun a ha => by
      refine ⟨Or.inl fun h0 => ha ?_, Nat.le_refl 1⟩
      have h1 : MT64.top (MT64.seq (MT64.block (a, 0)) 0) = a := congrArg Prod.fst (MT64.effOf_block (a, 0))
      rw [MT64.seq_lt _ (by decide)] at h1
      rw [← h1]
      apply BitVec.eq_of_getLsbD_eq
      intro i hi
      have h2 := congrArg (BitVec.getLsbD · i) h0
      simp only [BitVec.getLsbD_ushiftRight, BitVec.getLsbD_zero] at h2
      rw [MT64.top, BitVec.getLsbD_extractLsb', h2]
      simp
    have hz : ∀ (a : BitVec 33) n, n < 311 → MT64.seq (MT64.block (a, 0)) (1 + n) = 0#64 := fun a n hn => by
      have h1 : MT64.seq (MT64.block (a, 0)) (0 + 1 + n) = 0#64 := congrFun (congrArg Prod.snd (MT64.effOf_block (a, 0))) ⟨n, hn⟩
      rwa [Nat.zero_add] at h1
    have h1 := h ⟨1, MT64.block (1#33, 0)⟩ ⟨1, MT64.block (2#33, 0)⟩ (hok _ (by decide)) (hok _ (by decide)) (fun n hn => by
      rw [MT64.same, hpos, hpos]
      show MT64.temper (MT64.seq (MT64.block (1#33, 0)) (1 + n)) = MT64.temper (MT64.seq (MT64.block (2#33, 0)) (1 + n))
      rw [hz _ n hn, hz _ n hn]) 311
    rw [MT64.same, hpos, hpos] at h1
    have h2 : MT64.seq (MT64.block (1#33, 0)) (0 + 312) = MT64.seq (MT64.block (2#33, 0)) (0 + 312) := MT64.temper_inj h1
    rw [MT64.seq_ge, MT64.seq_ge, show 0 + 156 = 1 + 155 from rfl, hz _ 155 (by decide), hz _ 155 (by decide), BitVec.zero_xor, BitVec.zero_xor] at h2
    have h3 := MT64.join_top _ _ _ _ (MT64.join_inj h2)
    have e1 : MT64.top (MT64.seq (MT64.block (1#33, 0)) 0) = 1#33 := congrArg Prod.fst (MT64.effOf_block (1#33, 0))
    have e2 : MT64.top (MT64.seq (MT64.block (2#33, 0)) 0) = 2#33 := congrArg Prod.fst (MT64.effOf_block (2#33, 0))
    rw [e1, e2] at h3
    revert h3
    decide
  · intro b hb s t hs ht h n
    rw [MT64.same, MT64.eq_of_bit s t hs ht b hb 19937 rfl (fun n hn =>
      (sameBit_iff (fun w => MT64.emits_one s n w) (fun w => MT64.emits_one t n w)).mp (h n hn)) n]

/-- Non-vacuity: kinds of states the theorems speak of. -/
example (g : MT64) (x : U64) : ∃ s, g.seed x = .ok s ∧ s.Alive ∧ s.Begun := C61_MT64_Seed_alive x g
example : Reachable LFG.methods.api LFG.new (LFG.quiet 5) ∧ ¬ SameOut LFG.uint64 (LFG.quiet 5) (LFG.quiet 6) 334 := by
  refine ⟨LFG.quiet_reachable 5, ?_⟩
  rw [LFG.same _ _ (LFG.quiet_inv _) (LFG.quiet_inv _), LFG.quiet_last, LFG.quiet_last]
  decide

end Crazy
