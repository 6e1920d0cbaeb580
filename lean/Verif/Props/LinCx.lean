/-
C83: the linear recurrences of the other bits of the xo* generators: none of low order, except those of the low bits of Xoroshiro.
-/
import Verif.Proofs.LinCxUp
import Verif.Proofs.LinCxCertC
import Verif.Proofs.LinCxCertD
import Verif.Props.BitRec
import Verif.Props.Predict
namespace Crazy

/-- A certificate in a checked list bounds the order of every recurrence of its bit. -/
theorem chks_order {x : Nat → U64} {l : List (Nat × Nat × Nat × Nat)} {n W : Nat} (hn : n < 2 ^ 63)
    (hW : W = pk (fun i => (x i).toNat) n) (h : chks n W l = true) {r : Nat × Nat × Nat × Nat} (hr : r ∈ l) (hb : r.1 < 64) {d : Nat} {c : Nat → ZMod 2}
    (hrec : ∀ m, MT64.bit (x (m + d)) r.1 = ∑ i ∈ Finset.range d, c i * MT64.bit (x (m + i)) r.1) : r.2.2.1 + 1 - r.2.1 ≤ d := by
  subst hW
  exact chk_order hn hb (chks_mem h r hr) hrec

namespace Xoroshiro

theorem bit_order (g : Xoroshiro) (hg : g ≠ ⟨0#64, 0#64⟩) (b : Nat) (h0 : 0 < b) (hb : b < 64) (d : Nat) (c : Nat → ZMod 2)
    (h : ∀ n, MT64.bit (out (step^[n + d] g)) b = ∑ i ∈ Finset.range d, c i * MT64.bit (out (step^[n + i] g)) b) :
    (if b = 1 then 8256 else 16381) ≤ d := by
  obtain ⟨k, ⟨-, hk⟩, -⟩ := cycle.existsUnique (s := g) (t := xoroStart) hg (by decide)
  have h' : ∀ n, MT64.bit (out (step^[n + d] xoroStart)) b = ∑ i ∈ Finset.range d, c i * MT64.bit (out (step^[n + i] xoroStart)) b := by
    intro n
    have h1 := h (n + k)
    rw [← hk]
    simp only [← Function.iterate_add_apply]
    rw [show n + d + k = n + k + d by omega, h1]
    refine Finset.sum_congr rfl fun i _ => ?_
    rw [Nat.add_right_comm]
  have hm : b ∈ xoroBits.map (fun r => r.1) := by
    rw [xoroBits_all, List.mem_iff_getElem]
    exact ⟨b - 1, by simp; omega, by simp; omega⟩
  obtain ⟨r, hr, rfl⟩ := List.mem_map.mp hm
  have hok := xoroBits_ok
  rw [frc_eq] at hok
  exact (xoroBits_ge r hr).trans (chks_order (x := fun i => out (step^[i] xoroStart)) (c := c) (by decide)
    ((run_eq xoroStart).trans (congrArg (pk _) (by decide : 2 ^ 15 = 32768))) hok hr hb h')

end Xoroshiro

namespace Xoshiro

theorem bit_order (g : Xoshiro) (hg : g ≠ ⟨0#64, 0#64, 0#64, 0#64⟩) (b : Nat) (hb : b < 64) (d : Nat) (c : Nat → ZMod 2)
    (h : ∀ n, MT64.bit (out (step^[n + d] g)) b = ∑ i ∈ Finset.range d, c i * MT64.bit (out (step^[n + i] g)) b) : 16381 ≤ d := by
  obtain ⟨k, ⟨-, hk⟩, -⟩ := cycle.existsUnique (s := g) (t := xoshiStart) hg (by decide)
  have h' : ∀ n, MT64.bit (out (step^[n + d] xoshiStart)) b = ∑ i ∈ Finset.range d, c i * MT64.bit (out (step^[n + i] xoshiStart)) b := by
    intro n
    have h1 := h (n + k)
    rw [← hk]
    simp only [← Function.iterate_add_apply]
    rw [show n + d + k = n + k + d by omega, h1]
    refine Finset.sum_congr rfl fun i _ => ?_
    rw [Nat.add_right_comm]
  have hm : b ∈ xoshiBits.map (fun r => r.1) := by
    rw [xoshiBits_all, List.mem_range]
    exact hb
  obtain ⟨r, hr, rfl⟩ := List.mem_map.mp hm
  have hok := xoshiBits_ok
  rw [frc_eq] at hok
  exact (xoshiBits_ge r hr).trans (chks_order (x := fun i => out (step^[i] xoshiStart)) (c := c) (by decide)
    ((run_eq xoshiStart).trans (congrArg (pk _) (by decide : 2 ^ 15 = 32768))) hok hr hb h')

end Xoshiro

/-- The bits of a word with its bytes reversed. -/
theorem bit_reverse_all (x : U64) (b : Nat) (hb : b < 64) : MT64.bit (reverseBytes64 x) b = MT64.bit x (56 - b / 8 * 8 + b % 8) := by
  unfold MT64.bit reverseBytes64
  refine congrArg (fun t : Bool => if t then (1 : ZMod 2) else 0) ?_
  have hff : ∀ i, (0xff#64).getLsbD i = decide (i < 8) := by
    intro i
    by_cases h : i < 8
    · rw [decide_eq_true h]; revert h; revert i; decide
    · rw [decide_eq_false h, BitVec.getLsbD, BitVec.toNat_ofNat]
      exact Nat.testBit_lt_two_pow (Nat.lt_of_lt_of_le (by decide) (Nat.pow_le_pow_right (by decide) (by omega : 8 ≤ i)))
  simp only [BitVec.getLsbD_or, BitVec.getLsbD_shiftLeft, BitVec.getLsbD_and, BitVec.getLsbD_ushiftRight, hff]
  interval_cases b <;> simp

/-! ### C83 -/

/-- C83: every bit of Xoroshiro's outputs obeys one linear recurrence, whatever the state; that of a low bit is of low order: 128 for bit 0, 8256
for bit 1, in general the number of products of at most `b + 1` of the 128 bits of the state. -/
theorem C83_Xoroshiro_recurrence (b : Nat) (hb : b < 64) :
    ∃ c, ∀ g, BitRec Xoroshiro.uint64 g b (∑ i ∈ Finset.range (b + 1), Nat.choose 128 (i + 1)) c := by
  obtain ⟨c, hc⟩ := Xoroshiro.bit_rec b hb
  refine ⟨fun i => (c i).val, fun g => ?_⟩
  rw [bitRec_iff _ g _ (fun n w => Xoroshiro.emits_val g n w)]
  intro n
  simp only [ZMod.natCast_zmod_val]
  exact hc g n

/-- C83: for bit 1 of Xoroshiro that order, 8256, is the least; for the bits above it the least is at least 16381. -/
theorem C83_Xoroshiro_order (g : Xoroshiro) (hg : g ≠ ⟨0#64, 0#64⟩) (b : Nat) (h0 : 0 < b) (hb : b < 64) (d : Nat) (c : Nat → Nat)
    (h : BitRec Xoroshiro.uint64 g b d c) : (b = 1 → 8256 ≤ d) ∧ (1 < b → 16381 ≤ d) := by
  rw [bitRec_iff _ g _ (fun n w => Xoroshiro.emits_val g n w)] at h
  have h1 := Xoroshiro.bit_order g hg b h0 hb d (fun i => (c i : ZMod 2)) h
  constructor
  · intro e
    rwa [if_pos e] at h1
  · intro e
    rwa [if_neg (by omega)] at h1

theorem Rexoroshiro.emits_val (g : Rexoroshiro) (n : Nat) (w : U64) :
    Emits Rexoroshiro.uint64 g n [w] ↔ reverseBytes64 (Xoroshiro.out (Xoroshiro.step^[n] g.xoro)) = w := by
  rw [emits_one Rexoroshiro.uint64_pure, Rexoroshiro.iter]

/-- C83: Rexoroshiro has its one other bit of order below 16381 at position 57; all the bits of the seven lower bytes have greater order. -/
theorem C83_Rexoroshiro_order (g : Rexoroshiro) (hg : g ≠ ⟨⟨0#64, 0#64⟩⟩) (b : Nat) (h0 : b ≠ 56) (hb : b < 64) (d : Nat) (c : Nat → Nat)
    (h : BitRec Rexoroshiro.uint64 g b d c) : (b = 57 → 8256 ≤ d) ∧ (b ≠ 57 → 16381 ≤ d) := by
  rw [bitRec_iff _ g _ (fun n w => g.emits_val n w)] at h
  have hg' : g.xoro ≠ ⟨0#64, 0#64⟩ := fun e => hg (by cases g; exact congrArg _ e)
  simp only [bit_reverse_all _ _ hb] at h
  have h1 := Xoroshiro.bit_order g.xoro hg' _ (by omega) (by omega) d (fun i => (c i : ZMod 2)) h
  constructor
  · intro e
    rwa [if_pos (by omega)] at h1
  · intro e
    rwa [if_neg (by omega)] at h1

/-- C83: and these are the recurrences of its bits. -/
theorem C83_Rexoroshiro_recurrence (b : Nat) (hb : b < 64) :
    ∃ c, ∀ g, BitRec Rexoroshiro.uint64 g b (∑ i ∈ Finset.range (56 - b / 8 * 8 + b % 8 + 1), Nat.choose 128 (i + 1)) c := by
  obtain ⟨c, hc⟩ := Xoroshiro.bit_rec (56 - b / 8 * 8 + b % 8) (by omega)
  refine ⟨fun i => (c i).val, fun g => ?_⟩
  rw [bitRec_iff _ g _ (fun n w => g.emits_val n w)]
  intro n
  simp only [ZMod.natCast_zmod_val, bit_reverse_all _ _ hb]
  exact hc g.xoro n

/-- C83: no bit of Xoshiro's outputs obeys a linear recurrence of order below 16381, where one of order 256 would hold if the outputs were a
linear function of the state. -/
theorem C83_Xoshiro_order (g : Xoshiro) (hg : g ≠ ⟨0#64, 0#64, 0#64, 0#64⟩) (b : Nat) (hb : b < 64) (d : Nat) (c : Nat → Nat)
    (h : BitRec Xoshiro.uint64 g b d c) : 16381 ≤ d := by
  rw [bitRec_iff _ g _ (fun n w => Xoshiro.emits_val g n w)] at h
  exact Xoshiro.bit_order g hg b hb d (fun i => (c i : ZMod 2)) h

/-- Non-vacuity: bit 1 of Xoroshiro has a recurrence of order exactly 8256 (and so a `BitRec` meets the hypotheses above). -/
example : ∃ c, ∀ g, BitRec Xoroshiro.uint64 g 1 8256 c := by
  have h := C83_Xoroshiro_recurrence 1 (by decide)
  have e : (∑ i ∈ Finset.range (1 + 1), Nat.choose 128 (i + 1)) = 8256 := by decide +kernel
  rwa [e] at h
example (g : Xoroshiro) (hg : g ≠ ⟨0#64, 0#64⟩) : ¬ ∃ c, BitRec Xoroshiro.uint64 g 1 8255 c := by
  rintro ⟨c, h⟩
  exact absurd ((C83_Xoroshiro_order g hg 1 (by decide) (by decide) 8255 c h).1 rfl) (by decide)

end Crazy
