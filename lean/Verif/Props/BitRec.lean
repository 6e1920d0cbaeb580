/-
C81: which bits of the outputs are linear recurring sequences, and of what order.
-/
import Verif.Proofs.BitRec
import Verif.Props.Period2
import Verif.Props.MtEqui
namespace Crazy
open Polynomial Kron

namespace Xoroshiro

/-- The lowest bit of the output. -/
noncomputable def low : Xoroshiro →ₗ[ZMod 2] ZMod 2 :=
  AddMonoidHom.toZModLinearMap 2 {
    toFun := fun g => MT64.bit g.out 0
    map_zero' := by decide +kernel
    map_add' := fun a b => by
      unfold MT64.bit
      rw [out_bit0]
      cases a.out.getLsbD 0 <;> cases b.out.getLsbD 0 <;> decide }

theorem low_apply (g : Xoroshiro) : low g = MT64.bit g.out 0 := rfl

theorem T_pow_apply (n : Nat) (g : Xoroshiro) : (T ^ n) g = step^[n] g := by
  rw [Module.End.pow_apply]
  exact T_iter n g

theorem low_rec (g : Xoroshiro) (n : Nat) : MT64.bit (out (step^[n + 128] g)) 0 =
    ∑ i ∈ Finset.range 128, (bp 129 xoroF).coeff i * MT64.bit (out (step^[n + i] g)) 0 := by
  have h1 := aeval_linear T low _ char_T g
  simp only [T_pow_apply, low_apply] at h1
  refine rec_of_aeval (d := 128) (f := bp 129 xoroF) (y := fun n => MT64.bit (out (step^[n] g)) 0) ?_ (bp_natDegree 128 _) h1 n
  rw [bp_coeff, if_pos (by decide)]
  decide +kernel

theorem low_period (g : Xoroshiro) (hg : g ≠ ⟨0#64, 0#64⟩) (q : Nat) :
    (∀ n, MT64.bit (out (step^[n + q] g)) 0 = MT64.bit (out (step^[n] g)) 0) ↔ 2 ^ 128 - 1 ∣ q := by
  constructor
  · intro h
    rw [← cycle.period g hg q]
    by_contra hne
    have hu : step^[q] g + g ≠ (0 : Xoroshiro) := by
      intro h0
      have h3 : step^[q] g + g + g = 0 + g := by rw [h0]
      rw [add_assoc, add_self, add_zero, zero_add] at h3
      exact hne h3
    obtain ⟨n, ⟨-, h1⟩, -⟩ := cycle.existsUnique (s := step^[q] g + g) (t := ⟨1#64, 0#64⟩) hu (by decide)
    have h2 := map_add low (step^[n] (step^[q] g)) (step^[n] g)
    rw [← step_iter_add, h1, ← Function.iterate_add_apply, low_apply, low_apply, low_apply, h n, CharTwo.add_self_eq_zero] at h2
    revert h2
    decide
  · intro h n
    rw [(output_period g hg q).mpr h n]

theorem emits_val (g : Xoroshiro) (n : Nat) (w : U64) : Emits uint64 g n [w] ↔ out (step^[n] g) = w := emits_one uint64_pure g n w

end Xoroshiro

theorem bit_reverse (x : U64) : MT64.bit (reverseBytes64 x) 56 = MT64.bit x 0 := by
  unfold MT64.bit reverseBytes64
  congr 2
  simp

namespace MT64

theorem temper_xor (x y : U64) : temper (x ^^^ y) = temper x ^^^ temper y := by
  have h0 : ∀ (a b c d m : U64), (a ^^^ b) ^^^ ((c ^^^ d) &&& m) = (a ^^^ (c &&& m)) ^^^ (b ^^^ (d &&& m)) := by
    intro a b c d m
    ext i hi
    simp only [BitVec.getElem_xor, BitVec.getElem_and]
    cases a[i] <;> cases b[i] <;> cases c[i] <;> cases d[i] <;> cases m[i] <;> rfl
  have h1 : ∀ (m : U64) (k : Nat) (a b : U64), (a ^^^ b) ^^^ (((a ^^^ b) >>> k) &&& m) = (a ^^^ ((a >>> k) &&& m)) ^^^ (b ^^^ ((b >>> k) &&& m)) := by
    intro m k a b
    rw [BitVec.ushiftRight_xor_distrib, h0]
  have h2 : ∀ (m : U64) (k : Nat) (a b : U64), (a ^^^ b) ^^^ (((a ^^^ b) <<< k) &&& m) = (a ^^^ ((a <<< k) &&& m)) ^^^ (b ^^^ ((b <<< k) &&& m)) := by
    intro m k a b
    rw [BitVec.shiftLeft_xor_distrib, h0]
  have h3 : ∀ (k : Nat) (a b : U64), (a ^^^ b) ^^^ ((a ^^^ b) >>> k) = (a ^^^ (a >>> k)) ^^^ (b ^^^ (b >>> k)) := by
    intro k a b
    have := h1 (BitVec.allOnes 64) k a b
    simpa only [BitVec.and_allOnes] using this
  unfold temper
  simp only
  rw [h1 0x5555555555555555#64 29, h2 0x71D67FFFEDA60000#64 17, h2 0xFFF7EEE000000000#64 37, h3 43]

/-- A bit of the tempered word is a sum of bits of the word. -/
theorem bit_temper (x : U64) (b : Nat) : bit (temper x) b = ∑ k ∈ Finset.range 64, bit (temper (BitVec.twoPow 64 k)) b * bit x k := by
  refine U64_bit_induction (fun x => bit (temper x) b = ∑ k ∈ Finset.range 64, bit (temper (BitVec.twoPow 64 k)) b * bit x k) ?_ ?_ ?_ x
  · have h0 : ∀ k, bit 0#64 k = 0 := fun k => by unfold bit; simp
    rw [temper_zero, h0, Finset.sum_eq_zero (fun k _ => by rw [h0, mul_zero])]
  · intro a c ha hc
    rw [temper_xor, bit_xor, ha, hc, ← Finset.sum_add_distrib]
    refine Finset.sum_congr rfl fun k _ => ?_
    rw [bit_xor, mul_add]
  · intro i hi
    rw [Finset.sum_eq_single i]
    · have : bit (BitVec.twoPow 64 i) i = 1 := by unfold bit; rw [BitVec.getLsbD_twoPow]; simp [hi]
      rw [this, mul_one]
    · intro k hk hne
      have : bit (BitVec.twoPow 64 i) k = 0 := by
        unfold bit
        rw [BitVec.getLsbD_twoPow, decide_eq_false (by omega : ¬ i = k), Bool.and_false]
        rfl
      rw [this, mul_zero]
    · intro h
      exact absurd (Finset.mem_range.mpr hi) h

theorem late_rec {f : (ZMod 2)[X]} (hf : qP 64 = f * X ^ 31) (D : Nat) (hD : D = 19937) (s : Vector U64 312) (b n : Nat) :
    bit (temper (seq s (n + 61 + D))) b = ∑ i ∈ Finset.range D, f.coeff i * bit (temper (seq s (n + 61 + i))) b := by
  have hd : f.Monic ∧ f.natDegree = D := by
    obtain ⟨h1, h2⟩ := qP_monic 64
    rw [hf] at h1 h2
    have hm : f.Monic := Monic.of_mul_monic_right (monic_X_pow 31) h1
    refine ⟨hm, ?_⟩
    rw [hm.natDegree_mul (monic_X_pow 31), natDegree_X_pow] at h2
    omega
  have hk : ∀ k, aeval (shift (ZMod 2)) f (fun m => bits s k (m + 61)) = 0 := by
    intro k
    have h1 := qP_bits s k
    have e : qP 64 * X ^ 30 = f * X ^ 61 := by rw [hf, mul_assoc, ← pow_add]
    rw [e, map_mul, Module.End.mul_apply] at h1
    have e2 : aeval (shift (ZMod 2)) (X ^ 61 : (ZMod 2)[X]) (bits s k) = fun m => bits s k (m + 61) :=
      funext fun m => aeval_X_pow_shift 61 _ m
    exact (congrArg (aeval (shift (ZMod 2)) f) e2).symm.trans h1
  have hy : (fun m => bit (temper (seq s (m + 61))) b) =
      ∑ k ∈ Finset.range 64, bit (temper (BitVec.twoPow 64 k)) b • (fun m => bits s k (m + 61)) := by
    funext m
    rw [bit_temper, Finset.sum_apply]
    rfl
  have h1 : aeval (shift (ZMod 2)) f (fun m => bit (temper (seq s (m + 61))) b) = 0 := by
    rw [hy, map_sum]
    refine Finset.sum_eq_zero fun k _ => ?_
    rw [map_smul, hk, smul_zero]
  have hc : f.coeff D = 1 := by rw [← hd.2]; exact hd.1
  have h2 := rec_of_aeval hc hd.2.le h1 n
  rw [show n + 61 + D = n + D + 61 by omega]
  refine h2.trans ?_
  refine Finset.sum_congr rfl fun i _ => ?_
  rw [Nat.add_right_comm]

/-- From the first word on. -/
theorem all_rec {f : (ZMod 2)[X]} (hf : qP 64 = f * X ^ 31) (D : Nat) (hD : D = 19937) (p : Nat) (hp : p + 1 = 2 ^ 19937)
    (s : Vector U64 312) (b n : Nat) (hn : 1 ≤ n) :
    bit (temper (seq s (n + D))) b = ∑ i ∈ Finset.range D, f.coeff i * bit (temper (seq s (n + i))) b := by
  have h1 : 1 ≤ p := (prime_of p hp).one_lt.le
  have h2 : 1 * 61 ≤ p * 61 := Nat.mul_le_mul_right _ h1
  have h3 := late_rec hf D hD s b (n + (p * 61 - 61))
  rw [show n + (p * 61 - 61) + 61 + D = n + D + p * 61 by omega, seq_period_mul s p hp 61 _ (by omega)] at h3
  rw [h3]
  refine Finset.sum_congr rfl fun i _ => ?_
  rw [show n + (p * 61 - 61) + 61 + i = n + i + p * 61 by omega, seq_period_mul s p hp 61 _ (by omega)]

/-- Every word is an output somewhere. -/
theorem emits_some (g : MT64) (hg : g.Alive) (hi : g.Begun) (v : U64) : ∃ n, temper (seq g.s (g.pos + n)) = v := by
  have h1 := count g hg hi (List.replicate 311 v) List.length_replicate
  have h2 : 0 < Nat.card {n : Nat // n < 2 ^ 19937 - 1 ∧ Emits uint64 g n (List.replicate 311 v)} := by
    rw [h1]; split <;> decide
  obtain ⟨⟨n, -, h3⟩⟩ := (Nat.card_pos_iff.mp h2).1
  refine ⟨n, ?_⟩
  rw [emits_iff, map_range_eq_iff] at h3
  have := h3 0 (by rw [List.length_replicate]; decide)
  rw [List.getElem_replicate] at this
  exact this

theorem bit_period (g : MT64) (hg : g.Alive) (hi : g.Begun) (b : Nat) (hb : b < 64) (p : Nat) (hp : p + 1 = 2 ^ 19937) (q : Nat) :
    (∀ n, bit (temper (seq g.s (g.pos + (n + q)))) b = bit (temper (seq g.s (g.pos + n))) b) ↔ p ∣ q := by
  have hpos := pos_of_begun hi
  have hper : ∀ n k, seq g.s (g.pos + (n + p * k)) = seq g.s (g.pos + n) := fun n k => by
    rw [← Nat.add_assoc, seq_period_mul g.s p hp k _ (by omega)]
  constructor
  · intro h
    by_contra hnd
    have hco : Nat.Coprime q p := ((prime_of p hp).coprime_iff_not_dvd.mpr hnd).symm
    obtain ⟨m, hm⟩ := Nat.exists_mul_mod_eq_one_of_coprime hco (prime_of p hp).one_lt
    have hmul : ∀ m n, bit (temper (seq g.s (g.pos + (n + q * m)))) b = bit (temper (seq g.s (g.pos + n))) b := by
      intro m
      induction m with
      | zero => intro n; rfl
      | succ m ih => intro n; rw [Nat.mul_succ, ← Nat.add_assoc n, h, ih]
    have hone : ∀ n, bit (temper (seq g.s (g.pos + (n + 1)))) b = bit (temper (seq g.s (g.pos + n))) b := by
      intro n
      have h1 : q * m = 1 + p * (q * m / p) := by
        have := Nat.mod_add_div (q * m) p
        rw [hm.2] at this
        exact this.symm
      rw [← hmul m n, h1, ← Nat.add_assoc n, hper]
    have hconst : ∀ n, bit (temper (seq g.s (g.pos + n))) b = bit (temper (seq g.s (g.pos + 0))) b := by
      intro n
      induction n with
      | zero => rfl
      | succ n ih => rw [hone, ih]
    obtain ⟨i, hi0⟩ := emits_some g hg hi 0#64
    obtain ⟨j, hj⟩ := emits_some g hg hi (BitVec.allOnes 64)
    have h1 := hconst i
    rw [← hconst j, hi0, hj] at h1
    unfold bit at h1
    rw [BitVec.getLsbD_allOnes] at h1
    simp [hb] at h1
  · rintro ⟨k, rfl⟩ n
    rw [hper]

end MT64

/-! ### C81 -/

/-- C81: the lowest bit of Xoroshiro's outputs obeys one linear recurrence of order 128, whatever the state, and, from no state but zero, one of
lower order. -/
theorem C81_Xoroshiro : (∃ c, ∀ g, BitRec Xoroshiro.uint64 g 0 128 c) ∧
    ∀ g : Xoroshiro, g ≠ ⟨0#64, 0#64⟩ → ∀ d c, BitRec Xoroshiro.uint64 g 0 d c → 128 ≤ d := by
  constructor
  · refine ⟨fun i => ((bp 129 xoroF).coeff i).val, fun g => ?_⟩
    rw [bitRec_iff _ g _ (fun n w => Xoroshiro.emits_val g n w)]
    intro n
    simp only [ZMod.natCast_zmod_val]
    exact Xoroshiro.low_rec g n
  · intro g hg d c h
    rw [bitRec_iff _ g _ (fun n w => Xoroshiro.emits_val g n w)] at h
    exact order_ge (y := fun n => MT64.bit (Xoroshiro.out (Xoroshiro.step^[n] g)) 0) (c := fun i => (c i : ZMod 2)) (by decide) (Xoroshiro.low_period g hg) h

/-- C81: the same of bit 56 of Rexoroshiro's outputs. -/
theorem C81_Rexoroshiro : (∃ c, ∀ g, BitRec Rexoroshiro.uint64 g 56 128 c) ∧
    ∀ g : Rexoroshiro, g ≠ ⟨⟨0#64, 0#64⟩⟩ → ∀ d c, BitRec Rexoroshiro.uint64 g 56 d c → 128 ≤ d := by
  have he : ∀ (g : Rexoroshiro) n w, Emits Rexoroshiro.uint64 g n [w] ↔ reverseBytes64 (Xoroshiro.out (Xoroshiro.step^[n] g.xoro)) = w :=
    fun g n w => by rw [emits_one Rexoroshiro.uint64_pure, Rexoroshiro.iter]
  constructor
  · refine ⟨fun i => ((bp 129 xoroF).coeff i).val, fun g => ?_⟩
    rw [bitRec_iff _ g _ (fun n w => he g n w)]
    intro n
    simp only [ZMod.natCast_zmod_val, bit_reverse]
    exact Xoroshiro.low_rec g.xoro n
  · rintro ⟨g⟩ hg d c h
    rw [bitRec_iff _ _ _ (fun n w => he _ n w)] at h
    simp only [bit_reverse] at h
    exact order_ge (y := fun n => MT64.bit (Xoroshiro.out (Xoroshiro.step^[n] g)) 0) (c := fun i => (c i : ZMod 2)) (by decide) (Xoroshiro.low_period g (fun h => hg (by rw [h]))) h

/-- C81: every bit of MT64's outputs obeys one and the same linear recurrence of order 19937, and none of lower order. -/
theorem C81_MT64 : (∃ c, ∀ g : MT64, g.Begun → ∀ b < 64, BitRec MT64.uint64 g b 19937 c) ∧
    ∀ g : MT64, g.Alive → g.Begun → ∀ b < 64, ∀ d c, BitRec MT64.uint64 g b d c → 19937 ≤ d := by
  obtain ⟨p, hp⟩ : ∃ p, p + 1 = 2 ^ 19937 := ⟨2 ^ 19937 - 1, Nat.sub_add_cancel Nat.one_le_two_pow⟩
  constructor
  · obtain ⟨f, -, hf⟩ := mtC_for
    refine ⟨fun i => (f.coeff i).val, fun g hi b _ => ?_⟩
    rw [bitRec_iff _ g _ (fun n w => MT64.emits_one g n w)]
    intro n
    simp only [ZMod.natCast_zmod_val]
    have hpos := MT64.pos_of_begun hi
    have h1 := MT64.all_rec hf 19937 rfl p hp g.s b (g.pos + n) (by omega)
    rw [Nat.add_assoc] at h1
    rw [h1]
    refine Finset.sum_congr rfl fun i _ => ?_
    rw [Nat.add_assoc]
  · intro g hg hi b hb d c h
    rw [bitRec_iff _ g _ (fun n w => MT64.emits_one g n w)] at h
    have h1 := MT64.bit_period g hg hi b hb p hp
    rw [← MT64.pred_eq 19937 p hp] at h1
    exact order_ge (y := fun n => MT64.bit (MT64.temper (MT64.seq g.s (g.pos + n))) b) (c := fun i => (c i : ZMod 2)) (by decide) h1 h

/-- Non-vacuity: a recurrence of order 128 that the lowest bits of a certain state obey, and one of order 127 that they do not. -/
example (g : MT64) (x : U64) : ∃ s, g.seed x = .ok s ∧ ∀ b < 64, ∀ d c, BitRec MT64.uint64 s b d c → 19937 ≤ d := by
  obtain ⟨s, h1, h2, h3⟩ := C61_MT64_Seed_alive x g
  exact ⟨s, h1, C81_MT64.2 s h2 h3⟩
example : ¬ ∃ c, BitRec Xoroshiro.uint64 ⟨1, 2⟩ 0 127 c := by
  rintro ⟨c, h⟩
  exact absurd (C81_Xoroshiro.2 ⟨1, 2⟩ (by decide) 127 c h) (by decide)

end Crazy
