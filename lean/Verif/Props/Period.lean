/-
C44-C49: the runs of Xoshiro, Xoroshiro and Rexoroshiro.
-/
import Verif.Proofs.XoLin
import Verif.Proofs.XoInj
import Verif.Proofs.Cycle
import Verif.Proofs.SmMix
import Mathlib.Logic.ExistsUnique
namespace Crazy

/-! ### Xoshiro: one cycle, and four outputs determine the state -/

namespace Xoshiro

theorem uint64_pure (g : Xoshiro) : g.uint64 = .ok (g.out, g.step) := rfl

/-- A state is four words. -/
def equiv : Xoshiro ≃ U64 × U64 × U64 × U64 where
  toFun g := (g.w, g.x, g.y, g.z)
  invFun p := ⟨p.1, p.2.1, p.2.2.1, p.2.2.2⟩
  left_inv _ := rfl
  right_inv _ := rfl

instance : Finite Xoshiro := Finite.of_equiv _ equiv.symm

theorem card_words : Nat.card (U64 × U64 × U64 × U64) = 2 ^ 256 - 1 + 1 := by
  simp only [Nat.card_prod, card_U64]
  rfl

theorem step_zero : step ⟨0#64, 0#64, 0#64, 0#64⟩ = ⟨0#64, 0#64, 0#64, 0#64⟩ := by decide +kernel

theorem cycle : FullCycle step ⟨0#64, 0#64, 0#64, 0#64⟩ (2 ^ 256 - 1) where
  finite := inferInstance
  pos := by decide
  card := (Nat.card_congr equiv).trans card_words
  nz s hs h := hs (step_inj (h.trans step_zero.symm))
  period s hs n := period s hs n

theorem out_inj {g h : Xoshiro} (e : g.out = h.out) : g.x = h.x := by
  unfold out at e
  have e1 := mul_inj 9#64 0x8e38e38e38e38e39#64 (by decide +kernel) _ _ e
  have e2 := congrArg (fun v => rotl64 v 57) e1
  rw [rotl64_rotl64 _ 7 57 (by decide) (by decide) (by decide), rotl64_rotl64 _ 7 57 (by decide) (by decide) (by decide)] at e2
  exact mul_inj 5#64 0xcccccccccccccccd#64 (by decide +kernel) _ _ e2

/-- The next four values of the `x` word. -/
def xs (g : Xoshiro) : U64 × U64 × U64 × U64 := (g.x, g.step.x, g.step.step.x, g.step.step.step.x)

theorem xs_inj {g h : Xoshiro} (e : g.xs = h.xs) : g = h := by
  have zero : ∀ u : Xoshiro, u.xs = (0#64, 0#64, 0#64, 0#64) → u = 0 := by
    rintro ⟨w, x, y, z⟩ hu
    simp only [xs, step, Prod.mk.injEq] at hu
    obtain ⟨rfl, h1, h2, h3⟩ := hu
    have r0 : rotl64 0#64 45 = 0#64 := by decide +kernel
    simp only [BitVec.zero_xor] at h1
    have hyw : y = w := by
      have := congrArg (· ^^^ w) h1
      simpa [BitVec.xor_assoc] using this
    subst hyw
    simp only [BitVec.zero_xor, BitVec.xor_zero, BitVec.zero_shiftLeft, BitVec.xor_self] at h2
    have hyz : y = z := by
      have := congrArg (· ^^^ z) h2
      simpa [BitVec.xor_assoc] using this
    subst hyz
    simp only [BitVec.zero_xor, BitVec.xor_zero, BitVec.zero_shiftLeft, BitVec.xor_self] at h3
    have h4 := congrArg (fun v => rotl64 v 19) h3
    rw [rotl64_rotl64 _ 45 19 (by decide) (by decide) (by decide)] at h4
    have r1 : rotl64 0#64 19 = 0#64 := by decide +kernel
    rw [r1] at h4
    subst h4
    rfl
  have h1 : (g + h).xs = (0#64, 0#64, 0#64, 0#64) := by
    have hx : ∀ a b : Xoshiro, (a + b).x = a.x ^^^ b.x := fun _ _ => rfl
    simp only [xs, Prod.mk.injEq] at e
    simp only [xs, step_add, hx, e.1, e.2.1, e.2.2.1, e.2.2.2, BitVec.xor_self]
  have h2 := zero _ h1
  have h3 : g + h + h = 0 + h := by rw [h2]
  rwa [add_assoc, add_self, add_zero, zero_add] at h3

/-- The next four outputs. -/
def outs (g : Xoshiro) : U64 × U64 × U64 × U64 := (g.out, g.step.out, g.step.step.out, g.step.step.step.out)

theorem outs_inj : Function.Injective outs := by
  intro g h e
  simp only [outs, Prod.mk.injEq] at e
  refine xs_inj ?_
  simp only [xs, out_inj e.1, out_inj e.2.1, out_inj e.2.2.1, out_inj e.2.2.2]

theorem outs_bij : Function.Bijective outs := by
  rw [Nat.bijective_iff_injective_and_card]
  exact ⟨outs_inj, Nat.card_congr equiv⟩

theorem emits_four (g : Xoshiro) (n : Nat) (a b c d : U64) :
    Emits uint64 g n [a, b, c, d] ↔ (step^[n] g).outs = (a, b, c, d) := by
  rw [emits_pure uint64_pure]
  simp [List.range_succ, outs]

theorem outs_zero : outs ⟨0#64, 0#64, 0#64, 0#64⟩ = (0#64, 0#64, 0#64, 0#64) := by decide +kernel

end Xoshiro

/-! ### C44 -/

/-- C44: from a state other than zero, calls of `Uint64` lead back to it exactly after the multiples of 2^256 - 1. -/
theorem C44_Xoshiro_period (g : Xoshiro) (hg : g ≠ ⟨0#64, 0#64, 0#64, 0#64⟩) (n : Nat) :
    Leads Xoshiro.uint64 n g g ↔ 2 ^ 256 - 1 ∣ n := by
  rw [leads_pure Xoshiro.uint64_pure]
  exact Xoshiro.cycle.period g hg n

/-- C44: the zero state is stuck: it leads only to itself, and no other state leads to it. -/
theorem C44_Xoshiro_zero (n : Nat) (g : Xoshiro) :
    (Leads Xoshiro.uint64 n ⟨0#64, 0#64, 0#64, 0#64⟩ g ↔ g = ⟨0#64, 0#64, 0#64, 0#64⟩) ∧
    (Leads Xoshiro.uint64 n g ⟨0#64, 0#64, 0#64, 0#64⟩ ↔ g = ⟨0#64, 0#64, 0#64, 0#64⟩) := by
  have hz : Xoshiro.step ⟨0#64, 0#64, 0#64, 0#64⟩ = ⟨0#64, 0#64, 0#64, 0#64⟩ := by decide +kernel
  have hi : ∀ n, Xoshiro.step^[n] ⟨0#64, 0#64, 0#64, 0#64⟩ = ⟨0#64, 0#64, 0#64, 0#64⟩ := fun n => Function.iterate_fixed hz n
  rw [leads_pure Xoshiro.uint64_pure, leads_pure Xoshiro.uint64_pure, hi]
  refine ⟨eq_comm, fun h => ?_, fun h => ?_⟩
  · by_contra hg
    obtain ⟨k, -, hk⟩ := (Xoshiro.cycle.existsUnique hg hg).exists
    have hp := (Xoshiro.cycle.period g hg (n * (2 ^ 256 - 1))).mpr (Dvd.intro_left _ rfl)
    have : Xoshiro.step^[n * (2 ^ 256 - 1)] g = ⟨0#64, 0#64, 0#64, 0#64⟩ := by
      rw [show n * (2 ^ 256 - 1) = (n * (2 ^ 256 - 1) - n) + n from (Nat.sub_add_cancel (Nat.le_mul_of_pos_right n (by decide))).symm,
        Function.iterate_add_apply, h, hi]
    exact hg (hp.symm.trans this)
  · rw [h, hi]

/-- C44: on the way every other state is visited, exactly once. -/
theorem C44_Xoshiro_visits (g h : Xoshiro) (hg : g ≠ ⟨0#64, 0#64, 0#64, 0#64⟩) (hh : h ≠ ⟨0#64, 0#64, 0#64, 0#64⟩) :
    ∃! n, n < 2 ^ 256 - 1 ∧ Leads Xoshiro.uint64 n g h := by
  simp only [leads_pure Xoshiro.uint64_pure]
  exact Xoshiro.cycle.existsUnique hg hh

/-- C44: the periods of the output sequence are the same. -/
theorem C44_Xoshiro_output_period (g : Xoshiro) (hg : g ≠ ⟨0#64, 0#64, 0#64, 0#64⟩) (p : Nat) :
    OutputPeriod Xoshiro.uint64 g p ↔ 2 ^ 256 - 1 ∣ p := by
  rw [outputPeriod_pure Xoshiro.uint64_pure]
  constructor
  · intro h
    rw [← Xoshiro.cycle.period g hg p]
    have h0 := h 0
    have h1 := h 1
    have h2 := h 2
    have h3 := h 3
    rw [Nat.zero_add] at h0
    rw [Nat.add_comm, Function.iterate_add_apply] at h1 h2 h3
    refine Xoshiro.outs_inj ?_
    have f1 : ∀ s, Xoshiro.step^[1] s = s.step := fun _ => rfl
    have f2 : ∀ s, Xoshiro.step^[2] s = s.step.step := fun _ => rfl
    have f3 : ∀ s, Xoshiro.step^[3] s = s.step.step.step := fun _ => rfl
    have g1 : ∀ k, Xoshiro.step^[p] (Xoshiro.step^[k] g) = Xoshiro.step^[k] (Xoshiro.step^[p] g) := by
      intro k
      rw [← Function.iterate_add_apply, Nat.add_comm, Function.iterate_add_apply]
    rw [g1, f1, f1] at h1
    rw [g1, f2, f2] at h2
    rw [g1, f3, f3] at h3
    simp only [Xoshiro.outs, h1, h2, h3]
    rw [h0]
    rfl
  · rintro ⟨k, rfl⟩ n
    have h1 : Xoshiro.step^[n + (2 ^ 256 - 1) * k] g = Xoshiro.step^[n] g := by
      rw [Xoshiro.cycle.iter_inj hg]
      exact Nat.ModEq.symm ((Nat.modEq_iff_dvd' (by omega)).mpr ⟨k, by omega⟩)
    rw [h1]

/-- The hypothesis of C44 is met, e.g. by every state `Seed` produces (C51) and by this one. -/
example : ∃! n, n < 2 ^ 256 - 1 ∧ Leads Xoshiro.uint64 n ⟨1#64, 2#64, 3#64, 4#64⟩ ⟨5#64, 0#64, 0#64, 0#64⟩ :=
  C44_Xoshiro_visits _ _ (by decide) (by decide)

/-! ### C45 -/

/-- C45: in one period every four-tuple of words other than (0, 0, 0, 0) is returned by four consecutive calls of
`Uint64`, at exactly one place. -/
theorem C45_Xoshiro_equidistributed (g : Xoshiro) (hg : g ≠ ⟨0#64, 0#64, 0#64, 0#64⟩) (a b c d : U64)
    (h : [a, b, c, d] ≠ [0#64, 0#64, 0#64, 0#64]) :
    ∃! n, n < 2 ^ 256 - 1 ∧ Emits Xoshiro.uint64 g n [a, b, c, d] := by
  obtain ⟨t, ht⟩ := Xoshiro.outs_bij.2 (a, b, c, d)
  have htz : t ≠ ⟨0#64, 0#64, 0#64, 0#64⟩ := by
    rintro rfl
    rw [Xoshiro.outs_zero] at ht
    simp only [Prod.mk.injEq] at ht
    obtain ⟨rfl, rfl, rfl, rfl⟩ := ht
    exact h rfl
  simp only [Xoshiro.emits_four, ← ht, Xoshiro.outs_inj.eq_iff]
  exact Xoshiro.cycle.existsUnique hg htz

/-- C45: four consecutive zeros are never returned. -/
theorem C45_Xoshiro_never_zeros (g : Xoshiro) (hg : g ≠ ⟨0#64, 0#64, 0#64, 0#64⟩) (n : Nat) :
    ¬ Emits Xoshiro.uint64 g n [0#64, 0#64, 0#64, 0#64] := by
  rw [Xoshiro.emits_four, ← Xoshiro.outs_zero, Xoshiro.outs_inj.eq_iff]
  exact Xoshiro.cycle.iter_nz hg n

/-! ### C46 -/

namespace Xoshiro
open Polynomial Kron

theorem jumpWord_eq (n : Nat) (j : U64) (acc g : Xoshiro) :
    jumpWord n j acc g = (polyAct xor step n j.toNat acc g, step^[n] g) := by
  induction n generalizing j acc g with
  | zero => rfl
  | succ n ih =>
    rw [jumpWord, ih, polyAct, BitVec.toNat_ushiftRight]
    have h1 : j.toNat >>> 1 = Nat.div j.toNat 2 := by
      rw [Nat.shiftRight_eq_div_pow]; rfl
    have h2 : (j &&& 1#64 ≠ 0#64) = (Nat.beq (Nat.mod j.toNat 2) 1 = true) := by
      have h3 : (j &&& 1#64).toNat = j.toNat % 2 := by
        rw [BitVec.toNat_and]; exact Nat.and_one_is_mod _
      have h4 : (Nat.mod j.toNat 2) = j.toNat % 2 := rfl
      rw [h4]
      apply propext
      constructor
      · intro h
        rcases Nat.mod_two_eq_zero_or_one j.toNat with h5 | h5
        · exact absurd (BitVec.eq_of_toNat_eq (x := j &&& 1#64) (y := 0#64) (h3.trans h5)) h
        · rw [h5]; rfl
      · intro h h6
        rw [Nat.eq_of_beq_eq_true h, h6] at h3
        contradiction
    rw [h1]
    simp only [h2]
    cases Nat.beq (Nat.mod j.toNat 2) 1 <;> rfl

theorem bp_add (m n c : Nat) : bp (m + n) c = bp m c + X ^ m * bp n (c / 2 ^ m) := by
  induction m generalizing c with
  | zero => simp [bp]
  | succ m ih =>
    rw [Nat.add_right_comm, bp, bp, ih, Nat.div_div_eq_div_mul, pow_succ', ← Nat.pow_succ']
    ring

theorem bp_mod (m c k : Nat) : bp m (c + 2 ^ m * k) = bp m c := by
  induction m generalizing c k with
  | zero => rfl
  | succ m ih =>
    rw [bp, bp]
    have h0 : 2 ^ (m + 1) * k = 2 * (2 ^ m * k) := by rw [Nat.pow_succ]; ring
    have h1 : (c + 2 ^ (m + 1) * k) % 2 = c % 2 := by rw [h0]; omega
    have h2 : (c + 2 ^ (m + 1) * k) / 2 = c / 2 + 2 ^ m * k := by rw [h0]; omega
    rw [h1, h2, ih]

theorem polyAct_T (n c : Nat) (acc v : Xoshiro) : polyAct xor step n c acc v = acc + aeval T (bp n c) v :=
  polyAct_eq T n c acc v

theorem T_pow (n : Nat) (v : Xoshiro) : aeval T (X ^ n : (ZMod 2)[X]) v = step^[n] v := by
  rw [map_pow, aeval_X, Module.End.pow_apply]
  rfl

theorem jumpLoop_cons (n : Nat) (hn : n = 64) (j : U64) (js : List U64) (acc g : Xoshiro) :
    jumpLoop (j :: js) acc g = jumpLoop js (acc + aeval T (bp n j.toNat) g) (step^[n] g) := by
  rw [jumpLoop, jumpWord_eq, polyAct_T, hn]

theorem jump_poly (n : Nat) (hn : n = 64) (j0 j1 j2 j3 : U64) (g : Xoshiro) : jumpLoop [j0, j1, j2, j3] 0 g =
    aeval T (bp (n + (n + (n + n))) (j0.toNat + 2 ^ n * (j1.toNat + 2 ^ n * (j2.toNat + 2 ^ n * j3.toNat)))) g := by
  have e1 : ∀ a k : Nat, a < 2 ^ 64 → (a + 2 ^ n * k) / 2 ^ n = k := by
    intro a k h
    rw [← hn] at h
    rw [Nat.add_mul_div_left _ _ (Nat.two_pow_pos n), Nat.div_eq_of_lt h, Nat.zero_add]
  have key : ∀ (P : (ZMod 2)[X]) (v : Xoshiro) (n : Nat), aeval T (X ^ n * P) v = aeval T P (step^[n] v) := by
    intro P v n
    rw [mul_comm, map_mul, Module.End.mul_apply, T_pow]
  rw [jumpLoop_cons n hn, jumpLoop_cons n hn, jumpLoop_cons n hn, jumpLoop_cons n hn, jumpLoop]
  rw [bp_add n, bp_mod, e1 _ _ j0.isLt, bp_add n, bp_mod, e1 _ _ j1.isLt, bp_add n, bp_mod, e1 _ _ j2.isLt]
  simp only [map_add, LinearMap.add_apply, key]
  rw [zero_add, add_assoc, add_assoc]

theorem jump_eq (g : Xoshiro) : g.jump = step^[2 ^ 192] g := by
  have h := congrArg (fun f : Module.End (ZMod 2) Xoshiro => f g)
    (aeval_of_dvd T char_T (Ctx.powIs_dvd xoshiC_ok xoshi_jump))
  simp only [T_pow] at h
  have e1 : xoshiC.d = 64 + (64 + (64 + 64)) := rfl
  have e2 := jump_poly 64 rfl 0x76e15d3efefdcbbf#64 0xc5004e441c522fb3#64 0x77710069854ee241#64 0x39109bb02acbe635#64 g
  rw [h, jump, jumpTable, e1]
  refine e2.trans ?_
  refine congrArg (fun c => aeval T (bp (64 + (64 + (64 + 64))) c) g) ?_
  decide +kernel

end Xoshiro

/-- C46: `Jump` has the effect of exactly 2^192 calls of `Uint64`. -/
theorem C46_Xoshiro_Jump (g h : Xoshiro) : g.jump = h ↔ Leads Xoshiro.uint64 (2 ^ 192) g h := by
  rw [leads_pure Xoshiro.uint64_pure, Xoshiro.jump_eq]

/-- C46: `k` jumps have the effect of exactly `k * 2^192` calls. -/
theorem C46_Xoshiro_Jumps (g h : Xoshiro) (k : Nat) : Xoshiro.jump^[k] g = h ↔ Leads Xoshiro.uint64 (k * 2 ^ 192) g h := by
  rw [leads_pure Xoshiro.uint64_pure]
  have : Xoshiro.jump = Xoshiro.step^[2 ^ 192] := funext Xoshiro.jump_eq
  rw [this, ← Function.iterate_mul, Nat.mul_comm]

/-! ### C47 -/

/-- C47: the generators obtained from one by 0, 1, ..., 2^64 - 1 jumps pass through pairwise different states during
their first 2^192 - 1 calls. -/
theorem C47_Xoshiro_no_overlap (g : Xoshiro) (hg : g ≠ ⟨0#64, 0#64, 0#64, 0#64⟩) (i j a b : Nat) (hi : i < 2 ^ 64)
    (hj : j < 2 ^ 64) (ha : a < 2 ^ 192 - 1) (hb : b < 2 ^ 192 - 1) (h : Xoshiro)
    (h1 : Leads Xoshiro.uint64 a (Xoshiro.jump^[i] g) h) (h2 : Leads Xoshiro.uint64 b (Xoshiro.jump^[j] g) h) :
    i = j ∧ a = b := by
  rw [leads_pure Xoshiro.uint64_pure] at h1 h2
  have hJ : Xoshiro.jump = Xoshiro.step^[2 ^ 192] := funext Xoshiro.jump_eq
  rw [hJ, ← Function.iterate_mul, ← Function.iterate_add_apply] at h1 h2
  have h3 := (Xoshiro.cycle.iter_inj hg).mp (h1.trans h2.symm)
  have h4 := Nat.ModEq.eq_of_lt_of_lt h3 (by omega) (by omega)
  omega

/-- C47: one more call in each makes the last meet the first, in the state all started from. -/
theorem C47_Xoshiro_overlap (g : Xoshiro) :
    Leads Xoshiro.uint64 0 (Xoshiro.jump^[0] g) g ∧
      Leads Xoshiro.uint64 (2 ^ 192 - 1) (Xoshiro.jump^[2 ^ 64 - 1] g) g := by
  constructor
  · exact ⟨[], rfl⟩
  · rw [leads_pure Xoshiro.uint64_pure]
    have hJ : Xoshiro.jump = Xoshiro.step^[2 ^ 192] := funext Xoshiro.jump_eq
    rw [hJ, ← Function.iterate_mul, ← Function.iterate_add_apply,
      show 2 ^ 192 - 1 + 2 ^ 192 * (2 ^ 64 - 1) = 2 ^ 256 - 1 by decide]
    by_cases hg : g = ⟨0#64, 0#64, 0#64, 0#64⟩
    · subst hg
      exact Function.iterate_fixed Xoshiro.step_zero _
    · exact (Xoshiro.cycle.period g hg _).mpr dvd_rfl

end Crazy
