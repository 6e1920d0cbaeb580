/-
C48, C49: the runs of Xoroshiro and Rexoroshiro.
-/
import Verif.Props.Period
import Verif.Props.State
namespace Crazy

namespace Xoroshiro

theorem uint64_pure (g : Xoroshiro) : g.uint64 = .ok (g.out, g.step) := rfl

/-- A state is two words. -/
def equiv : Xoroshiro ≃ U64 × U64 where
  toFun g := (g.s0, g.s1)
  invFun p := ⟨p.1, p.2⟩
  left_inv _ := rfl
  right_inv _ := rfl

instance : Finite Xoroshiro := Finite.of_equiv _ equiv.symm

theorem card_words : Nat.card (U64 × U64) = 2 ^ 128 - 1 + 1 := by
  simp only [Nat.card_prod, card_U64]
  rfl

theorem step_zero : step ⟨0#64, 0#64⟩ = ⟨0#64, 0#64⟩ := by decide +kernel

theorem step_inj {g h : Xoroshiro} (e : g.step = h.step) : g = h := by
  rw [← unstep_step g, ← unstep_step h, e]

theorem cycle : FullCycle step ⟨0#64, 0#64⟩ (2 ^ 128 - 1) where
  finite := inferInstance
  pos := by decide
  card := (Nat.card_congr equiv).trans card_words
  nz s hs h := hs (step_inj (h.trans step_zero.symm))
  period s hs n := period s hs n

/-- The states with a given output are as many as the words. -/
theorem card_out (v : U64) : Nat.card {s : Xoroshiro // s.out = v} = 2 ^ 64 := by
  rw [← card_U64]
  refine Nat.card_congr ⟨fun s => s.1.s0, fun a => ⟨⟨a, v - a⟩, ?_⟩, ?_, ?_⟩
  · show a + (v - a) = v
    rw [BitVec.add_comm, BitVec.sub_add_cancel]
  · rintro ⟨⟨a, b⟩, rfl⟩
    refine Subtype.ext ?_
    simp only [out, mk.injEq, true_and]
    rw [BitVec.add_comm, BitVec.add_sub_cancel]
  · intro a; rfl

theorem card_out_nz (v : U64) : Nat.card {s : Xoroshiro // s ≠ ⟨0#64, 0#64⟩ ∧ s.out = v} =
    if v = 0#64 then 2 ^ 64 - 1 else 2 ^ 64 := by
  split
  · rename_i h
    subst h
    have h1 := card_out 0#64
    classical
    have h2 := Nat.card_congr (Equiv.optionSubtypeNe (⟨⟨0#64, 0#64⟩, rfl⟩ : {s : Xoroshiro // s.out = 0#64}))
    rw [Finite.card_option, h1] at h2
    have h3 : Nat.card {s : Xoroshiro // s ≠ ⟨0#64, 0#64⟩ ∧ s.out = 0#64} =
        Nat.card {a : {s : Xoroshiro // s.out = 0#64} // a ≠ ⟨⟨0#64, 0#64⟩, rfl⟩} := by
      refine Nat.card_congr ⟨fun s => ⟨⟨s.1, s.2.2⟩, fun h => s.2.1 (congrArg Subtype.val h)⟩,
        fun a => ⟨a.1.1, fun h => a.2 (Subtype.ext h), a.1.2⟩, fun _ => rfl, fun _ => rfl⟩
    omega
  · rename_i h
    rw [← card_out v]
    refine Nat.card_congr ⟨fun s => ⟨s.1, s.2.2⟩, fun s => ⟨s.1, ?_, s.2⟩, fun _ => rfl, fun _ => rfl⟩
    intro h1
    have h2 := s.2
    rw [h1] at h2
    exact h h2.symm

/-- The lowest bit of the output is a linear function of the state. -/
theorem out_bit0 (a b : Xoroshiro) : (a + b).out.getLsbD 0 = (a.out.getLsbD 0 ^^ b.out.getLsbD 0) := by
  obtain ⟨a0, a1⟩ := a
  obtain ⟨b0, b1⟩ := b
  show ((a0 ^^^ b0) + (a1 ^^^ b1)).getLsbD 0 = ((a0 + a1).getLsbD 0 ^^ (b0 + b1).getLsbD 0)
  simp only [BitVec.getLsbD_add (by decide : 0 < 64), BitVec.getLsbD_xor, BitVec.carry_zero, Bool.xor_false]
  cases a0.getLsbD 0 <;> cases a1.getLsbD 0 <;> cases b0.getLsbD 0 <;> cases b1.getLsbD 0 <;> rfl

theorem step_iter_add (n : Nat) (a b : Xoroshiro) : step^[n] (a + b) = step^[n] a + step^[n] b := by
  induction n generalizing a b with
  | zero => rfl
  | succ n ih => rw [Function.iterate_succ_apply, step_add, ih]; rfl

/-- A period of the outputs is a period of the states. -/
theorem output_period (g : Xoroshiro) (hg : g ≠ ⟨0#64, 0#64⟩) (p : Nat) :
    (∀ n, out (step^[n + p] g) = out (step^[n] g)) ↔ 2 ^ 128 - 1 ∣ p := by
  constructor
  · intro h
    rw [← cycle.period g hg p]
    by_contra hne
    have hu : step^[p] g + g ≠ (0 : Xoroshiro) := by
      intro h0
      have h3 : step^[p] g + g + g = 0 + g := by rw [h0]
      rw [add_assoc, add_self, add_zero, zero_add] at h3
      exact hne h3
    obtain ⟨n, ⟨-, h1⟩, -⟩ := cycle.existsUnique (s := step^[p] g + g) (t := ⟨1#64, 0#64⟩) hu (by decide)
    have h2 := out_bit0 (step^[n] (step^[p] g)) (step^[n] g)
    rw [← step_iter_add, h1, ← Function.iterate_add_apply, h n, Bool.xor_self] at h2
    revert h2
    decide
  · rintro ⟨k, rfl⟩ n
    have h1 : step^[n + (2 ^ 128 - 1) * k] g = step^[n] g := by
      rw [cycle.iter_inj hg]
      exact Nat.ModEq.symm ((Nat.modEq_iff_dvd' (by omega)).mpr ⟨k, by omega⟩)
    rw [h1]

end Xoroshiro

namespace Rexoroshiro

theorem uint64_pure (g : Rexoroshiro) : g.uint64 = .ok (reverseBytes64 g.xoro.out, ⟨g.xoro.step⟩) := rfl

theorem iter (n : Nat) (g : Rexoroshiro) : (fun g : Rexoroshiro => (⟨g.xoro.step⟩ : Rexoroshiro))^[n] g =
    ⟨Xoroshiro.step^[n] g.xoro⟩ := by
  induction n generalizing g with
  | zero => rfl
  | succ n ih => rw [Function.iterate_succ_apply, ih]; rfl

theorem reverse_reverse (x : U64) : reverseBytes64 (reverseBytes64 x) = x := by
  have h1 := bytesOf_reverseBytes64 (reverseBytes64 x)
  have h2 := bytesOf_reverseBytes64 x
  rw [h2, List.reverse_reverse, bytesOf_one, bytesOf_one] at h1
  exact le64_injective h1

theorem reverse_inj {x y : U64} : reverseBytes64 x = reverseBytes64 y ↔ x = y := by
  constructor
  · intro h
    rw [← reverse_reverse x, ← reverse_reverse y, h]
  · rintro rfl; rfl

end Rexoroshiro

/-! ### C48 -/

/-- C48: from a state other than zero, calls of `Uint64` lead back to it exactly after the multiples of 2^128 - 1. -/
theorem C48_Xoroshiro_period (g : Xoroshiro) (hg : g ≠ ⟨0#64, 0#64⟩) (n : Nat) :
    Leads Xoroshiro.uint64 n g g ↔ 2 ^ 128 - 1 ∣ n := by
  rw [leads_pure Xoroshiro.uint64_pure]
  exact Xoroshiro.cycle.period g hg n

/-- C48: on the way every other state is visited, exactly once. -/
theorem C48_Xoroshiro_visits (g h : Xoroshiro) (hg : g ≠ ⟨0#64, 0#64⟩) (hh : h ≠ ⟨0#64, 0#64⟩) :
    ∃! n, n < 2 ^ 128 - 1 ∧ Leads Xoroshiro.uint64 n g h := by
  simp only [leads_pure Xoroshiro.uint64_pure]
  exact Xoroshiro.cycle.existsUnique hg hh

/-- C48: the periods of the output sequence are the same. -/
theorem C48_Xoroshiro_output_period (g : Xoroshiro) (hg : g ≠ ⟨0#64, 0#64⟩) (p : Nat) :
    OutputPeriod Xoroshiro.uint64 g p ↔ 2 ^ 128 - 1 ∣ p := by
  rw [outputPeriod_pure Xoroshiro.uint64_pure]
  exact Xoroshiro.output_period g hg p

/-- C48 for Rexoroshiro. -/
theorem C48_Rexoroshiro_period (g : Rexoroshiro) (hg : g ≠ ⟨⟨0#64, 0#64⟩⟩) (n : Nat) :
    Leads Rexoroshiro.uint64 n g g ↔ 2 ^ 128 - 1 ∣ n := by
  obtain ⟨g⟩ := g
  rw [leads_pure Rexoroshiro.uint64_pure, Rexoroshiro.iter, Rexoroshiro.mk.injEq]
  exact Xoroshiro.cycle.period g (fun h => hg (congrArg _ h)) n

/-- C48 for Rexoroshiro. -/
theorem C48_Rexoroshiro_visits (g h : Rexoroshiro) (hg : g ≠ ⟨⟨0#64, 0#64⟩⟩) (hh : h ≠ ⟨⟨0#64, 0#64⟩⟩) :
    ∃! n, n < 2 ^ 128 - 1 ∧ Leads Rexoroshiro.uint64 n g h := by
  obtain ⟨g⟩ := g
  obtain ⟨h⟩ := h
  simp only [leads_pure Rexoroshiro.uint64_pure, Rexoroshiro.iter, Rexoroshiro.mk.injEq]
  exact Xoroshiro.cycle.existsUnique (fun h => hg (congrArg _ h)) (fun h => hh (congrArg _ h))

/-- C48 for Rexoroshiro. -/
theorem C48_Rexoroshiro_output_period (g : Rexoroshiro) (hg : g ≠ ⟨⟨0#64, 0#64⟩⟩) (p : Nat) :
    OutputPeriod Rexoroshiro.uint64 g p ↔ 2 ^ 128 - 1 ∣ p := by
  obtain ⟨g⟩ := g
  rw [outputPeriod_pure Rexoroshiro.uint64_pure]
  simp only [Rexoroshiro.iter, Rexoroshiro.reverse_inj]
  exact Xoroshiro.output_period g (fun h => hg (congrArg _ h)) p

/-! ### C49 -/

/-- C49: in one period every word other than 0 is returned exactly 2^64 times, and 0 is returned 2^64 - 1 times. -/
theorem C49_Xoroshiro_equidistributed (g : Xoroshiro) (hg : g ≠ ⟨0#64, 0#64⟩) (v : U64) :
    Nat.card {n : Nat // n < 2 ^ 128 - 1 ∧ Emits Xoroshiro.uint64 g n [v]} =
      if v = 0#64 then 2 ^ 64 - 1 else 2 ^ 64 := by
  simp only [emits_one Xoroshiro.uint64_pure]
  rw [Xoroshiro.cycle.card_visits hg (fun s => s.out = v), Xoroshiro.card_out_nz]

/-- C49 for Rexoroshiro. -/
theorem C49_Rexoroshiro_equidistributed (g : Rexoroshiro) (hg : g ≠ ⟨⟨0#64, 0#64⟩⟩) (v : U64) :
    Nat.card {n : Nat // n < 2 ^ 128 - 1 ∧ Emits Rexoroshiro.uint64 g n [v]} =
      if v = 0#64 then 2 ^ 64 - 1 else 2 ^ 64 := by
  obtain ⟨g⟩ := g
  have e : ∀ x : U64, (reverseBytes64 x = v) = (x = reverseBytes64 v) := by
    intro x
    rw [← Rexoroshiro.reverse_inj (x := x), Rexoroshiro.reverse_reverse]
  simp only [emits_one Rexoroshiro.uint64_pure, Rexoroshiro.iter, e]
  rw [Xoroshiro.cycle.card_visits (fun h => hg (congrArg _ h)) (fun s => s.out = reverseBytes64 v), Xoroshiro.card_out_nz]
  have e0 : (reverseBytes64 v = 0#64) = (v = 0#64) := by
    rw [← Rexoroshiro.reverse_inj (x := v), show reverseBytes64 0#64 = 0#64 by decide +kernel]
  simp only [e0]

end Crazy
