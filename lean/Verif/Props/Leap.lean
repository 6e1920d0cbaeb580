/-
C88: every L-th output. A program that gives each of L workers every L-th output of one generator (leapfrogging), or that reads records of a fixed
size and looks at one field, sees such a part of the stream. For MT64, and for the others if L has no factor in common with the period, this part
has the same values equally often as the whole stream; for every other L of a reasonable size it still has all values.
-/
import Verif.Proofs.Leap
import Verif.Props.Period2
import Verif.Props.MtEqui
namespace Crazy

/-- Something periodic is met equally often when every `L`-th place is looked at, if `L` has no factor in common with the period. -/
theorem card_leap (Q : Nat → Prop) (P L n : Nat) (hP : 0 < P) (hc : Nat.Coprime L P) (hper : ∀ m, Q (m + P) ↔ Q m) :
    Nat.card {j : Nat // j < P ∧ Q (n + j * L)} = Nat.card {m : Nat // m < P ∧ Q m} := by
  have hmul : ∀ q m, Q (m + q * P) ↔ Q m := by
    intro q
    induction q with
    | zero => intro m; rw [Nat.zero_mul, Nat.add_zero]
    | succ q ih => intro m; rw [Nat.succ_mul, ← Nat.add_assoc, hper, ih]
  have hmod : ∀ m, Q (m % P) ↔ Q m := by
    intro m
    have h := hmul (m / P) (m % P)
    rw [Nat.mod_add_div'] at h
    exact h.symm
  have hinj : ∀ i j, i < P → j < P → (n + i * L) % P = (n + j * L) % P → i = j := by
    intro i j hi hj h
    have h1 : i * L ≡ j * L [MOD P] := Nat.ModEq.add_left_cancel' n h
    exact Nat.ModEq.eq_of_lt_of_lt (Nat.ModEq.cancel_right_of_coprime hc.symm h1) hi hj
  have hsurj : Function.Surjective fun i : Fin P => (⟨(n + i.val * L) % P, Nat.mod_lt _ hP⟩ : Fin P) := by
    refine Finite.injective_iff_surjective.mp fun i j h => Fin.ext ?_
    exact hinj _ _ i.2 j.2 (congrArg Fin.val h)
  refine Nat.card_congr (Equiv.ofBijective (fun j => ⟨(n + j.1 * L) % P, Nat.mod_lt _ hP, (hmod _).mpr j.2.2⟩) ⟨?_, ?_⟩)
  · rintro ⟨i, hi, _⟩ ⟨j, hj, _⟩ h
    exact Subtype.ext (hinj i j hi hj (congrArg Subtype.val h))
  · rintro ⟨m, hm, hQ⟩
    obtain ⟨i, hi⟩ := hsurj ⟨m, hm⟩
    have hi : (n + i.val * L) % P = m := congrArg Fin.val hi
    refine ⟨⟨i.val, i.2, ?_⟩, Subtype.ext hi⟩
    rw [← hmod, hi]
    exact hQ

/-- The same for what a generator with a full cycle returns. -/
theorem emits_per {σ : Type} {next : σ → Go (U64 × σ)} {out : σ → U64} {step : σ → σ} (hp : ∀ s, next s = .ok (out s, step s)) {g : σ} {P : Nat}
    (hg : step^[P] g = g) (ws : List U64) (m : Nat) : Emits next g (m + P) ws ↔ Emits next g m ws := by
  rw [emits_pure hp, emits_pure hp, Function.iterate_add_apply, hg]

theorem leap_large (N L B R : Nat) (hL : 0 < L) (h : R * B * L < N) : R * B < N / Nat.gcd N L := by
  have h1 : Nat.gcd N L ≤ L := Nat.le_of_dvd hL (Nat.gcd_dvd_right _ _)
  have h2 := Nat.div_mul_cancel (Nat.gcd_dvd_left N L)
  by_contra hc
  have h3 : N / Nat.gcd N L * Nat.gcd N L ≤ R * B * L := Nat.mul_le_mul (by omega) h1
  omega

namespace Xoshiro

/-- The sign of a bit of the word that the output is made of. -/
def sgnX (i : Fin 64) (g : Xoshiro) : ℤ := if g.x.getLsbD i then -1 else 1

theorem sgnX_sgn (i : Fin 64) : Sgn (sgnX i) where
  mul a b := by
    show (if (a.x ^^^ b.x).getLsbD i then (-1 : ℤ) else 1) = _
    rw [BitVec.getLsbD_xor]
    unfold sgnX
    cases a.x.getLsbD i <;> cases b.x.getLsbD i <;> rfl
  sq a := by
    unfold sgnX
    cases a.x.getLsbD i <;> rfl

theorem out_x (v : U64) : ∃ x0, ∀ g : Xoshiro, g.out = v ↔ g.x = x0 := by
  have hinj : Function.Injective fun x : U64 => (⟨0#64, x, 0#64, 0#64⟩ : Xoshiro).out := fun a b h => out_inj h
  obtain ⟨x0, hx⟩ := Finite.injective_iff_surjective.mp hinj v
  refine ⟨x0, fun g => ⟨fun h => ?_, fun h => ?_⟩⟩
  · exact out_inj (h.trans hx.symm)
  · have hx : (⟨0#64, x0, 0#64, 0#64⟩ : Xoshiro).out = v := hx
    rw [← hx]
    show out g = out ⟨0#64, x0, 0#64, 0#64⟩
    unfold out
    rw [h]

theorem zero_def : (0 : Xoshiro) = ⟨0#64, 0#64, 0#64, 0#64⟩ := rfl

open Classical in
theorem leap (g : Xoshiro) (hg : g ≠ ⟨0#64, 0#64, 0#64, 0#64⟩) (L : Nat) (v : U64) :
    |2 ^ 64 * (((Finset.range ((2 ^ 256 - 1) / Nat.gcd (2 ^ 256 - 1) L)).filter fun j => (step^[j * L] g).out = v).card : ℤ) -
      ((2 ^ 256 - 1) / Nat.gcd (2 ^ 256 - 1) L : ℕ)| ≤ (2 ^ 64 - 1) * 2 ^ 128 := by
  have := cycle.finite
  have := Fintype.ofFinite Xoshiro
  obtain ⟨x0, hx⟩ := out_x v
  have hc : Fintype.card Xoshiro = (2 ^ 128) ^ 2 := by
    rw [← Nat.card_eq_fintype_card, cycle.card]
    norm_num
  have h := cycle.leap_count step_add L (2 ^ 128) hc sgnX sgnX_sgn (fun i => ⟨0#64, BitVec.twoPow 64 i, 0#64, 0#64⟩) (fun i => ?_) (fun i j hij => ?_)
    (fun i => if x0.getLsbD i then -1 else 1) (fun i => ?_) hg (fun g => g.out = v) (fun g => ?_)
  · rw [Fintype.card_fin, Nat.cast_pow, Nat.cast_ofNat] at h
    exact h
  · unfold sgnX
    rw [BitVec.getLsbD_twoPow]
    simp
  · unfold sgnX
    rw [BitVec.getLsbD_twoPow]
    have : (i : Nat) ≠ j := fun e => hij (Fin.ext e.symm)
    simp [this]
  · cases x0.getLsbD i <;> rfl
  · rw [hx]
    constructor
    · rintro h i
      unfold sgnX
      rw [h]
    · intro h
      refine BitVec.eq_of_getLsbD_eq fun i hi => ?_
      have h := h ⟨i, hi⟩
      unfold sgnX at h
      simp only at h
      revert h
      cases g.x.getLsbD i <;> cases x0.getLsbD i <;> decide

end Xoshiro

theorem natCard_filter (M : Nat) (p : Nat → Prop) [DecidablePred p] : Nat.card {j : Nat // j < M ∧ p j} = ((Finset.range M).filter p).card :=
  Nat.subtype_card _ fun x => by rw [Finset.mem_filter, Finset.mem_range]

/-- C88 for Xoshiro: take every `L`-th output. The states met come again after `M = (2^256-1)/gcd(2^256-1, L)` of them; among the outputs of one
such round every word `v` occurs `M/2^64` times, up to an error below `2^128` (`2^64` times the number of occurrences is in the statement). -/
theorem C88_Xoshiro (g : Xoshiro) (hg : g ≠ ⟨0#64, 0#64, 0#64, 0#64⟩) (n L M : Nat) (hM : M = (2 ^ 256 - 1) / Nat.gcd (2 ^ 256 - 1) L) (v : U64) :
    |2 ^ 64 * (Nat.card {j : Nat // j < M ∧ Emits Xoshiro.uint64 g (n + j * L) [v]} : ℤ) - M| ≤ (2 ^ 64 - 1) * 2 ^ 128 := by
  classical
  have h := Xoshiro.leap (Xoshiro.step^[n] g) (Xoshiro.cycle.iter_nz hg n) L v
  simp only [emits_one Xoshiro.uint64_pure, Nat.add_comm n, Function.iterate_add_apply]
  rw [natCard_filter, hM]
  exact h

/-- C88 for Xoshiro: for every `L` below `2^64`, from any point on, every `L`-th output takes every value. -/
theorem C88_Xoshiro_every (g : Xoshiro) (hg : g ≠ ⟨0#64, 0#64, 0#64, 0#64⟩) (n L : Nat) (hL : 0 < L) (hL' : L < 2 ^ 64) (v : U64) :
    ∃ j, Emits Xoshiro.uint64 g (n + j * L) [v] := by
  by_contra hc
  have h := C88_Xoshiro g hg n L _ rfl v
  have h0 : Nat.card {j : Nat // j < (2 ^ 256 - 1) / Nat.gcd (2 ^ 256 - 1) L ∧ Emits Xoshiro.uint64 g (n + j * L) [v]} = 0 := by
    rw [Nat.card_eq_zero]
    exact Or.inl ⟨fun j => hc ⟨j.1, j.2.2⟩⟩
  rw [h0] at h
  have h1 := leap_large (2 ^ 256 - 1) L (2 ^ 128) (2 ^ 64) hL
    ((Nat.mul_le_mul_left _ (Nat.le_sub_one_of_lt hL')).trans_lt (by norm_num))
  generalize (2 ^ 256 - 1) / Nat.gcd (2 ^ 256 - 1) L = M at h h1
  rw [Nat.cast_zero, mul_zero, zero_sub, abs_neg, Nat.abs_cast] at h
  have h2 : (M : ℤ) < M := h.trans_lt (lt_trans (by norm_num) (Int.ofNat_lt.mpr h1))
  exact lt_irrefl _ h2

/-- C88 for Xoshiro: if `L` has no factor in common with the period, every four-tuple of words other than four zeros comes, at every `L`-th place, exactly
once in a period. -/
theorem C88_Xoshiro_coprime (g : Xoshiro) (hg : g ≠ ⟨0#64, 0#64, 0#64, 0#64⟩) (n L : Nat) (hL : Nat.Coprime L (2 ^ 256 - 1)) (a b c d : U64)
    (h : [a, b, c, d] ≠ [0#64, 0#64, 0#64, 0#64]) :
    Nat.card {j : Nat // j < 2 ^ 256 - 1 ∧ Emits Xoshiro.uint64 g (n + j * L) [a, b, c, d]} = 1 := by
  rw [card_leap (fun m => Emits Xoshiro.uint64 g m [a, b, c, d]) _ _ _ (by decide) hL
    fun m => emits_per Xoshiro.uint64_pure ((Xoshiro.cycle.period g hg _).mpr (dvd_refl _)) _ m]
  rw [Nat.card_eq_one_iff_exists]
  obtain ⟨m, hm, hu⟩ := C45_Xoshiro_equidistributed g hg a b c d h
  exact ⟨⟨m, hm⟩, fun k => Subtype.ext (hu _ k.2)⟩

/-! ### Xoroshiro -/

namespace Xoroshiro

/-- The sign of a bit, from bit `p` on, of one of the two state words. -/
def sgnS (p : Nat) (i : Bool × Fin 9) (g : Xoroshiro) : ℤ := if (bif i.1 then g.s1 else g.s0).getLsbD (p + i.2) then -1 else 1

theorem sgnS_sgn (p : Nat) (i : Bool × Fin 9) : Sgn (sgnS p i) where
  mul a b := by
    obtain ⟨i, t⟩ := i
    show (if (bif i then a.s1 ^^^ b.s1 else a.s0 ^^^ b.s0).getLsbD (p + t) then (-1 : ℤ) else 1) = _
    unfold sgnS
    cases i
    · show (if (a.s0 ^^^ b.s0).getLsbD (p + t) then (-1 : ℤ) else 1) =
        (if a.s0.getLsbD (p + t) then (-1 : ℤ) else 1) * (if b.s0.getLsbD (p + t) then (-1 : ℤ) else 1)
      rw [BitVec.getLsbD_xor]
      cases a.s0.getLsbD (p + t) <;> cases b.s0.getLsbD (p + t) <;> rfl
    · show (if (a.s1 ^^^ b.s1).getLsbD (p + t) then (-1 : ℤ) else 1) =
        (if a.s1.getLsbD (p + t) then (-1 : ℤ) else 1) * (if b.s1.getLsbD (p + t) then (-1 : ℤ) else 1)
      rw [BitVec.getLsbD_xor]
      cases a.s1.getLsbD (p + t) <;> cases b.s1.getLsbD (p + t) <;> rfl
  sq a := by
    unfold sgnS
    cases (bif i.1 then a.s1 else a.s0).getLsbD (p + i.2) <;> rfl

theorem window (p A : Nat) (x : U64) (hA : A < 512) (h : ∀ t : Fin 9, x.getLsbD (p + t) = A.testBit t) : x.toNat / 2 ^ p % 512 = A := by
  refine Nat.eq_of_testBit_eq fun t => ?_
  rw [show 512 = 2 ^ 9 from rfl, Nat.testBit_mod_two_pow, Nat.testBit_div_two_pow]
  by_cases ht : t < 9
  · have := h ⟨t, ht⟩
    rw [BitVec.getLsbD] at this
    rw [decide_eq_true ht, Bool.true_and, Nat.add_comm]
    exact this
  · rw [decide_eq_false ht, Bool.false_and, Nat.testBit_lt_two_pow]
    exact lt_of_lt_of_le hA (show 2 ^ 9 ≤ 2 ^ t from Nat.pow_le_pow_right (by decide) (by omega))

/-- States with given bits from bit `p` on, of every `L`-th. -/
theorem leap (g : Xoroshiro) (hg : g ≠ ⟨0#64, 0#64⟩) (L : Nat) (hL : 0 < L) (hL' : L < 2 ^ 46) (p : Nat) (hp : p ≤ 55) (A : Nat) (hA : A < 512) :
    ∃ j, (step^[j * L] g).s0.toNat / 2 ^ p % 512 = A ∧ (step^[j * L] g).s1.toNat / 2 ^ p % 512 = 0 := by
  classical
  have := cycle.finite
  have := Fintype.ofFinite Xoroshiro
  have hc : Fintype.card Xoroshiro = (2 ^ 64) ^ 2 := by
    rw [← Nat.card_eq_fintype_card, cycle.card]
    norm_num
  let t : Bool × Fin 9 → ℤ := fun i => if (bif i.1 then 0 else A).testBit i.2 then -1 else 1
  have h := cycle.leap_count step_add L (2 ^ 64) hc (sgnS p) (sgnS_sgn p)
    (fun i => bif i.1 then ⟨0#64, BitVec.twoPow 64 (p + i.2)⟩ else ⟨BitVec.twoPow 64 (p + i.2), 0#64⟩) (fun i => ?_) (fun i j hij => ?_)
    t (fun i => ?_) hg (fun g => ∀ i, sgnS p i g = t i) (fun g => Iff.rfl)
  · have h1 := leap_large (2 ^ 128 - 1) L (2 ^ 64) (2 ^ 18) hL ((Nat.mul_le_mul_left _ (Nat.le_sub_one_of_lt hL')).trans_lt (by norm_num))
    rw [Fintype.card_prod, Fintype.card_bool, Fintype.card_fin, Nat.cast_pow, Nat.cast_ofNat] at h
    generalize (2 ^ 128 - 1) / Nat.gcd (2 ^ 128 - 1) L = M at h h1
    have hne : ((Finset.range M).filter fun j => ∀ i, sgnS p i (step^[j * L] g) = t i).Nonempty := by
      by_contra he
      rw [Finset.not_nonempty_iff_eq_empty] at he
      rw [he, Finset.card_empty, Nat.cast_zero, mul_zero, zero_sub, abs_neg, Nat.abs_cast] at h
      exact lt_irrefl _ (h.trans_lt (lt_trans (by norm_num) (Int.ofNat_lt.mpr h1)))
    obtain ⟨j, hj⟩ := hne
    have hj := (Finset.mem_filter.mp hj).2
    refine ⟨j, window p A _ hA fun k => ?_, window p 0 _ (by decide) fun k => ?_⟩
    · have := hj (false, k)
      revert this
      show (if (step^[j * L] g).s0.getLsbD (p + k) then (-1 : ℤ) else 1) = (if A.testBit k then -1 else 1) → _
      cases (step^[j * L] g).s0.getLsbD (p + k) <;> cases A.testBit k <;> decide
    · have := hj (true, k)
      revert this
      show (if (step^[j * L] g).s1.getLsbD (p + k) then (-1 : ℤ) else 1) = (if (0 : Nat).testBit k then -1 else 1) → _
      cases (step^[j * L] g).s1.getLsbD (p + k) <;> cases (0 : Nat).testBit k <;> decide
  · obtain ⟨b, i⟩ := i
    have hi := i.2
    unfold sgnS
    cases b <;> simp [BitVec.getLsbD_twoPow] <;> omega
  · obtain ⟨b, i⟩ := i
    obtain ⟨c, j⟩ := j
    unfold sgnS
    by_cases hbc : b = c
    · subst hbc
      have hne : (i : Nat) ≠ j := fun e => hij (congrArg _ (Fin.ext e.symm))
      cases b <;> simp [BitVec.getLsbD_twoPow, hne]
    · cases b <;> cases c <;> simp at hbc ⊢
  · show (if (bif i.1 then 0 else A).testBit i.2 then (-1 : ℤ) else 1) * (if (bif i.1 then 0 else A).testBit i.2 then (-1 : ℤ) else 1) = 1
    cases (bif i.1 then 0 else A).testBit i.2 <;> rfl

/-- Every byte of every `L`-th output takes all values. -/
theorem leap_byte (g : Xoroshiro) (hg : g ≠ ⟨0#64, 0#64⟩) (L : Nat) (hL : 0 < L) (hL' : L < 2 ^ 46) (i : Nat) (hi : i < 8) (v : Nat) (hv : v < 256) :
    ∃ j, (step^[j * L] g).out.toNat / 256 ^ i % 256 = v := by
  by_cases h0 : i = 0
  · subst h0
    obtain ⟨j, h1, h2⟩ := leap g hg L hL hL' 0 (by decide) v (by omega)
    refine ⟨j, ?_⟩
    show ((step^[j * L] g).s0 + (step^[j * L] g).s1).toNat / 256 ^ 0 % 256 = v
    rw [BitVec.toNat_add]
    generalize (step^[j * L] g).s0.toNat = a at *
    generalize (step^[j * L] g).s1.toNat = b at *
    omega
  · obtain ⟨j, h1, h2⟩ := leap g hg L hL hL' (8 * i - 1) (by omega) (2 * v) (by omega)
    refine ⟨j, ?_⟩
    show ((step^[j * L] g).s0 + (step^[j * L] g).s1).toNat / 256 ^ i % 256 = v
    rw [BitVec.toNat_add]
    generalize (step^[j * L] g).s0.toNat = a at *
    generalize (step^[j * L] g).s1.toNat = b at *
    have hi1 : 1 ≤ i := by omega
    clear h0
    interval_cases i <;> norm_num at h1 h2 ⊢ <;> omega

end Xoroshiro

/-- C88 for Xoroshiro: for every `L` below `2^46`, from any point on, every byte of every `L`-th output takes every value. -/
theorem C88_Xoroshiro_bytes (g : Xoroshiro) (hg : g ≠ ⟨0#64, 0#64⟩) (n L : Nat) (hL : 0 < L) (hL' : L < 2 ^ 46) (i : Nat) (hi : i < 8) (v : Nat)
    (hv : v < 256) : ∃ j x, Emits Xoroshiro.uint64 g (n + j * L) [x] ∧ x.toNat / 256 ^ i % 256 = v := by
  obtain ⟨j, hj⟩ := Xoroshiro.leap_byte (Xoroshiro.step^[n] g) (Xoroshiro.cycle.iter_nz hg n) L hL hL' i hi v hv
  refine ⟨j, _, (emits_one Xoroshiro.uint64_pure _ _ _).mpr rfl, ?_⟩
  rw [Nat.add_comm, Function.iterate_add_apply]
  exact hj

/-- C88 for Xoroshiro: if `L` has no factor in common with the period (as for the `L = 2` of the calls through `RNG`), every `L`-th output is as
equidistributed as the whole stream. -/
theorem C88_Xoroshiro_coprime (g : Xoroshiro) (hg : g ≠ ⟨0#64, 0#64⟩) (n L : Nat) (hL : Nat.Coprime L (2 ^ 128 - 1)) (v : U64) :
    Nat.card {j : Nat // j < 2 ^ 128 - 1 ∧ Emits Xoroshiro.uint64 g (n + j * L) [v]} = if v = 0#64 then 2 ^ 64 - 1 else 2 ^ 64 := by
  rw [card_leap (fun m => Emits Xoroshiro.uint64 g m [v]) _ _ _ (by decide) hL
    fun m => emits_per Xoroshiro.uint64_pure ((Xoroshiro.cycle.period g hg _).mpr (dvd_refl _)) _ m]
  exact C49_Xoroshiro_equidistributed g hg v

theorem Rexoroshiro.byte_reverse (x : U64) (i : Nat) (hi : i < 8) : (reverseBytes64 x).toNat / 256 ^ i % 256 = x.toNat / 256 ^ (7 - i) % 256 := by
  have h1 : ∀ (y : U64) (i k : Nat), (y.toNat / 256 ^ i % 256).testBit k = (decide (k < 8) && y.getLsbD (8 * i + k)) := by
    intro y i k
    rw [show 256 = 2 ^ 8 from rfl, ← Nat.pow_mul, Nat.testBit_mod_two_pow, Nat.testBit_div_two_pow, Nat.add_comm]
    rfl
  refine Nat.eq_of_testBit_eq fun k => ?_
  rw [h1, h1]
  by_cases hk : k < 8
  · rw [decide_eq_true hk, Bool.true_and, Bool.true_and]
    unfold reverseBytes64
    have hff : ∀ i, (0xff#64).getLsbD i = decide (i < 8) := by
      intro i
      by_cases h : i < 8
      · rw [decide_eq_true h]; revert h; revert i; decide
      · rw [decide_eq_false h, BitVec.getLsbD, BitVec.toNat_ofNat]
        exact Nat.testBit_lt_two_pow (Nat.lt_of_lt_of_le (by decide) (Nat.pow_le_pow_right (by decide) (by omega : 8 ≤ i)))
    simp only [BitVec.getLsbD_or, BitVec.getLsbD_shiftLeft, BitVec.getLsbD_and, BitVec.getLsbD_ushiftRight, hff]
    interval_cases i <;> interval_cases k <;> simp
  · rw [decide_eq_false hk, Bool.false_and, Bool.false_and]

/-- C88 for Rexoroshiro. -/
theorem C88_Rexoroshiro_bytes (g : Rexoroshiro) (hg : g ≠ ⟨⟨0#64, 0#64⟩⟩) (n L : Nat) (hL : 0 < L) (hL' : L < 2 ^ 46) (i : Nat) (hi : i < 8) (v : Nat)
    (hv : v < 256) : ∃ j x, Emits Rexoroshiro.uint64 g (n + j * L) [x] ∧ x.toNat / 256 ^ i % 256 = v := by
  obtain ⟨g⟩ := g
  have hg : g ≠ ⟨0#64, 0#64⟩ := fun h => hg (congrArg _ h)
  obtain ⟨j, hj⟩ := Xoroshiro.leap_byte (Xoroshiro.step^[n] g) (Xoroshiro.cycle.iter_nz hg n) L hL hL' (7 - i) (by omega) v hv
  refine ⟨j, _, (emits_one Rexoroshiro.uint64_pure _ _ _).mpr rfl, ?_⟩
  rw [Rexoroshiro.iter, Rexoroshiro.byte_reverse _ i hi, Nat.add_comm, Function.iterate_add_apply]
  exact hj

/-- C88 for Rexoroshiro, `L` coprime to the period. -/
theorem C88_Rexoroshiro_coprime (g : Rexoroshiro) (hg : g ≠ ⟨⟨0#64, 0#64⟩⟩) (n L : Nat) (hL : Nat.Coprime L (2 ^ 128 - 1)) (v : U64) :
    Nat.card {j : Nat // j < 2 ^ 128 - 1 ∧ Emits Rexoroshiro.uint64 g (n + j * L) [v]} = if v = 0#64 then 2 ^ 64 - 1 else 2 ^ 64 := by
  rw [card_leap (fun m => Emits Rexoroshiro.uint64 g m [v]) _ _ _ (by decide) hL fun m => emits_per Rexoroshiro.uint64_pure ?_ _ m]
  · exact C49_Rexoroshiro_equidistributed g hg v
  · obtain ⟨g⟩ := g
    rw [Rexoroshiro.iter, (Xoroshiro.cycle.period g (fun h => hg (congrArg _ h)) _).mpr (dvd_refl _)]

/-! ### MT64 -/

/-- C88 for MT64: for every `L` that is not a multiple of the period (which is a prime number), every tuple of 311 words comes, at every `L`-th place,
exactly as often as in the whole stream. -/
theorem C88_MT64 (g : MT64) (hg : g.Alive) (hi : g.Begun) (n L : Nat) (hL : ¬ 2 ^ 19937 - 1 ∣ L) (ws : List U64) (hl : ws.length = 311) :
    Nat.card {j : Nat // j < 2 ^ 19937 - 1 ∧ Emits MT64.uint64 g (n + j * L) ws} = if ws = List.replicate 311 0#64 then 2 ^ 33 - 1 else 2 ^ 33 := by
  rw [← MT64.count g hg hi ws hl]
  obtain ⟨p, hp⟩ : ∃ p, p + 1 = 2 ^ 19937 := ⟨2 ^ 19937 - 1, Nat.sub_add_cancel Nat.one_le_two_pow⟩
  have e : 2 ^ 19937 - 1 = p := MT64.pred_eq 19937 p hp
  rw [e] at hL ⊢
  have hpp := MT64.prime_of p hp
  have h1 := MT64.pos_of_begun hi
  refine card_leap (fun m => Emits MT64.uint64 g m ws) p L n hpp.pos (Nat.Coprime.symm ((Nat.Prime.coprime_iff_not_dvd hpp).mpr hL)) fun m => ?_
  rw [MT64.emits_iff, MT64.emits_iff]
  have h2 : ∀ k, MT64.seq g.s (g.pos + (m + p + k)) = MT64.seq g.s (g.pos + (m + k)) := by
    intro k
    have := MT64.seq_period_mul g.s p hp 1 (g.pos + (m + k)) (by omega)
    rw [Nat.mul_one] at this
    rw [← this]
    exact congrArg _ (by omega)
  simp only [h2]

/-- Cases that meet the hypotheses: `L = 3`, which divides the periods of Xoshiro and Xoroshiro, for a small state; `L = 2` is coprime to them. -/
example : ∃ j, Emits Xoshiro.uint64 ⟨1#64, 2#64, 3#64, 4#64⟩ (5 + j * 3) [0xdeadbeef#64] :=
  C88_Xoshiro_every _ (by decide) 5 3 (by decide) (by decide) _

example : 3 ∣ 2 ^ 256 - 1 ∧ 3 ∣ 2 ^ 128 - 1 ∧ Nat.Coprime 2 (2 ^ 256 - 1) ∧ Nat.Coprime 2 (2 ^ 128 - 1) := by decide +kernel

example : ∃ j x, Emits Xoroshiro.uint64 ⟨1#64, 2#64⟩ (0 + j * 3) [x] ∧ x.toNat / 256 ^ 7 % 256 = 200 :=
  C88_Xoroshiro_bytes _ (by decide) 0 3 (by decide) (by decide) 7 (by decide) 200 (by decide)

example : ∃ s, MT64.new.seed 5#64 = .ok s ∧ s.Alive ∧ s.Begun ∧ ¬ 2 ^ 19937 - 1 ∣ 3 := by
  obtain ⟨s, h1, h2, h3⟩ := C61_MT64_Seed_alive 5#64 MT64.new
  refine ⟨s, h1, h2, h3, fun h => ?_⟩
  have h4 := Nat.le_of_dvd (by decide) h
  have h5 : 2 ^ 3 ≤ 2 ^ 19937 := Nat.pow_le_pow_right (by decide) (by decide)
  generalize 2 ^ 19937 = q at h4 h5
  omega

end Crazy
