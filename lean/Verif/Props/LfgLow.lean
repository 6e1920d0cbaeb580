/-
C109: how evenly the bits of the outputs of LFG are spread, and how many successive outputs are not.
-/
import Verif.Spec.LowPatterns
import Verif.Props.LfgBits
import Verif.Proofs.LfgLow
set_option exponentiation.threshold 2200
namespace Crazy
open Polynomial Kron

namespace LFG

theorem c64' (s : LFG) (hs : Inv s) : uint64 s = .ok (s.seq 607, s.next) := by
  have h1 := draws_eq 1 s hs
  rw [uint64_eq s hs]
  refine congrArg Except.ok (Prod.ext ?_ rfl)
  rw [draws, uint64_eq s hs] at h1
  injection h1 with h1
  have := congrArg Prod.fst h1
  simpa using this

theorem nth_out (g : LFG) (hi : Inv g) (n : Nat) (x : U64) : Nth uint64 n g x ↔ g.seq (607 + n) = x := by
  rw [nth_inv Inv inv_next c64' n g hi, iterate_next, seq_nexts]

/-- A bit as an integer modulo 2. -/
def bz2 (v : Bool) : ZMod 2 := if v then 1 else 0

theorem bitz_bz2 (b : Nat) (x : U64) (v : Bool) : bitz b x = bz2 v ↔ x.getLsbD b = v := by
  have e : x.getLsbD b = x.toNat.testBit b := rfl
  rw [e, Nat.testBit_eq_decide_div_mod_eq, bitz]
  have h : ((x.toNat / 2 ^ b : Nat) : ZMod 2) = ((x.toNat / 2 ^ b % 2 : Nat) : ZMod 2) := by rw [ZMod.natCast_mod]
  rw [h]
  rcases Nat.mod_two_eq_zero_or_one (x.toNat / 2 ^ b) with h0 | h0 <;> rw [h0] <;> cases v <;> decide

theorem low_patterns (g : LFG) (hi : Inv g) (hm : Main (fun n => par (toZ (g.seq (607 + n))))) : LowPatterns uint64 g lfgM 187 ((lfgM : ℝ) / 2 ^ 88) := by
  intro l hl v
  have h1 := main_pattern (p_annih (o := fun n => g.seq (607 + n)) (out_annih g)) hm l hl fun i => bz2 (v i)
  have e : timesInRow uint64 g lfgM l (fun i x => x.getLsbD 0 = v i) =
      ((Finset.range lfgM).filter fun n => ∀ i < l, par (toZ (g.seq (607 + (n + i)))) = bz2 (v i)).card := by
    unfold timesInRow
    rw [← Nat.card_eq_finsetCard]
    refine Nat.card_congr (Equiv.subtypeEquivRight fun n => ?_)
    simp only [Finset.mem_filter, Finset.mem_range]
    refine and_congr_right fun _ => forall_congr' fun i => forall_congr' fun _ => ?_
    rw [← bitz_zero, bitz_bz2]
    simp only [nth_out g hi]
    exact ⟨fun ⟨x, hx, h⟩ => by rw [hx]; exact h, fun h => ⟨_, rfl, h⟩⟩
  rw [e]
  exact h1

theorem odd_map {f u : Z64[X]} {N : Nat} (h : f ∣ X ^ N - (1 + 2 * u)) : f.map par ∣ X ^ N - 1 := by
  have h1 := map_dvd' par h
  have h2 : (1 + 2 * u).map par = 1 := by
    rw [Polynomial.map_add, Polynomial.map_one, Polynomial.map_mul, Polynomial.map_ofNat, two_zero, zero_mul, add_zero]
  rwa [h2, Polynomial.map_pow, map_X] at h1

theorem annih_per {e : ℕ → ZMod 2} (he : aeval (shift (ZMod 2)) (lfgF.map par) e = 0) (n : Nat) : e (n + lfgM) = e n := by
  obtain ⟨u, hu⟩ := lfgC_for.oddOne lfgC_bounds lfg_oddone_cert
  exact per_of_dvd he (odd_map hu) n

theorem count_mult (f : ℕ → ZMod 2) (x : ZMod 2) (M A : Nat) (hf : ∀ n, f (n + M) = f n) :
    ((Finset.range (M * A)).filter fun n => f n = x).card = A * ((Finset.range M).filter fun n => f n = x).card := by
  have h := sum_mult (fun n => if f n = x then 1 else 0) M A (fun n => by rw [hf])
  rw [Finset.sum_boole, Finset.sum_boole] at h
  exact_mod_cast h

/-- Where the two halves of a period differ, every value comes once. -/
theorem count_half (f e : ℕ → ZMod 2) (N : Nat) (h : ∀ n, f (n + N) = f n + e n) (x : ZMod 2) :
    ((Finset.range N).filter fun n => e n = 1).card ≤ ((Finset.range (N + N)).filter fun n => f n = x).card := by
  refine Finset.card_le_card_of_injOn (fun n => if f n = x then n else n + N) (fun n hn => ?_) (fun m hm n hn e => ?_)
  · have hn := Finset.mem_filter.1 hn
    have hl := Finset.mem_range.1 hn.1
    refine Finset.mem_coe.2 (Finset.mem_filter.2 ?_)
    beta_reduce
    split
    · rename_i h1
      exact ⟨Finset.mem_range.2 (by omega), h1⟩
    · rename_i h1
      refine ⟨Finset.mem_range.2 (by omega), ?_⟩
      rw [h, hn.2]
      have : ∀ a b : ZMod 2, ¬ a = b → a + 1 = b := by decide
      exact this _ _ h1
  · have hm := Finset.mem_range.1 (Finset.mem_filter.1 hm).1
    have hn := Finset.mem_range.1 (Finset.mem_filter.1 hn).1
    beta_reduce at e
    split at e <;> split at e <;> omega

theorem quarter (M : ℝ) (h : 0 ≤ M) : (1 / 4 - 1 / 2 ^ 89) * M ≤ M / 2 - M / 2 ^ 88 := by
  rw [div_eq_mul_inv M (2 ^ 88), one_div ((2 : ℝ) ^ 89), pow_succ, mul_inv]
  have h5 : (0 : ℝ) ≤ ((2 : ℝ) ^ 88)⁻¹ := by positivity
  have h6 : ((2 : ℝ) ^ 88)⁻¹ ≤ 1 / 4 := by
    rw [inv_le_comm₀ (by positivity) (by positivity)]
    norm_num
  generalize ((2 : ℝ) ^ 88)⁻¹ = q at *
  nlinarith

theorem bits_vary (g : LFG) (hi : Inv g)
    (hH : ∀ d ≤ 227, ∀ c : Nat → Nat, ¬ ∀ n, par (toZ (g.seq (607 + (n + d)))) = ∑ i ∈ Finset.range d, (c i : ZMod 2) * par (toZ (g.seq (607 + (n + i))))) :
    BitsVary uint64 g lfgM (1 / 4 - 1 / 2 ^ 89) := by
  intro b hb v
  have hs := out_annih g
  have hp := p_annih (o := fun n => g.seq (607 + n)) hs
  have e : timesReturned uint64 g (lfgM * 2 ^ b) (fun x => x.getLsbD b = v) =
      ((Finset.range (lfgM * 2 ^ b)).filter fun n => bitz b (g.seq (607 + n)) = bz2 v).card := by
    unfold timesReturned
    rw [← Nat.card_eq_finsetCard]
    refine Nat.card_congr (Equiv.subtypeEquivRight fun n => ?_)
    simp only [Finset.mem_filter, Finset.mem_range]
    refine and_congr_right fun _ => ?_
    rw [bitz_bz2]
    simp only [nth_out g hi]
    exact ⟨fun ⟨x, hx, h⟩ => by rw [hx]; exact h, fun h => ⟨_, rfl, h⟩⟩
  have one : ∀ {p : ℕ → ZMod 2} (x : ZMod 2), aeval (shift (ZMod 2)) (lfgF.map par) p = 0 → Main p →
      (lfgM : ℝ) / 2 - (lfgM : ℝ) / 2 ^ 88 ≤ ((Finset.range lfgM).filter fun n => p n = x).card := fun {p} x h1 h2 => by
    have h3 := main_pattern h1 h2 1 (by decide) fun _ => x
    have h4 : ∀ n, (∀ i < 1, p (n + i) = x) ↔ p n = x := fun n =>
      ⟨fun h => h 0 (by decide), fun h i hi => by obtain rfl : i = 0 := by omega
                                                  exact h⟩
    simp only [h4, pow_one] at h3
    have := (abs_le.1 h3).1
    generalize (lfgM : ℝ) = M at *
    linarith
  rw [e]
  cases b with
  | zero =>
    have h := one (bz2 v) hp (p_main (o := fun n => g.seq (607 + n)) hs hH)
    simp only [← bitz_zero] at h
    simp only [pow_zero, mul_one]
    exact (quarter _ (Nat.cast_nonneg _)).trans h
  | succ j =>
    obtain ⟨d, h1, h2, h3⟩ := half_main (o := fun n => g.seq (607 + n)) hs hH j hb
    have h4 := count_half (fun n => bitz (j + 1) (g.seq (607 + n))) d (lfgM * 2 ^ j) h3 (bz2 v)
    have h5 := count_mult d 1 lfgM (2 ^ j) (annih_per h1)
    rw [h5, show lfgM * 2 ^ j + lfgM * 2 ^ j = lfgM * 2 ^ (j + 1) by rw [pow_succ, ← Nat.mul_assoc, Nat.mul_two]] at h4
    have h6 := one 1 h1 h2
    have h7 : ((2 ^ j * ((Finset.range lfgM).filter fun n => d n = 1).card : Nat) : ℝ) ≤
        (((Finset.range (lfgM * 2 ^ (j + 1))).filter fun n => bitz (j + 1) (g.seq (607 + n)) = bz2 v).card : ℝ) := by exact_mod_cast h4
    refine le_trans ?_ h7
    rw [Nat.cast_mul, Nat.cast_pow, Nat.cast_ofNat]
    have h8 := mul_le_mul_of_nonneg_left h6 (by positivity : (0 : ℝ) ≤ 2 ^ j)
    refine le_trans (le_of_eq ?_) h8
    generalize (lfgM : ℝ) = M
    rw [pow_succ _ j, div_eq_mul_inv M (2 ^ 88), one_div ((2 : ℝ) ^ 89), pow_succ _ 88, mul_inv]
    ring

theorem hard_iff (g : LFG) (hi : Inv g) (hH : ∀ d ≤ 227, ∀ c, ¬ LowBitRec uint64 g d c) (d : Nat) (hd : d ≤ 227) (c : Nat → Nat) :
    ¬ ∀ n, par (toZ (g.seq (607 + (n + d)))) = ∑ i ∈ Finset.range d, (c i : ZMod 2) * par (toZ (g.seq (607 + (n + i)))) := by
  intro h
  refine hH d hd c ((lowRec_iff g hi d c).mpr fun n => ?_)
  have := h n
  unfold zs
  rw [show 272 + (335 + n + d) = 607 + (n + d) by omega, this]
  refine Finset.sum_congr rfl fun i _ => ?_
  rw [show 272 + (335 + n + i) = 607 + (n + i) by omega]

end LFG

/-! ### C109 -/

/-- C109: unless the low bits of its outputs satisfy a linear recurrence of order 227 or less, every pattern of the lowest bits of up to 187
successive outputs of an LFG comes as often in a period of that bit, but for one part in `2^88`. -/
theorem C109_LFG_patterns (g : LFG) (hg : Reachable LFG.methods.api LFG.new g) (h : ∀ d ≤ 227, ∀ c, ¬ LowBitRec LFG.uint64 g d c) :
    LowPatterns LFG.uint64 g ((2 ^ 108 - 1) / 65 * (2 ^ 187 - 1)) 187 (((2 ^ 108 - 1) / 65 * (2 ^ 187 - 1) : Nat) / 2 ^ 88) := by
  have hi := LFG.safe.reachable LFG.inv_new hg
  exact LFG.low_patterns g hi (LFG.p_main (o := fun n => g.seq (607 + n)) (LFG.out_annih g) (LFG.hard_iff g hi h))

/-- C109: in particular after a seeding with at most 273 bytes. -/
theorem C109_LFG_patterns_seeded (g s : LFG) (iv : List Byte) (hl : iv.length ≤ 273) (h : g.seedIV iv = .ok s) :
    LowPatterns LFG.uint64 s ((2 ^ 108 - 1) / 65 * (2 ^ 187 - 1)) 187 (((2 ^ 108 - 1) / 65 * (2 ^ 187 - 1) : Nat) / 2 ^ 88) := by
  rw [LFG.seedIV_eq] at h
  injection h with h
  subst h
  have hi := LFG.inv_nexts 4856 _ (LFG.inv_seedStart iv)
  exact LFG.low_patterns _ hi (LFG.p_main (o := fun n => LFG.seq _ (607 + n)) (LFG.out_annih _) (LFG.hard_iff _ hi (LFG.seeded_hard iv hl)))

/-- C109: unless those low bits satisfy such a recurrence every one of the 64 bits is set at least nearly a quarter of its period, and clear at
least as long. -/
theorem C109_LFG_bits (g : LFG) (hg : Reachable LFG.methods.api LFG.new g) (h : ∀ d ≤ 227, ∀ c, ¬ LowBitRec LFG.uint64 g d c) :
    BitsVary LFG.uint64 g ((2 ^ 108 - 1) / 65 * (2 ^ 187 - 1)) (1 / 4 - 1 / 2 ^ 89) := by
  have hi := LFG.safe.reachable LFG.inv_new hg
  exact LFG.bits_vary g hi (LFG.hard_iff g hi h)

theorem C109_LFG_bits_seeded (g s : LFG) (iv : List Byte) (hl : iv.length ≤ 273) (h : g.seedIV iv = .ok s) :
    BitsVary LFG.uint64 s ((2 ^ 108 - 1) / 65 * (2 ^ 187 - 1)) (1 / 4 - 1 / 2 ^ 89) := by
  rw [LFG.seedIV_eq] at h
  injection h with h
  subst h
  have hi := LFG.inv_nexts 4856 _ (LFG.inv_seedStart iv)
  exact LFG.bits_vary _ hi (LFG.hard_iff _ hi (LFG.seeded_hard iv hl))

/-- C109: whatever the seed, any 87 bits are the lowest ones of 87 successive outputs at some point of the run. -/
theorem C109_LFG_all (g s : LFG) (x : U64) (h : g.seed x = .ok s) (v : Nat → Bool) :
    ∃ n, ∀ i < 87, ∃ w, Nth LFG.uint64 (n + i) s w ∧ w.getLsbD 0 = v i := by
  have h1 := C109_LFG_patterns_seeded g s (le64 x) (by simp) h 87 (by decide) v
  by_contra hc
  push Not at hc
  have h2 : timesInRow LFG.uint64 s ((2 ^ 108 - 1) / 65 * (2 ^ 187 - 1)) 87 (fun i w => w.getLsbD 0 = v i) = 0 := by
    unfold timesInRow
    rw [Nat.card_eq_zero]
    refine Or.inl ⟨fun ⟨n, _, hn⟩ => ?_⟩
    obtain ⟨i, hi, hw⟩ := hc n
    obtain ⟨w, h3, h4⟩ := hn i hi
    exact hw w h3 h4
  rw [h2] at h1
  have h3 : 0 < (2 ^ 108 - 1) / 65 * (2 ^ 187 - 1) := by decide +kernel
  generalize (2 ^ 108 - 1) / 65 * (2 ^ 187 - 1) = M at *
  have h4 : (0 : ℝ) < M := by exact_mod_cast h3
  rw [Nat.cast_zero, zero_sub, abs_neg, abs_of_pos (by positivity), div_le_div_iff_of_pos_left h4 (by positivity) (by positivity)] at h1
  exact absurd ((pow_le_pow_iff_right₀ (by norm_num : (1 : ℝ) < 2)).1 h1) (by decide)

/-- C109: but from no state does the run contain every sequence of six words. -/
theorem C109_LFG_six (g : LFG) (hg : Reachable LFG.methods.api LFG.new g) :
    ∃ v : Nat → U64, ∀ n, ¬ ∀ i < 6, Nth LFG.uint64 (n + i) g (v i) := by
  have hi := LFG.safe.reachable LFG.inv_new hg
  have hP : ∀ n, g.seq (607 + (n + (2 ^ 108 - 1) / 65 * (2 ^ 187 - 1) * 2 ^ 63)) = g.seq (607 + n) := fun n => by
    have h := (LFG.outputPeriod_iff g hi _).1 (C74_LFG_period g hg) n
    unfold LFG.zs at h
    have h2 := toZ_inj h
    rw [show 607 + n = 272 + (335 + n) by omega, ← h2]
    exact congrArg g.seq (by rw [← Nat.add_assoc, ← Nat.add_assoc, ← Nat.add_assoc])
  have hlt : (2 ^ 108 - 1) / 65 * (2 ^ 187 - 1) * 2 ^ 63 < 2 ^ 384 := by decide +kernel
  have hpos : 0 < (2 ^ 108 - 1) / 65 * (2 ^ 187 - 1) * 2 ^ 63 := by decide +kernel
  generalize (2 ^ 108 - 1) / 65 * (2 ^ 187 - 1) * 2 ^ 63 = P at *
  have hmod : ∀ n, g.seq (607 + n) = g.seq (607 + n % P) := fun n => by
    induction n using Nat.strong_induction_on with
    | _ n ih =>
      rcases Nat.lt_or_ge n P with h | h
      · rw [Nat.mod_eq_of_lt h]
      · obtain ⟨m, rfl⟩ := Nat.exists_eq_add_of_le' h
        rw [hP, ih m (by omega), Nat.add_mod_right]
  have hns : ¬ Function.Surjective fun (n : Fin P) (i : Fin 6) => g.seq (607 + (n.val + i.val)) := fun hs => by
    have h1 := Nat.card_le_card_of_surjective _ hs
    rw [Nat.card_fin, Nat.card_fun, Nat.card_fin, card_U64, ← pow_mul] at h1
    exact absurd (h1.trans_lt hlt) (Nat.lt_irrefl _)
  have hns : ∃ v : Fin 6 → U64, ∀ n : Fin P, (fun i : Fin 6 => g.seq (607 + (n.val + i.val))) ≠ v := by
    by_contra hc
    push Not at hc
    exact hns hc
  obtain ⟨v, hv⟩ := hns
  refine ⟨fun i => if h : i < 6 then v ⟨i, h⟩ else 0#64, fun n hn => hv ⟨n % P, Nat.mod_lt _ hpos⟩ (funext fun i => ?_)⟩
  have := (LFG.nth_out g hi _ _).1 (hn i.val i.isLt)
  beta_reduce at this
  rw [dif_pos i.isLt, hmod, Nat.add_mod] at this
  rw [hmod, Nat.add_mod]
  dsimp only
  rwa [Nat.mod_mod]

/-- Non-vacuity: seeding succeeds. -/
example : ∃ s, LFG.new.seed 12345#64 = .ok s ∧ ∃ n, ∀ i < 87, ∃ w, Nth LFG.uint64 (n + i) s w ∧ w.getLsbD 0 = decide (i % 3 = 0) := by
  have e : LFG.new.seed 12345#64 = .ok _ := LFG.seedIV_eq (le64 12345#64) LFG.new
  exact ⟨_, e, C109_LFG_all _ _ _ e _⟩

example : ∃ s, Reachable LFG.methods.api LFG.new s ∧ LFG.new.seedIV [7#8, 9#8] = .ok s ∧ ∀ d ≤ 227, ∀ c, ¬ LowBitRec LFG.uint64 s d c :=
  ⟨_, ⟨[.seedIV [7#8, 9#8]], Api.after_ok [] (Methods.call_seedIV (m := LFG.methods) (LFG.seedIV_eq [7#8, 9#8] LFG.new))⟩,
    LFG.seedIV_eq _ _, LFG.seeded_hard _ (by decide)⟩

end Crazy
