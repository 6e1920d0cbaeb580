/-
One round of `GenNext` on a tape of independent uniform words.
-/
import Verif.Proofs.Prob
import Verif.Props.ZigNormal
set_option exponentiation.threshold 2200
namespace Crazy

/-- 1 if `P`, otherwise 0. -/
noncomputable def ind (P : Prop) : ℝ := by classical exact if P then 1 else 0

theorem ind_true {P : Prop} (h : P) : ind P = 1 := by unfold ind; exact if_pos h
theorem ind_false {P : Prop} (h : ¬ P) : ind P = 0 := by unfold ind; exact if_neg h
theorem ind_nonneg (P : Prop) : 0 ≤ ind P := by
  by_cases h : P
  · rw [ind_true h]; exact zero_le_one
  · rw [ind_false h]
theorem ind_le_one (P : Prop) : ind P ≤ 1 := by
  by_cases h : P
  · rw [ind_true h]
  · rw [ind_false h]; exact zero_le_one
theorem ind_congr {P Q : Prop} (h : P ↔ Q) : ind P = ind Q := by rw [propext h]

theorem prob_const (k : Nat) (P : Prop) : prob k (fun _ => P) = ind P := by
  by_cases h : P
  · rw [ind_true h, ← prob_true k]; exact prob_congr fun _ _ => iff_true_intro h
  · rw [ind_false h, ← prob_false k]; exact prob_congr fun _ _ => iff_false_intro h

/-- The uniform variate number `m`. -/
def unit (m : Nat) : F64 := .fin false (m * 2 ^ 1021)

theorem uniform01_ofNat (y : Nat) (hy : y < 2 ^ 64) (t : List U64) :
    uniform01 tape (BitVec.ofNat 64 y :: t) = .ok (unit (y % 2 ^ 53), t) := by
  rw [uniform01_eq tape _ t _ (tape_read _ t)]
  show Except.ok (F64.fin false (leNat (le64 (BitVec.ofNat 64 y)) % 2 ^ 53 * 2 ^ 1021), t) = _
  rw [leNat_le64, BitVec.toNat_ofNat, Nat.mod_eq_of_lt hy]
  rfl

/-- The candidate for an offset in a layer. -/
def cand (z : Ziggurat (List U64)) (i : Nat) (j : Int) : F64 := if h : i < 1024 then F64.mul (F64.ofInt j) z.W[i] else .nan

/-- In the wedge of layer `i`, the candidate for the offset `j` is accepted if the uniform variate is number `m`. -/
def accepts (z : Ziggurat (List U64)) (fused : Bool) (i : Nat) (j : Int) (m : Nat) : Prop :=
  ∃ h : i < 1024, F64.lt (F64.mulAdd fused (unit m) (F64.sub z.F[i - 1] z.F[i]) z.F[i]) (z.pdf (cand z i j)) = true

/-- The probability that the candidate for an offset in a layer other than the base layer is accepted. -/
noncomputable def share (z : Ziggurat (List U64)) (fused : Bool) (i : Nat) (j : Int) : ℝ :=
  if h : i < 1024 then
    if j.natAbs < z.K[i].toNat then 1 else avg (2 ^ 53) fun m => ind (accepts z fused i j m)
  else 0

/-- The probability that `GenNext`, with `n` rounds and `2n` words, returns something in `S`. -/
noncomputable def gives (z : Ziggurat (List U64)) (fused : Bool) (S : F64 → Prop) (n : Nat) : ℝ :=
  prob (2 * n) fun t => ∃ r rest, z.genNext fused tape n t = .ok (r, rest) ∧ S r

/-- The same for the tail, with one more word. -/
noncomputable def tailGives (z : Ziggurat (List U64)) (S : F64 → Prop) (n : Nat) : ℝ :=
  prob (2 * n + 1) fun t => ∃ r rest, z.tail tape n t = .ok (r, rest) ∧ S r

/-- What a word contributes to `gives`. -/
noncomputable def term (z : Ziggurat (List U64)) (fused : Bool) (S : F64 → Prop) (n i : Nat) (j : Int) : ℝ :=
  if i = 0 then
    if j.natAbs < (z.K[0]).toNat then ind (S (cand z 0 j)) else tailGives z (fun r => S (if j < 0 then F64.neg r else r)) n
  else share z fused i j * ind (S (cand z i j)) + (1 - share z fused i j) * gives z fused S n

theorem gives_zero (z : Ziggurat (List U64)) (fused : Bool) (S : F64 → Prop) : gives z fused S 0 = 0 := by
  rw [gives, ← prob_false (2 * 0)]
  refine prob_congr fun t _ => ⟨?_, False.elim⟩
  rintro ⟨r, rest, h, -⟩
  exact err_ne_ok _ _ h

theorem ok_and {S : F64 → Prop} (y : F64) (t : List U64) :
    (∃ r rest, (Except.ok (y, t) : Go (F64 × List U64)) = .ok (r, rest) ∧ S r) ↔ S y := by
  constructor
  · rintro ⟨r, rest, h, hs⟩
    rw [Except.ok.injEq, Prod.mk.injEq] at h
    rwa [h.1]
  · exact fun h => ⟨y, t, rfl, h⟩

theorem prob_round (z : Ziggurat (List U64)) (fused : Bool) (S : F64 → Prop) (n : Nat) (w : U64) :
    prob (2 * n + 1) (fun t => ∃ r rest, z.genNext fused tape (n + 1) (w :: t) = .ok (r, rest) ∧ S r) =
      term z fused S n (zlayer w) (zoffset z.mirrored w) := by
  have hw := zlayer_lt w
  have hcand : cand z (zlayer w) (zoffset z.mirrored w) = F64.mul (F64.ofInt (zoffset z.mirrored w)) (z.W[zlayer w]'hw) := dif_pos hw
  unfold term
  by_cases hk : (zoffset z.mirrored w).natAbs < (z.K[zlayer w]'hw).toNat
  · have h1 : prob (2 * n + 1) (fun t => ∃ r rest, z.genNext fused tape (n + 1) (w :: t) = .ok (r, rest) ∧ S r) =
        ind (S (cand z (zlayer w) (zoffset z.mirrored w))) := by
      rw [← prob_const (2 * n + 1)]
      refine prob_congr fun t _ => ?_
      rw [genNext_fast z fused tape n _ _ w (RNG_uint64_tape w t) hk, hcand]
      exact ok_and _ _
    by_cases h0 : zlayer w = 0
    · have hk0 : (zoffset z.mirrored w).natAbs < (z.K[0]).toNat := by simpa only [h0] using hk
      rw [if_pos h0, if_pos hk0, h1, h0]
    · have hs : share z fused (zlayer w) (zoffset z.mirrored w) = 1 := by
        unfold share
        rw [dif_pos hw, if_pos hk]
      rw [if_neg h0, h1, hs, one_mul, sub_self, zero_mul, add_zero]
  · by_cases h0 : zlayer w = 0
    · have hk0 : ¬ (zoffset z.mirrored w).natAbs < (z.K[0]).toNat := by simpa only [h0] using hk
      rw [if_pos h0, if_neg hk0]
      unfold tailGives
      refine prob_congr fun t _ => ?_
      rw [genNext_tail z fused tape n _ _ w (RNG_uint64_tape w t) hk h0]
      cases z.tail tape n t with
      | error p =>
        constructor
        · rintro ⟨r, rest, h, -⟩; exact absurd h (err_ne_ok _ _)
        · rintro ⟨r, rest, h, -⟩; exact absurd h (err_ne_ok _ _)
      | ok q =>
        obtain ⟨y, s2⟩ := q
        exact (ok_and _ _).trans (ok_and (S := fun r => S (if zoffset z.mirrored w < 0 then F64.neg r else r)) y s2).symm
    · rw [if_neg h0, prob_succ]
      have hs : share z fused (zlayer w) (zoffset z.mirrored w) =
          avg (2 ^ 64) fun y => ind (accepts z fused (zlayer w) (zoffset z.mirrored w) (y % 2 ^ 53)) := by
        unfold share
        rw [dif_pos hw, if_neg hk]
        have := avg_mod (2 ^ 11) (2 ^ 53) (by decide) fun m => ind (accepts z fused (zlayer w) (zoffset z.mirrored w) m)
        rw [show 2 ^ 11 * 2 ^ 53 = (2 : Nat) ^ 64 by decide] at this
        exact this.symm
      have h2 : ∀ y < 2 ^ 64, prob (2 * n) (fun t => ∃ r rest,
          z.genNext fused tape (n + 1) (w :: BitVec.ofNat 64 y :: t) = .ok (r, rest) ∧ S r) =
          ind (accepts z fused (zlayer w) (zoffset z.mirrored w) (y % 2 ^ 53)) *
            (ind (S (cand z (zlayer w) (zoffset z.mirrored w))) - gives z fused S n) + gives z fused S n := by
        intro y hy
        by_cases hc : accepts z fused (zlayer w) (zoffset z.mirrored w) (y % 2 ^ 53)
        · rw [ind_true hc, one_mul, sub_add_cancel, ← prob_const (2 * n)]
          refine prob_congr fun t _ => ?_
          obtain ⟨_, hc⟩ := hc
          rw [hcand] at hc
          rw [genNext_wedge z fused tape n _ _ w (RNG_uint64_tape w _) hk h0, uniform01_ofNat y hy t]
          simp only
          rw [if_pos hc, hcand]
          exact ok_and _ _
        · rw [ind_false hc, zero_mul, zero_add]
          unfold gives
          refine prob_congr fun t _ => ?_
          have hc : ¬ F64.lt (F64.mulAdd fused (unit (y % 2 ^ 53)) (F64.sub (z.F[zlayer w - 1]'(by omega)) (z.F[zlayer w]'hw))
              (z.F[zlayer w]'hw)) (z.pdf (cand z (zlayer w) (zoffset z.mirrored w))) = true := fun h => hc ⟨hw, h⟩
          rw [hcand] at hc
          rw [genNext_wedge z fused tape n _ _ w (RNG_uint64_tape w _) hk h0, uniform01_ofNat y hy t]
          simp only
          rw [if_neg hc]
      rw [avg_congr h2, avg_add, avg_mul_right, ← hs, avg_const (by positivity)]
      ring

/-- One round: an average over the first word. -/
theorem gives_succ (z : Ziggurat (List U64)) (fused : Bool) (S : F64 → Prop) (n : Nat) :
    gives z fused S (n + 1) =
      avg (2 ^ 64) fun x => term z fused S n (zlayer (BitVec.ofNat 64 x)) (zoffset z.mirrored (BitVec.ofNat 64 x)) := by
  unfold gives
  rw [show 2 * (n + 1) = 2 * n + 1 + 1 by omega, prob_succ]
  exact avg_congr fun x _ => prob_round z fused S n _

theorem avg_word (G : Nat → Nat → ℝ) : avg (2 ^ 64) (fun x => G (x / 2 ^ 54) (x % 2 ^ 54)) =
    avg 1024 fun i => avg (2 ^ 54) (G i) := by
  rw [show (2 : Nat) ^ 64 = 1024 * 2 ^ 54 by decide, avg_split]
  refine avg_congr fun i _ => avg_congr fun o ho => ?_
  rw [show i * 2 ^ 54 + o = 2 ^ 54 * i + o by ring, Nat.mul_add_div (by positivity), Nat.mul_add_mod, Nat.mod_eq_of_lt ho,
    Nat.div_eq_of_lt ho, add_zero]

/-- The layer and the offset of a word, without mirroring. -/
theorem gives_succ_plain (z : Ziggurat (List U64)) (hz : z.mirrored = false) (fused : Bool) (S : F64 → Prop) (n : Nat) :
    gives z fused S (n + 1) = avg 1024 fun i => avg (2 ^ 53) fun j => term z fused S n i j := by
  rw [gives_succ]
  have h : ∀ x < 2 ^ 64, term z fused S n (zlayer (BitVec.ofNat 64 x)) (zoffset z.mirrored (BitVec.ofNat 64 x)) =
      term z fused S n (x / 2 ^ 54) ((x % 2 ^ 54 % 2 ^ 53 : Nat) : Int) := by
    intro x hx
    rw [hz]
    unfold zlayer zoffset
    rw [BitVec.toNat_ofNat, Nat.mod_eq_of_lt hx, if_neg Bool.false_ne_true]
    refine congrArg (term z fused S n _) (congrArg Nat.cast ?_)
    omega
  rw [avg_congr h, avg_word fun i o => term z fused S n i ((o % 2 ^ 53 : Nat) : Int)]
  refine avg_congr fun i _ => ?_
  have := avg_mod 2 (2 ^ 53) (by decide) fun j => term z fused S n i (j : Int)
  rw [show 2 * 2 ^ 53 = (2 : Nat) ^ 54 by decide] at this
  exact this

/-- The layer and the offset of a word, with mirroring. -/
theorem gives_succ_mirrored (z : Ziggurat (List U64)) (hz : z.mirrored = true) (fused : Bool) (S : F64 → Prop) (n : Nat) :
    gives z fused S (n + 1) = avg 1024 fun i => ((avg (2 ^ 53) fun l => term z fused S n i l) +
      avg (2 ^ 53) fun l => term z fused S n i (-((l + 1 : Nat) : Int))) / 2 := by
  rw [gives_succ]
  have h : ∀ x < 2 ^ 64, term z fused S n (zlayer (BitVec.ofNat 64 x)) (zoffset z.mirrored (BitVec.ofNat 64 x)) =
      term z fused S n (x / 2 ^ 54) (Int.bmod ((x % 2 ^ 54 : Nat) : Int) (2 ^ 54)) := by
    intro x hx
    rw [hz]
    unfold zlayer zoffset
    rw [BitVec.toNat_ofNat, Nat.mod_eq_of_lt hx, if_pos rfl]
    refine congrArg (term z fused S n _) ?_
    rw [Int.bmod_def, Int.bmod_def]
    push_cast
    omega
  rw [avg_congr h, avg_word fun i o => term z fused S n i (Int.bmod ((o : Nat) : Int) (2 ^ 54))]
  refine avg_congr fun i _ => ?_
  rw [show (2 : Nat) ^ 54 = 2 ^ 53 + 2 ^ 53 by decide]
  unfold avg
  rw [Finset.sum_range_add]
  have e1 : ∑ o ∈ Finset.range (2 ^ 53), term z fused S n i (Int.bmod ((o : Nat) : Int) (2 ^ 53 + 2 ^ 53)) =
      ∑ l ∈ Finset.range (2 ^ 53), term z fused S n i l := by
    refine Finset.sum_congr rfl fun o ho => ?_
    rw [Finset.mem_range] at ho
    refine congrArg (term z fused S n _) ?_
    rw [Int.bmod_def]
    push_cast
    omega
  have e2 : ∑ o ∈ Finset.range (2 ^ 53), term z fused S n i (Int.bmod ((2 ^ 53 + o : Nat) : Int) (2 ^ 53 + 2 ^ 53)) =
      ∑ l ∈ Finset.range (2 ^ 53), term z fused S n i (-((l + 1 : Nat) : Int)) := by
    rw [← Finset.sum_range_reflect]
    refine Finset.sum_congr rfl fun o ho => ?_
    rw [Finset.mem_range] at ho
    refine congrArg (term z fused S n _) ?_
    rw [Int.bmod_def]
    push_cast
    omega
  rw [e1, e2]
  push_cast
  rw [← add_div, div_div]
  norm_num

end Crazy
