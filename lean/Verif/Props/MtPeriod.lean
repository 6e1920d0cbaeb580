/-
C61 (the period of `MT64`), C62 (its equidistribution), C13 (`Uintn` terminates on it).
-/
import Verif.Proofs.MtTemper
import Verif.Props.Terminates
import Verif.Spec.Period
import Mathlib.Tactic.ByContra
namespace Crazy
open Polynomial Kron

/-- The part of an `MT64` state that later outputs depend on is not all zero: the upper 33 bits of the first word of the
block, and the other 311 words. -/
def MT64.Alive (g : MT64) : Prop := g.s[0] >>> 31 ≠ 0#64 ∨ ∃ (i : Nat) (h : i < 312), 1 ≤ i ∧ g.s[i] ≠ 0#64

/-- The index of an `MT64` state: how many words of the block have been used. -/
def MT64.Begun (g : MT64) : Prop := 1 ≤ g.i

namespace MT64

theorem pred_eq (k p : Nat) (h : p + 1 = 2 ^ k) : 2 ^ k - 1 = p := by rw [← h, Nat.add_sub_cancel]

theorem leads_iff (g t : MT64) (n : Nat) : Leads uint64 n g t ↔ nexts n g = t := by
  unfold Leads
  rw [draws_eq n g]
  constructor
  · rintro ⟨xs, h⟩
    injection h with h
    exact congrArg Prod.snd h
  · rintro rfl
    exact ⟨_, rfl⟩

theorem seq_nexts (g : MT64) (n k : Nat) : seq (nexts n g).s ((nexts n g).pos + k) = seq g.s (g.pos + (n + k)) := by
  induction n generalizing g with
  | zero => rw [nexts, Nat.zero_add]
  | succ n ih =>
    rw [nexts, ih, seq_next]
    congr 1; omega

theorem emits_iff (g : MT64) (n : Nat) (ws : List U64) :
    Emits uint64 g n ws ↔ (List.range ws.length).map (fun k => temper (seq g.s (g.pos + (n + k)))) = ws := by
  unfold Emits
  constructor
  · rintro ⟨t, t', h1, h2⟩
    rw [leads_iff] at h1
    subst h1
    rw [draws_eq] at h2
    injection h2 with h2
    have h3 := congrArg Prod.fst h2
    simp only [seq_nexts] at h3
    exact h3
  · intro h
    refine ⟨nexts n g, nexts ws.length (nexts n g), (leads_iff g _ n).mpr rfl, ?_⟩
    rw [draws_eq]
    refine congrArg Except.ok (Prod.ext ?_ rfl)
    simp only [seq_nexts]
    exact h

theorem emits_one (g : MT64) (n : Nat) (x : U64) : Emits uint64 g n [x] ↔ temper (seq g.s (g.pos + n)) = x := by
  rw [emits_iff]
  simp

theorem outputPeriod_iff (g : MT64) (q : Nat) :
    OutputPeriod uint64 g q ↔ ∀ n, seq g.s (g.pos + n + q) = seq g.s (g.pos + n) := by
  unfold OutputPeriod
  simp only [emits_one]
  constructor
  · intro h n
    exact temper_inj (by rw [Nat.add_assoc]; exact (h n _).mp rfl)
  · intro h n x
    rw [← Nat.add_assoc, h n]

theorem pos_of_begun {g : MT64} (h : g.Begun) : 1 ≤ g.pos := by
  have h : 1 ≤ g.i := h
  unfold pos
  omega

/-- The zero word sequence comes from a dead state only. -/
theorem not_alive_of (g : MT64) (h : ∀ n, 1 ≤ n → seq g.s n = 0#64) : ¬ g.Alive := by
  rintro (h0 | ⟨i, hi, h1, h2⟩)
  · have h1 := twist_seq g.s 0
    rw [h (0 + 312) (by omega), h (0 + 156) (by omega), h (0 + 1) (by omega), BitVec.xor_self] at h1
    have h2 := twist_zero_iff _ _ h1
    refine h0 (bit_inj fun j _ => ?_)
    have hb := congrArg (bit · (31 + j)) h2
    have h3 : bit (seq g.s 0) (31 + j) = bit 0#64 (31 + j) := (bit_join_hi _ _ (by omega)).symm.trans hb
    rw [seq_lt _ (by decide)] at h3
    unfold bit at h3 ⊢
    rw [BitVec.getLsbD_ushiftRight]
    simpa using h3
  · exact h2 (by rw [← seq_lt g.s hi]; exact h i h1)

end MT64

/-- C61: from every `MT64` state whose effective part is not zero, and that has given at least one output of its block
(as after every seeding), the outputs repeat with period `q` exactly if `q` is a multiple of `2^19937 - 1`; the least
period is `2^19937 - 1`. -/
theorem C61_MT64_period (g : MT64) (hg : g.Alive) (hi : g.Begun) (q : Nat) :
    OutputPeriod MT64.uint64 g q ↔ 2 ^ 19937 - 1 ∣ q := by
  obtain ⟨p, hp⟩ : ∃ p, p + 1 = 2 ^ 19937 := ⟨2 ^ 19937 - 1, Nat.sub_add_cancel Nat.one_le_two_pow⟩
  have e := MT64.pred_eq 19937 p hp
  rw [e, MT64.outputPeriod_iff]
  have h1 := MT64.pos_of_begun hi
  constructor
  · intro h
    by_contra hd
    refine MT64.not_alive_of g (MT64.seq_zero_of g.s p hp (MT64.prime_of p hp) q g.pos (fun n hn => ?_) hd) hg
    obtain ⟨k, rfl⟩ := Nat.exists_eq_add_of_le hn
    exact h k
  · rintro ⟨m, rfl⟩ n
    exact MT64.seq_period_mul g.s p hp m _ (by omega)

/-- C61, also for a state that has given no output of its block: without the first output. -/
theorem C61_MT64_period_later (g : MT64) (hg : g.Alive) (q : Nat) :
    (∀ n x, 1 ≤ n → (Emits MT64.uint64 g n [x] ↔ Emits MT64.uint64 g (n + q) [x])) ↔ 2 ^ 19937 - 1 ∣ q := by
  obtain ⟨p, hp⟩ : ∃ p, p + 1 = 2 ^ 19937 := ⟨2 ^ 19937 - 1, Nat.sub_add_cancel Nat.one_le_two_pow⟩
  have e := MT64.pred_eq 19937 p hp
  rw [e]
  simp only [MT64.emits_one]
  constructor
  · intro h
    by_contra hd
    refine MT64.not_alive_of g (MT64.seq_zero_of g.s p hp (MT64.prime_of p hp) q (g.pos + 1) (fun n hn => ?_) hd) hg
    obtain ⟨k, rfl⟩ := Nat.exists_eq_add_of_le hn
    refine MT64.temper_inj ?_
    rw [Nat.add_assoc g.pos 1 k, Nat.add_assoc g.pos]
    exact (h (1 + k) _ (by omega)).mp rfl
  · rintro ⟨m, rfl⟩ n x hn
    rw [← Nat.add_assoc, MT64.seq_period_mul g.s p hp m _ (by omega)]

/-- C61: seeding by `Seed` leaves no degenerate state. -/
theorem C61_MT64_Seed_alive (x : U64) (g : MT64) : ∃ s, g.seed x = .ok s ∧ s.Alive ∧ s.Begun := by
  refine ⟨_, MT64.seed_eq x g, Or.inr ?_, by show 1 ≤ 312; decide⟩
  by_cases h : MT64.seedSeq x 1 = 0#64
  · refine ⟨2, by decide, by decide, ?_⟩
    rw [Vector.getElem_ofFn]
    show MT64.seedSeq x 2 ≠ 0#64
    rw [MT64.seedSeq, h]
    decide
  · refine ⟨1, by decide, by decide, ?_⟩
    rw [Vector.getElem_ofFn]
    exact h

/-- C61: after `Seed`, whatever the seed, the least period of the outputs is `2^19937 - 1`. -/
theorem C61_MT64_Seed_period (x : U64) (g : MT64) :
    ∃ s, g.seed x = .ok s ∧ ∀ q, OutputPeriod MT64.uint64 s q ↔ 2 ^ 19937 - 1 ∣ q := by
  obtain ⟨s, h1, h2, h3⟩ := C61_MT64_Seed_alive x g
  exact ⟨s, h1, C61_MT64_period s h2 h3⟩

/-- C61: a state whose effective part is zero gives zeros for ever (but for the first output of a block not begun). -/
theorem C61_MT64_dead (g : MT64) (hg : ¬ g.Alive) (hi : g.Begun) (n : Nat) : Emits MT64.uint64 g n [0#64] := by
  rw [MT64.emits_one]
  have h0 : g.s[0] >>> 31 = 0#64 := by
    by_contra h; exact hg (Or.inl h)
  have h1 : ∀ i (hi : i < 312), 1 ≤ i → g.s[i] = 0#64 := by
    intro i hi h1
    by_contra h; exact hg (Or.inr ⟨i, hi, h1, h⟩)
  have hj : MT64.join g.s[0] 0#64 = 0#64 := by
    refine MT64.bit_inj fun j _ => ?_
    by_cases hj : 31 ≤ j
    · rw [MT64.bit_join_hi _ _ hj]
      have := congrArg (BitVec.getLsbD · (j - 31)) h0
      simp only [BitVec.getLsbD_ushiftRight] at this
      rw [show 31 + (j - 31) = j by omega] at this
      unfold MT64.bit
      rw [this]
      simp
    · rw [MT64.bit_join_lo _ _ (by omega)]
  have hz : ∀ n, 1 ≤ n → MT64.seq g.s n = 0#64 := by
    intro n
    induction n using Nat.strongRecOn with
    | ind n ih =>
      intro hn
      by_cases h : n < 312
      · rw [MT64.seq_lt _ h, h1 n h hn]
      · obtain ⟨k, rfl⟩ : ∃ k, n = k + 312 := ⟨n - 312, by omega⟩
        rw [MT64.seq_ge, ih (k + 156) (by omega) (by omega), ih (k + 1) (by omega) (by omega), BitVec.zero_xor]
        refine MT64.bit_inj fun j _ => ?_
        have hjj : MT64.join (MT64.seq g.s k) 0#64 = 0#64 := by
          by_cases hk : k = 0
          · subst hk; rw [MT64.seq_lt _ (by decide)]; exact hj
          · rw [ih k (by omega) (by omega)]; decide
        rw [MT64.bit_twist, hjj]
        have e : ∀ j, MT64.bit 0#64 j = 0 := fun j => by simp [MT64.bit]
        rw [e, e, e, mul_zero, add_zero]
  have := MT64.pos_of_begun hi
  rw [hz _ (by omega), MT64.temper_zero]

/-- The state after `Seed(0)` meets the hypotheses of `C61_MT64_period`, and so does one whose only live bit is the top
bit of the first word; a block of zeros does not. -/
example : ∃ s, MT64.new.seed 0#64 = .ok s ∧ s.Alive ∧ s.Begun := C61_MT64_Seed_alive 0#64 MT64.new

example : (⟨312, Vector.ofFn fun i : Fin 312 => if i.val = 0 then 0x8000000000000000#64 else 0#64⟩ : MT64).Alive := by
  refine Or.inl ?_
  rw [Vector.getElem_ofFn]
  decide

example : ¬ (⟨312, Vector.ofFn fun i : Fin 312 => if i.val = 0 then 0x7fffffff#64 else 0#64⟩ : MT64).Alive := by
  rintro (h | ⟨i, hi, h1, h2⟩)
  · rw [Vector.getElem_ofFn] at h
    exact h (by decide)
  · rw [Vector.getElem_ofFn] at h2
    exact h2 (if_neg (by show ¬ i = 0; omega))

/-- A polynomial that annihilates a sequence of ones vanishes at 1. -/
theorem eval_one_of_ones (Q : (ZMod 2)[X]) (y : ℕ → ZMod 2) (k : Nat) (h : aeval (shift (ZMod 2)) Q y = 0)
    (h1 : ∀ n, y (k + n) = 1) : Q.eval 1 = 0 := by
  have h3 : ∀ (P : (ZMod 2)[X]) (c : ℕ → ZMod 2), (∀ n, c n = 1) → aeval (shift (ZMod 2)) P c = fun _ => P.eval 1 := by
    intro P c hc
    induction P using Polynomial.induction_on' with
    | add p q hp hq => rw [map_add, LinearMap.add_apply, hp, hq, eval_add]; rfl
    | monomial k a =>
      funext n
      rw [← C_mul_X_pow_eq_monomial, map_mul, aeval_C, Module.End.mul_apply, Module.algebraMap_end_apply]
      show a * aeval (shift (ZMod 2)) (X ^ k : (ZMod 2)[X]) c n = _
      rw [aeval_X_pow_shift, hc, eval_mul, eval_C, eval_pow, eval_X, one_pow]
  have h4 : aeval (shift (ZMod 2)) (Q * X ^ k) y = 0 := by
    rw [mul_comm, map_mul, Module.End.mul_apply, h, map_zero]
  rw [map_mul, Module.End.mul_apply,
    h3 _ _ (fun n => by rw [aeval_X_pow_shift, Nat.add_comm]; exact h1 n)] at h4
  exact congrFun h4 0

set_option maxRecDepth 8000 in
/-- Not all outputs have their most significant bit set. -/
theorem MT64.seq_small (g : MT64) : ∃ n, (MT64.temper (MT64.seq g.s (g.pos + n))).toNat < 2 ^ 63 := by
  by_contra hne
  have h1 : ∀ n, MT64.bit (MT64.temper (MT64.seq g.s (g.pos + n))) 63 = 1 := by
    intro n
    by_contra h
    refine hne ⟨n, ?_⟩
    unfold MT64.bit at h
    have h2 : (MT64.temper (MT64.seq g.s (g.pos + n))).getLsbD 63 = false := by
      cases hb : (MT64.temper (MT64.seq g.s (g.pos + n))).getLsbD 63 with
      | false => rfl
      | true => rw [hb] at h; exact absurd rfl h
    have h3 := (BitVec.msb_eq_getLsbD_last (MT64.temper (MT64.seq g.s (g.pos + n)))).trans h2
    have h4 := BitVec.msb_eq_false_iff_two_mul_lt.mp h3
    omega
  let y : ℕ → ZMod 2 := fun n => MT64.bit (MT64.temper (MT64.seq g.s n)) 63
  have hy : y = MT64.bits g.s 63 + MT64.bits g.s 26 + MT64.bits g.s 55 + MT64.bits g.s 9 := by
    funext n
    exact MT64.temper_msb _
  have h2 : aeval (shift (ZMod 2)) (MT64.qP 64 * X ^ 30) y = 0 := by
    rw [hy, map_add, map_add, map_add, MT64.qP_bits, MT64.qP_bits, MT64.qP_bits, MT64.qP_bits]
    simp
  have h5 := eval_one_of_ones _ y g.pos h2 h1
  rw [eval_mul, eval_pow, eval_X, one_pow, mul_one] at h5
  have h6 : ∀ j, (MT64.qP (j + 1)).eval 1 = MT64.bit mt64A j := by
    intro j
    rw [MT64.qP_succ, eval_add, eval_mul, MT64.uP]
    simp only [eval_add, eval_pow, eval_X, one_pow, eval_mul, eval_C, mul_one, CharTwo.add_self_eq_zero, zero_mul, zero_add]
  rw [show 64 = 63 + 1 from rfl, h6] at h5
  exact absurd h5 (by decide)

/-- C13 for MT64: `Uintn` returns from every state, also the degenerate ones. -/
theorem C13_MT64 (g : MT64) (max : U64) (h0 : max ≠ 0#64) : UintnReturnsFrom MT64.source g max := by
  refine uintn_returns _ _ (fun k => MT64.temper (MT64.seq g.s (g.pos + k))) (fun k => MT64.nexts k g) (fun n => ?_)
    (MT64.seq_small g) max h0
  rw [show rngDraws MT64.source n g = _ from (C06_MT64 g).1 n]
  exact MT64.draws_eq n g

end Crazy
