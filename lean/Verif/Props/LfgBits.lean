/-
C96: the exact period of every bit of the outputs of LFG, and of the results of every method.
-/
import Verif.Proofs.LfgBits
set_option exponentiation.threshold 2200
namespace Crazy
open Polynomial Kron

section
variable {σ : Type}

theorem nth_inv {α : Type} {call : σ → Go (α × σ)} {val : σ → α} {step : σ → σ} (I : σ → Prop) (hI : ∀ s, I s → I (step s))
    (h : ∀ s, I s → call s = .ok (val s, step s)) (n : Nat) (s : σ) (hs : I s) (v : α) : Nth call n s v ↔ val (step^[n] s) = v := by
  induction n generalizing s with
  | zero =>
    constructor
    · rintro ⟨t, ht⟩
      rw [h s hs, Except.ok.injEq, Prod.mk.injEq] at ht
      exact ht.1
    · rintro rfl
      exact ⟨_, h s hs⟩
  | succ n ih =>
    rw [Function.iterate_succ_apply, ← ih _ (hI s hs)]
    constructor
    · rintro ⟨w, t, h1, h2⟩
      rw [h s hs, Except.ok.injEq, Prod.mk.injEq] at h1
      rw [h1.2]
      exact h2
    · intro h2
      exact ⟨_, _, h s hs, h2⟩

theorem callPeriod_inv {α : Type} {call : σ → Go (α × σ)} {val : σ → α} {step : σ → σ} (I : σ → Prop) (hI : ∀ s, I s → I (step s))
    (h : ∀ s, I s → call s = .ok (val s, step s)) (s : σ) (hs : I s) (k : Nat) :
    CallPeriod call s k ↔ ∀ n, val (step^[n + k] s) = val (step^[n] s) := by
  unfold CallPeriod
  simp only [nth_inv I hI h _ s hs]
  exact ⟨fun h n => (h n _).mp rfl, fun h n v => by rw [h]⟩

theorem fnPeriod_inv {α : Type} {src : Source σ} {val : σ → U64} {step : σ → σ} (I : σ → Prop) (hI : ∀ s, I s → I (step s))
    (h : ∀ s, I s → RNG.uint64 src s = .ok (val s, step s)) (f : U64 → α) (s : σ) (hs : I s) (k : Nat) :
    FnPeriod src f s k ↔ ∀ n, f (val (step^[n + k] s)) = f (val (step^[n] s)) := by
  unfold FnPeriod
  simp only [nth_inv I hI h _ s hs]
  constructor
  · intro h n
    exact (h n _ _ rfl rfl).symm
  · rintro h n v w rfl rfl
    exact (h n).symm

end

namespace LFG

theorem bitz_iff (b : Nat) (x y : U64) : bitz b x = bitz b y ↔ x.toNat.testBit b = y.toNat.testBit b := by
  rw [bitz, bitz, ZMod.natCast_eq_natCast_iff', Nat.testBit_eq_decide_div_mod_eq, Nat.testBit_eq_decide_div_mod_eq, decide_eq_decide]
  omega

theorem bitz_getLsbD (b : Nat) (x y : U64) : bitz b x = bitz b y ↔ x.getLsbD b = y.getLsbD b := bitz_iff b x y

theorem low_bits_iff (k : Nat) (x y : U64) : x.toNat % 2 ^ k = y.toNat % 2 ^ k ↔ ∀ b < k, bitz b x = bitz b y := by
  simp only [bitz_iff]
  constructor
  · intro h b hb
    have := congrArg (fun m => m.testBit b) h
    simpa [Nat.testBit_mod_two_pow, hb] using this
  · intro h
    refine Nat.eq_of_testBit_eq fun b => ?_
    rw [Nat.testBit_mod_two_pow, Nat.testBit_mod_two_pow]
    by_cases hb : b < k
    · rw [h b hb]
    · simp [hb]

theorem low_period {o : ℕ → U64} {M : Nat} (h : ∀ b < 64, ∀ k, (∀ n, bitz b (o (n + k)) = bitz b (o n)) ↔ M * 2 ^ b ∣ k) (w : Nat)
    (hw : w < 64) (k : Nat) : (∀ n, (o (n + k)).toNat % 2 ^ (w + 1) = (o n).toNat % 2 ^ (w + 1)) ↔ M * 2 ^ w ∣ k := by
  simp only [low_bits_iff]
  rw [← h w hw]
  constructor
  · intro h1 n
    exact h1 n w (by omega)
  · intro h1 n b hb
    refine (h b (by omega) k).mpr ?_ n
    exact (Nat.mul_dvd_mul_left M (Nat.pow_dvd_pow 2 (by omega))).trans ((h w hw k).mp h1)

theorem readsOut (k : Nat) (hk : k ≤ 8) (s : LFG) (hs : Inv s) :
    source.read (zeros k) s = .ok (⟨(le64 (s.seq 607)).take k, k, none⟩, s.next) := by
  have : source.read (zeros k) s = (do let (q, g) ← readGt uint64 (zeros k) s; return (⟨q, (zeros k).length, none⟩, g)) := rfl
  have h1 := draws_eq 1 s hs
  have h2 : uint64 s = .ok (s.seq 607, s.next) := by
    rw [uint64_eq s hs]
    refine congrArg Except.ok (Prod.ext ?_ rfl)
    rw [draws, uint64_eq s hs] at h1
    injection h1 with h1
    have := congrArg Prod.fst h1
    simpa using this
  rw [this, readGt_small _ k hk, zeros_length, h2]
  rfl

theorem iterate_next (n : Nat) (g : LFG) : next^[n] g = nexts n g := by
  induction n with
  | zero => rfl
  | succ n ih => rw [Function.iterate_succ_apply', ih, nexts_succ']

/-- From the periods of the bits those of the methods. -/
theorem bitPeriods_of (g : LFG) (hi : Inv g) (M : Nat)
    (h : ∀ b < 64, ∀ k, (∀ n, bitz b (g.seq (607 + (n + k))) = bitz b (g.seq (607 + n))) ↔ M * 2 ^ b ∣ k) : BitPeriods source g M := by
  have le : ∀ (x : U64) k, k ≤ 8 → leNat ((le64 x).take k) = x.toNat % 2 ^ (8 * k) := fun x k hk => by
    rw [leNat_take_le64 _ _ hk, Nat.pow_mul]
  have c64 : ∀ s, Inv s → RNG.uint64 source s = .ok (s.seq 607, s.next) := fun s hs => by
    rw [RNG.uint64_eq, readsOut 8 (by decide) s hs]
    simp only [Except.map]
    rw [le _ 8 (by decide), Nat.mod_eq_of_lt (s.seq 607).isLt, BitVec.ofNat_toNat, BitVec.setWidth_eq]
  have c32 : ∀ s, Inv s → RNG.uint32 source s = .ok (BitVec.ofNat 32 ((s.seq 607).toNat % 2 ^ 32), s.next) := fun s hs => by
    rw [RNG.uint32_eq, readsOut 4 (by decide) s hs]
    simp only [Except.map]
    rw [le _ 4 (by decide)]
  have c16 : ∀ s, Inv s → RNG.uint16 source s = .ok (BitVec.ofNat 16 ((s.seq 607).toNat % 2 ^ 16), s.next) := fun s hs => by
    rw [RNG.uint16_eq, readsOut 2 (by decide) s hs]
    simp only [Except.map]
    rw [le _ 2 (by decide)]
  have c12 : ∀ s, Inv s → uniform12 source s = .ok (.fin false ((2 ^ 52 + (s.seq 607).toNat % 2 ^ 52) * 2 ^ 1022), s.next) := fun s hs => by
    rw [uniform12_eq source s _ _ (readsOut 7 (by decide) s hs), le _ 7 (by decide), Nat.mod_mod_of_dvd _ (pow_dvd_pow 2 (by decide))]
  have c01 : ∀ s, Inv s → uniform01 source s = .ok (.fin false ((s.seq 607).toNat % 2 ^ 53 * 2 ^ 1021), s.next) := fun s hs => by
    rw [uniform01_eq source s _ _ (readsOut 8 (by decide) s hs), le _ 8 (by decide), Nat.mod_eq_of_lt (b := 2 ^ (8 * 8)) (s.seq 607).isLt]
  have e : ∀ n, (next^[n] g).seq 607 = g.seq (607 + n) := fun n => by rw [iterate_next, seq_nexts]
  have L := low_period (o := fun n => g.seq (607 + n)) h
  refine ⟨fun b hb k => ?_, fun k => ?_, fun k => ?_, fun k => ?_, fun k => ?_, fun k => ?_⟩
  · rw [fnPeriod_inv Inv inv_next c64 _ g hi, ← h b hb]
    simp only [e, bitz_getLsbD]
  · rw [callPeriod_inv Inv inv_next c64 g hi, ← L 63 (by decide)]
    refine forall_congr' fun n => ?_
    rw [e, e, Nat.mod_eq_of_lt (BitVec.isLt _), Nat.mod_eq_of_lt (BitVec.isLt _), BitVec.toNat_inj]
  · rw [callPeriod_inv Inv inv_next c32 g hi, ← L 31 (by decide)]
    refine forall_congr' fun n => ?_
    rw [e, e, ← BitVec.toNat_inj, BitVec.toNat_ofNat, BitVec.toNat_ofNat, Nat.mod_mod, Nat.mod_mod]
  · rw [callPeriod_inv Inv inv_next c16 g hi, ← L 15 (by decide)]
    refine forall_congr' fun n => ?_
    rw [e, e, ← BitVec.toNat_inj, BitVec.toNat_ofNat, BitVec.toNat_ofNat, Nat.mod_mod, Nat.mod_mod]
  · rw [callPeriod_inv Inv inv_next c12 g hi, ← L 51 (by decide)]
    refine forall_congr' fun n => ?_
    rw [e, e, F64.fin.injEq, eq_self, true_and]
    obtain ⟨c, hc⟩ : ∃ c, 1022 = c := ⟨_, rfl⟩
    rw [hc, Nat.mul_left_inj (Nat.two_pow_pos c).ne', Nat.add_left_cancel_iff]
  · rw [callPeriod_inv Inv inv_next c01 g hi, ← L 52 (by decide)]
    refine forall_congr' fun n => ?_
    rw [e, e, F64.fin.injEq, eq_self, true_and]
    obtain ⟨c, hc⟩ : ∃ c, 1021 = c := ⟨_, rfl⟩
    rw [hc, Nat.mul_left_inj (Nat.two_pow_pos c).ne']

theorem out_annih (g : LFG) : aeval (shift Z64) lfgF (fun n => toZ (g.seq (607 + n))) = 0 := by
  refine tri_annih 335 334 _ fun k => ?_
  have := zs_rec g (k + 335)
  unfold zs at this
  rw [show 272 + (k + 335 + 335) = 607 + (k + 335) by omega, show 272 + (k + 335 + 334) = 607 + (k + 334) by omega,
    show 272 + (k + 335) = 607 + k by omega] at this
  exact this

theorem bitPeriods (g : LFG) (hi : Inv g) (hH : ∀ d ≤ 227, ∀ c, ¬ LowBitRec uint64 g d c) : BitPeriods source g lfgM := by
  refine bitPeriods_of g hi _ (bits_exact (out_annih g) fun d hd c h => hH d hd c ((lowRec_iff g hi d c).mpr fun n => ?_))
  have := h n
  unfold zs
  rw [show 272 + (335 + n + d) = 607 + (n + d) by omega, this]
  refine Finset.sum_congr rfl fun i _ => ?_
  rw [show 272 + (335 + n + i) = 607 + (n + i) by omega]

end LFG

/-! ### C96 -/

/-- C96: unless the low bits of its outputs satisfy a linear recurrence of order 227 or less, bit `b` of the outputs of an LFG repeats after
the multiples of `(2^108 - 1) / 65 * (2^187 - 1) * 2^b` calls and not otherwise, and the methods have the periods that follow from it. -/
theorem C96_LFG (g : LFG) (hg : Reachable LFG.methods.api LFG.new g)
    (h : ∀ d ≤ 227, ∀ c, ¬ LowBitRec LFG.uint64 g d c) : BitPeriods LFG.source g ((2 ^ 108 - 1) / 65 * (2 ^ 187 - 1)) :=
  LFG.bitPeriods g (LFG.safe.reachable LFG.inv_new hg) h

/-- C96: in particular after a seeding with at most 273 bytes. -/
theorem C96_LFG_seeded (g s : LFG) (iv : List Byte) (hl : iv.length ≤ 273) (h : g.seedIV iv = .ok s) :
    BitPeriods LFG.source s ((2 ^ 108 - 1) / 65 * (2 ^ 187 - 1)) := by
  rw [LFG.seedIV_eq] at h
  injection h with h
  subst h
  exact LFG.bitPeriods _ (LFG.inv_nexts _ _ (LFG.inv_seedStart iv)) (LFG.seeded_hard iv hl)

/-- C96: and with `Seed`. -/
theorem C96_LFG_Seed (g s : LFG) (x : U64) (h : g.seed x = .ok s) : BitPeriods LFG.source s ((2 ^ 108 - 1) / 65 * (2 ^ 187 - 1)) :=
  C96_LFG_seeded g s (le64 x) (by simp) h

/-- What it says of the lowest bit: its period is below 2^289, the documented one of the generator is almost 2^670. -/
theorem C96_LFG_low (g s : LFG) (x : U64) (h : g.seed x = .ok s) (k : Nat) :
    FnPeriod LFG.source (fun w => w.getLsbD 0) s k ↔ (2 ^ 108 - 1) / 65 * (2 ^ 187 - 1) ∣ k := by
  have := (C96_LFG_Seed g s x h).bit 0 (by decide) k
  rwa [pow_zero, Nat.mul_one] at this

/-- Non-vacuity: seeding succeeds. -/
example : ∃ s, LFG.new.seed 12345#64 = .ok s ∧ ¬ FnPeriod LFG.source (fun w => w.getLsbD 3) s 1000000 ∧
    FnPeriod LFG.source (fun w => w.getLsbD 3) s ((2 ^ 108 - 1) / 65 * (2 ^ 187 - 1) * 2 ^ 3) := by
  have e : LFG.new.seed 12345#64 = .ok _ := LFG.seedIV_eq (le64 12345#64) LFG.new
  refine ⟨_, e, fun h => ?_, ?_⟩
  · exact absurd (((C96_LFG_Seed _ _ _ e).bit 3 (by decide) _).mp h) (by decide +kernel)
  · exact ((C96_LFG_Seed _ _ _ e).bit 3 (by decide) _).mpr (Nat.dvd_refl _)

end Crazy
