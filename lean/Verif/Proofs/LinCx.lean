/-
Lower bounds for the order of linear recurrences, from one polynomial (Massey's lemma), and the outputs of a generator packed into one
number.
-/
import Verif.Proofs.BitRec
import Verif.Model.Xoroshiro
import Verif.Model.Xoshiro
namespace Crazy
open Polynomial Kron

/-- `k n`, with `n` evaluated first. -/
def frc {α : Type} (n : Nat) (k : Nat → α) : α := Nat.rec (k 0) (fun m _ => k (Nat.succ m)) n

theorem frc_eq {α : Type} (n : Nat) (k : Nat → α) : frc n k = k n := by cases n <;> rfl

/-- `2^k` calls from the state `s`: the state reached, in the low `B` bits, and above it the outputs, 64 bits each. -/
def gen (B M : Nat) (st : Nat → Nat) : Nat → Nat → Nat
  | 0, s => st s
  | k + 1, s => frc (gen B M st k s) fun r => frc (gen B M st k (Nat.land r M)) fun q =>
      Nat.add (Nat.land q M) (Nat.shiftLeft (Nat.add (Nat.shiftRight r B) (Nat.shiftLeft (Nat.shiftRight q B) (Nat.mul 64 (Nat.pow 2 k)))) B)

/-- `f 0, ..., f (n-1)`, 64 bits each. -/
def pk (f : Nat → Nat) : Nat → Nat
  | 0 => 0
  | n + 1 => f 0 + 2 ^ 64 * pk (fun i => f (i + 1)) n

theorem pk_add (f : Nat → Nat) (a b : Nat) : pk f (a + b) = pk f a + 2 ^ (64 * a) * pk (fun i => f (a + i)) b := by
  induction a generalizing f with
  | zero => simp [pk]
  | succ a ih =>
    rw [Nat.succ_add, pk, pk, ih, Nat.mul_add, Nat.mul_succ, Nat.pow_add, Nat.add_assoc, Nat.mul_assoc, Nat.mul_left_comm (2 ^ 64)]
    simp only [Nat.add_right_comm]

theorem pk_testBit (f : Nat → Nat) (hf : ∀ i, f i < 2 ^ 64) (n j b : Nat) (hj : j < n) (hb : b < 64) :
    (pk f n).testBit (64 * j + b) = (f j).testBit b := by
  induction n generalizing f j with
  | zero => omega
  | succ n ih =>
    rw [pk, Nat.add_comm (f 0), Nat.testBit_two_pow_mul_add _ (hf 0)]
    cases j with
    | zero => rw [if_pos (by omega), Nat.mul_zero, Nat.zero_add]
    | succ j => rw [if_neg (by omega), show 64 * (j + 1) + b - 64 = 64 * j + b by omega, ih _ (fun i => hf _) j (by omega)]

/-- `gen` runs the generator. -/
theorem gen_eq {σ : Type} (B M : Nat) (hM : M = 2 ^ B - 1) (enc : σ → Nat) (step : σ → σ) (out : σ → Nat) (st : Nat → Nat)
    (henc : ∀ g, enc g < 2 ^ B) (hst : ∀ g, st (enc g) = enc (step g) + 2 ^ B * out g) (k : Nat) (g : σ) :
    gen B M st k (enc g) = enc (step^[2 ^ k] g) + 2 ^ B * pk (fun i => out (step^[i] g)) (2 ^ k) := by
  subst hM
  have hlo : ∀ e p, e < 2 ^ B → Nat.land (e + 2 ^ B * p) (2 ^ B - 1) = e := fun e p he => by
    show (e + 2 ^ B * p) &&& (2 ^ B - 1) = e
    rw [Nat.and_two_pow_sub_one_eq_mod, Nat.add_mul_mod_self_left, Nat.mod_eq_of_lt he]
  have hhi : ∀ e p, e < 2 ^ B → Nat.shiftRight (e + 2 ^ B * p) B = p := fun e p he => by
    show (e + 2 ^ B * p) >>> B = p
    rw [Nat.shiftRight_eq_div_pow, Nat.add_mul_div_left _ _ (Nat.two_pow_pos B), Nat.div_eq_of_lt he, Nat.zero_add]
  induction k generalizing g with
  | zero =>
    rw [gen, hst]
    simp [pk]
  | succ k ih =>
    rw [gen, frc_eq, frc_eq, ih g, hlo _ _ (henc _), ih, hlo _ _ (henc _), hhi _ _ (henc _), hhi _ _ (henc _)]
    show _ + (_ + _ <<< (64 * 2 ^ k)) <<< B = _
    have h2 : 2 ^ (k + 1) = 2 ^ k + 2 ^ k := by rw [Nat.pow_succ]; omega
    rw [Nat.shiftLeft_eq, Nat.shiftLeft_eq, h2, pk_add, ← Function.iterate_add_apply, Nat.mul_comm _ (2 ^ B), Nat.mul_comm _ (2 ^ (64 * 2 ^ k))]
    simp only [← Function.iterate_add_apply, Nat.add_comm (2 ^ k)]

/-! ### Massey's lemma -/

/-- If a polynomial of degree at most `L` gives 0 at the places `L, ..., t - 1` and not at `t`, no recurrence of order at most `t - L` holds. -/
theorem massey {y : ℕ → ZMod 2} {L t n : Nat} (ht : t < n) (hL : L ≤ t) {P S : (ZMod 2)[X]} (hP : ∀ i, L < i → P.coeff i = 0)
    (hS : ∀ i < n, S.coeff i = y i) (h0 : ∀ j, L ≤ j → j < t → (P * S).coeff j = 0) (h1 : (P * S).coeff t ≠ 0)
    {d : Nat} {c : Nat → ZMod 2} (h : ∀ m, y (m + d) = ∑ i ∈ Finset.range d, c i * y (m + i)) : t + 1 - L ≤ d := by
  by_contra hlt
  have hd : L + d ≤ t := by omega
  have hu : ∀ j, L ≤ j → j < n → (P * S).coeff j = ∑ i ∈ Finset.range (L + 1), P.coeff i * y (j - i) := by
    intro j hj hjn
    rw [coeff_mul, Finset.Nat.sum_antidiagonal_eq_sum_range_succ (fun a b => P.coeff a * S.coeff b)]
    symm
    refine Finset.sum_subset_zero_on_sdiff (Finset.range_subset_range.mpr (by omega)) (fun i hi => ?_) (fun i hi => ?_)
    · rw [Finset.mem_sdiff, Finset.mem_range, Finset.mem_range] at hi
      rw [hP i (by omega), zero_mul]
    · rw [Finset.mem_range] at hi
      rw [hS _ (by omega)]
  apply h1
  rw [hu t hL ht]
  have e : ∀ i ∈ Finset.range (L + 1), P.coeff i * y (t - i) = ∑ k ∈ Finset.range d, c k * (P.coeff i * y (t - d + k - i)) := by
    intro i hi
    rw [Finset.mem_range] at hi
    rw [show t - i = t - d - i + d by omega, h, Finset.mul_sum]
    refine Finset.sum_congr rfl fun k _ => ?_
    rw [show t - d - i + k = t - d + k - i by omega]
    ring
  rw [Finset.sum_congr rfl e, Finset.sum_comm]
  refine Finset.sum_eq_zero fun k hk => ?_
  rw [Finset.mem_range] at hk
  rw [← Finset.mul_sum, ← hu _ (by omega) (by omega), h0 _ (by omega) (by omega), mul_zero]

theorem Cd_coeff {w D b n : Nat} {P : (ZMod 2)[X]} (h : Cd w D b n P) (hw : 0 < w) (hb : b < 2 ^ w) (j : Nat) :
    P.coeff j = if n.testBit (w * j) then 1 else 0 := by
  obtain ⟨Q, h1, h2, rfl, rfl⟩ := h
  rw [coeff_map]
  clear h1
  induction j generalizing Q with
  | zero =>
    have hp : (Q.eval (2 ^ w)) % 2 = Q.coeff 0 % 2 := by
      conv_lhs => rw [← divX_mul_X_add Q, eval_add, eval_mul, eval_X, eval_C]
      obtain ⟨v, rfl⟩ : ∃ v, w = v + 1 := ⟨w - 1, by omega⟩
      rw [Nat.pow_succ, ← Nat.mul_assoc, Nat.mul_add_mod_self_right]
    rw [Nat.mul_zero, Nat.testBit_zero, hp]
    simp only [eq_natCast]
    rcases Nat.mod_two_eq_zero_or_one (Q.coeff 0) with h | h
    · rw [h]
      exact (ZMod.natCast_eq_zero_iff _ _).mpr (Nat.dvd_of_mod_eq_zero h)
    · rw [h]
      have : ((Q.coeff 0 : Nat) : ZMod 2) = ((1 : Nat) : ZMod 2) := (ZMod.natCast_eq_natCast_iff' _ _ _).mpr h
      rw [this]; decide
  | succ j ih =>
    have h3 := ih Q.divX (fun i => by rw [coeff_divX]; exact h2 _)
    rw [coeff_divX] at h3
    rw [h3]
    have e : (Q.eval (2 ^ w)).testBit (w * (j + 1)) = (Q.divX.eval (2 ^ w)).testBit (w * j) := by
      conv_lhs => rw [← divX_mul_X_add Q, eval_add, eval_mul, eval_X, eval_C, Nat.mul_comm,
        Nat.testBit_two_pow_mul_add _ (Nat.lt_of_le_of_lt (h2 0) hb), Nat.mul_succ, if_neg (by omega), Nat.add_sub_cancel]
    rw [e]

theorem mask_testBit (w D j : Nat) (hw : 0 < w) : (mask 1 w D).testBit (w * j) = decide (j < D) := by
  induction D generalizing j with
  | zero => simp [mask]
  | succ D ih =>
    have h1 : 2 ^ 1 - 1 < 2 ^ w := Nat.lt_of_lt_of_le (by decide) (Nat.pow_le_pow_right (by decide) hw)
    rw [mask, Nat.add_comm, Nat.testBit_two_pow_mul_add _ h1]
    cases j with
    | zero => rw [if_pos (by omega)]; simp
    | succ j => rw [Nat.mul_succ, if_neg (by omega), Nat.add_sub_cancel, ih]; simp

/-- A mask of `D` slots of 64 bits. -/
def msk (D : Nat) : Nat := Nat.div (Nat.sub (Nat.pow 2 (Nat.mul 64 D)) 1) 0xffffffffffffffff

theorem msk_eq (D : Nat) : msk D = mask 1 64 D := by
  refine mask_unique _ _ _ _ (by decide) ?_
  show (2 ^ (64 * D) - 1) / 0xffffffffffffffff * 0xffffffffffffffff = 1 * (2 ^ (64 * D) - 1)
  rw [Nat.one_mul]
  refine Nat.div_mul_cancel ?_
  have h := Nat.sub_dvd_pow_sub_pow (2 ^ 64) 1 D
  rwa [Nat.one_pow, ← Nat.pow_mul] at h

/-- Bit `j` of every 64-bit slot of `u`, for `j` below `k`, one after another. -/
def spr (u q m : Nat) : Nat → Nat
  | 0 => 0
  | k + 1 => Nat.add (Nat.shiftLeft (spr u q m k) (Nat.mul 64 q)) (Nat.land (Nat.shiftRight u k) m)

/-- The outputs `W`, `n` of them: bit `b`, the polynomial packed in `u`, of degree at most `L`, and the place `t`. -/
def chk (n W b L t u : Nat) : Bool :=
  Nat.ble (Nat.succ t) n && (Nat.ble L t && Nat.beq
    (Nat.land (Nat.shiftRight (Nat.mul (Nat.land (spr u 256 (msk 256) 64) (msk (Nat.succ L))) (Nat.land (Nat.shiftRight W b) (msk n))) (Nat.mul 64 L))
      (msk (Nat.succ (Nat.sub t L))))
    (Nat.shiftLeft 1 (Nat.mul 64 (Nat.sub t L))))

theorem chk_order {n b L t u : Nat} {x : Nat → U64} (hn : n < 2 ^ 63) (hb : b < 64) (h : chk n (pk (fun i => (x i).toNat) n) b L t u = true)
    {d : Nat} {c : Nat → ZMod 2} (hr : ∀ m, MT64.bit (x (m + d)) b = ∑ i ∈ Finset.range d, c i * MT64.bit (x (m + i)) b) : t + 1 - L ≤ d := by
  unfold chk at h
  rw [Bool.and_eq_true, Bool.and_eq_true] at h
  obtain ⟨h1, h2, h3⟩ := h
  have ht : t < n := Nat.le_of_ble_eq_true h1
  have hL : L ≤ t := Nat.le_of_ble_eq_true h2
  have h3 := Nat.eq_of_beq_eq_true h3
  rw [msk_eq (Nat.succ L), msk_eq n, msk_eq (Nat.succ (t.sub L))] at h3
  generalize spr u 256 (msk 256) 64 = v at h3
  obtain ⟨P, hP⟩ := Cd.exists_mask (R := ZMod 2) (w := 64) (D := L + 1) 1 (by decide) v
  obtain ⟨S, hS⟩ := Cd.exists_mask (R := ZMod 2) (w := 64) (D := n) 1 (by decide) (pk (fun i => (x i).toNat) n >>> b)
  have hPS := Cd.mul hP hS
  have hb1 : (L + 1) * ((2 ^ 1 - 1) * (2 ^ 1 - 1)) < 2 ^ 64 := by
    have : (2 : Nat) ^ 63 < 2 ^ 64 := by decide
    have h4 : (L + 1) * ((2 ^ 1 - 1) * (2 ^ 1 - 1)) = L + 1 := Nat.mul_one _
    rw [h4]
    omega
  have hc := fun j => Cd_coeff hPS (by decide) hb1 j
  have hk : ∀ k, k ≤ t - L → (P * S).coeff (L + k) = if k = t - L then 1 else 0 := by
    intro k hk
    rw [hc]
    have h4 := congrArg (fun z => Nat.testBit z (64 * k)) h3
    change Nat.testBit (((_ * _) >>> (64 * L)) &&& _) (64 * k) = Nat.testBit (1 <<< (64 * (t - L))) (64 * k) at h4
    rw [Nat.testBit_and, mask_testBit _ _ _ (by decide), decide_eq_true (show k < Nat.succ (t.sub L) from Nat.lt_succ_of_le hk), Bool.and_true,
      Nat.testBit_shiftRight, ← Nat.mul_add] at h4
    have h5 : Nat.testBit (1 <<< (64 * (t - L))) (64 * k) = decide (k = t - L) := by
      rw [Nat.shiftLeft_eq, Nat.one_mul, Nat.testBit_two_pow]
      exact decide_eq_decide.mpr (by omega)
    rw [h5] at h4
    have h6 : ((v &&& mask 1 64 (L + 1)) * (pk (fun i => (x i).toNat) n >>> b &&& mask 1 64 n)).testBit (64 * (L + k)) = decide (k = t - L) := h4
    rw [h6]
    simp only [decide_eq_true_eq]
  refine massey (y := fun m => MT64.bit (x m) b) (c := c) ht hL (P := P) (S := S) ?_ ?_ ?_ ?_ hr
  · intro i hi
    obtain ⟨Q, q1, -, -, rfl⟩ := hP
    rw [coeff_map, q1 i (by omega), map_zero]
  · intro i hi
    rw [Cd_coeff hS (by decide) (by decide), Nat.testBit_and, mask_testBit _ _ _ (by decide), decide_eq_true hi, Bool.and_true,
      Nat.testBit_shiftRight, Nat.add_comm, pk_testBit _ (fun i => (x i).isLt) _ _ _ hi hb]
    rfl
  · intro j hj hjt
    have := hk (j - L) (by omega)
    rw [show L + (j - L) = j by omega, if_neg (by omega)] at this
    exact this
  · have := hk (t - L) le_rfl
    rw [show L + (t - L) = t by omega, if_pos rfl] at this
    rw [this]
    decide

/-- The checks for a list of bits. -/
def chks (n W : Nat) : List (Nat × Nat × Nat × Nat) → Bool
  | [] => true
  | (b, L, t, u) :: l => bif chk n W b L t u then chks n W l else false

theorem chks_mem {n W : Nat} {l : List (Nat × Nat × Nat × Nat)} (h : chks n W l = true) : ∀ r ∈ l, chk n W r.1 r.2.1 r.2.2.1 r.2.2.2 = true := by
  induction l with
  | nil => intro r hr; cases hr
  | cons r l ih =>
    obtain ⟨b, L, t, u⟩ := r
    rw [chks] at h
    cases hc : chk n W b L t u with
    | false => rw [hc] at h; cases h
    | true =>
      rw [hc, cond_true] at h
      intro r hr
      rcases List.mem_cons.mp hr with rfl | hr
      · exact hc
      · exact ih h r hr

theorem shiftRight_hi (a : U64) (b : Nat) : Nat.shiftRight (a.toNat + 2 ^ 64 * b) 64 = b := by
  show (a.toNat + 2 ^ 64 * b) >>> 64 = b
  rw [Nat.shiftRight_eq_div_pow, Nat.add_mul_div_left _ _ (Nat.two_pow_pos 64), Nat.div_eq_of_lt a.isLt, Nat.zero_add]

/-- The low 64 bits. -/
def lo64 (n : Nat) : Nat := Nat.land n 0xffffffffffffffff

theorem lo64_eq (n : Nat) : lo64 n = n % 2 ^ 64 := Nat.and_two_pow_sub_one_eq_mod n 64

theorem lo64_enc (a : U64) (b : Nat) : lo64 (a.toNat + 2 ^ 64 * b) = a.toNat := by
  rw [lo64_eq, Nat.add_mul_mod_self_left, Nat.mod_eq_of_lt a.isLt]

/-- Rotation of a 64-bit number. -/
def rotN (x k l : Nat) : Nat := Nat.lor (lo64 (Nat.shiftLeft x k)) (Nat.shiftRight x l)

theorem rotN_eq (x : U64) (k l : Nat) (h : l = (64 - k % 64) % 64) (hk : k < 64) : rotN x.toNat k l = (rotl64 x k).toNat := by
  rw [rotN, rotl64, BitVec.toNat_or, BitVec.toNat_shiftLeft, BitVec.toNat_ushiftRight, lo64_eq, h, Nat.mod_eq_of_lt hk]
  rfl

theorem shl_eq (x : U64) (k : Nat) : lo64 (Nat.shiftLeft x.toNat k) = (x <<< k).toNat := by
  rw [BitVec.toNat_shiftLeft, lo64_eq]
  rfl

theorem xorN_eq (x y : U64) : Nat.xor x.toNat y.toNat = (x ^^^ y).toNat := rfl

namespace Xoroshiro

def enc (g : Xoroshiro) : Nat := g.s0.toNat + 2 ^ 64 * g.s1.toNat

/-- One call, on numbers: the next state and above it the output. -/
def st (s : Nat) : Nat :=
  frc (lo64 s) fun a => frc (Nat.shiftRight s 64) fun b => frc (Nat.xor b a) fun x =>
    Nat.add (Nat.add (Nat.xor (Nat.xor (rotN a 55 9) x) (lo64 (Nat.shiftLeft x 14))) (Nat.shiftLeft (rotN x 36 28) 64))
      (Nat.shiftLeft (lo64 (Nat.add a b)) 128)

theorem enc_lt (g : Xoroshiro) : enc g < 2 ^ 128 := by
  have h1 := g.s0.isLt
  have h2 := g.s1.isLt
  unfold enc
  omega

theorem st_enc (g : Xoroshiro) : st (enc g) = enc (step g) + 2 ^ 128 * (out g).toNat := by
  obtain ⟨a, b⟩ := g
  rw [st, enc]
  simp only
  rw [lo64_enc, shiftRight_hi, frc_eq, frc_eq, frc_eq, xorN_eq, rotN_eq _ _ _ (by decide) (by decide), rotN_eq _ _ _ (by decide) (by decide),
    shl_eq, xorN_eq, xorN_eq, lo64_eq]
  show _ + _ <<< 64 + _ <<< 128 = _
  rw [Nat.shiftLeft_eq, Nat.shiftLeft_eq, Nat.mul_comm _ (2 ^ 64), Nat.mul_comm _ (2 ^ 128), out, BitVec.toNat_add]
  rfl

/-- The first `2^15` outputs. -/
def run (g : Xoroshiro) : Nat := Nat.shiftRight (gen 128 0xffffffffffffffffffffffffffffffff st 15 (enc g)) 128

theorem run_eq (g : Xoroshiro) : run g = pk (fun i => (out (step^[i] g)).toNat) (2 ^ 15) := by
  rw [run, gen_eq 128 0xffffffffffffffffffffffffffffffff (by decide) enc step (fun g => (out g).toNat) st enc_lt st_enc]
  show (_ + _) >>> 128 = _
  rw [Nat.shiftRight_eq_div_pow, Nat.add_mul_div_left _ _ (Nat.two_pow_pos 128), Nat.div_eq_of_lt (enc_lt _), Nat.zero_add]

end Xoroshiro

namespace Xoshiro

def enc (g : Xoshiro) : Nat := g.w.toNat + 2 ^ 64 * (g.x.toNat + 2 ^ 64 * (g.y.toNat + 2 ^ 64 * g.z.toNat))

/-- One call, on numbers: the next state and above it the output. -/
def st (s : Nat) : Nat :=
  frc (lo64 s) fun w => frc (Nat.shiftRight s 64) fun s => frc (lo64 s) fun x => frc (Nat.shiftRight s 64) fun s =>
  frc (Nat.xor (lo64 s) w) fun y => frc (Nat.xor (Nat.shiftRight s 64) x) fun z =>
    Nat.add (Nat.xor w z) (Nat.shiftLeft (Nat.add (Nat.xor x y) (Nat.shiftLeft (Nat.add (Nat.xor y (lo64 (Nat.shiftLeft x 17)))
      (Nat.shiftLeft (Nat.add (rotN z 45 19) (Nat.shiftLeft (frc (lo64 (Nat.mul x 5)) fun v => lo64 (Nat.mul (rotN v 7 57) 9)) 64)) 64)) 64)) 64)

theorem enc_lt (g : Xoshiro) : enc g < 2 ^ 256 := by
  have h1 := g.w.isLt
  have h2 := g.x.isLt
  have h3 := g.y.isLt
  have h4 := g.z.isLt
  unfold enc
  omega

theorem st_enc (g : Xoshiro) : st (enc g) = enc (step g) + 2 ^ 256 * (out g).toNat := by
  obtain ⟨w, x, y, z⟩ := g
  have h5 : lo64 (Nat.mul x.toNat 5) = (x * 5).toNat := by
    rw [lo64_eq, BitVec.toNat_mul]; rfl
  have h9 : ∀ v : U64, lo64 (Nat.mul v.toNat 9) = (v * 9).toNat := fun v => by
    rw [lo64_eq, BitVec.toNat_mul]; rfl
  rw [st, enc]
  simp only
  rw [lo64_enc, shiftRight_hi, frc_eq, frc_eq, lo64_enc, frc_eq, shiftRight_hi, frc_eq, lo64_enc, shiftRight_hi, frc_eq, frc_eq, frc_eq, h5, xorN_eq, xorN_eq,
    rotN_eq _ _ _ (by decide) (by decide), rotN_eq _ _ _ (by decide) (by decide), shl_eq, xorN_eq, xorN_eq, xorN_eq, h9]
  show _ + (_ + (_ + (_ + _ <<< 64) <<< 64) <<< 64) <<< 64 = _
  simp only [Nat.shiftLeft_eq, enc, step, out]
  ring

/-- The first `2^15` outputs. -/
def run (g : Xoshiro) : Nat :=
  Nat.shiftRight (gen 256 0xffffffffffffffffffffffffffffffffffffffffffffffffffffffffffffffff st 15 (enc g)) 256

theorem run_eq (g : Xoshiro) : run g = pk (fun i => (out (step^[i] g)).toNat) (2 ^ 15) := by
  rw [run, gen_eq 256 0xffffffffffffffffffffffffffffffffffffffffffffffffffffffffffffffff (by decide) enc step (fun g => (out g).toNat) st enc_lt st_enc]
  show (_ + _) >>> 256 = _
  rw [Nat.shiftRight_eq_div_pow, Nat.add_mul_div_left _ _ (Nat.two_pow_pos 256), Nat.div_eq_of_lt (enc_lt _), Nat.zero_add]

end Xoshiro
end Crazy
