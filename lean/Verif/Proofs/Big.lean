/-
`RNG.Big` as arithmetic on the big-endian value of the bytes read.
-/
import Verif.Model.RNG
import Verif.Spec.CountBytes
import Verif.Proofs.RNG
import Mathlib.Data.Nat.Count
import Mathlib.Data.Int.CardIntervalMod
namespace Crazy
namespace RNG

theorem setBytes_foldl (p : List Byte) (a : Nat) :
    p.foldl (fun n b => 256 * n + b.toNat) a = a * 256 ^ p.length + setBytes p := by
  induction p generalizing a with
  | nil => simp [setBytes]
  | cons b p ih =>
    simp only [setBytes, List.foldl_cons, List.length_cons] at ih ⊢
    rw [ih, ih (256 * 0 + b.toNat), Nat.pow_succ]
    simp only [Nat.mul_zero, Nat.zero_add]
    rw [Nat.add_mul, Nat.mul_comm 256 a, Nat.mul_assoc a, Nat.mul_comm 256]
    omega

theorem setBytes_cons (b : Byte) (p : List Byte) : setBytes (b :: p) = b.toNat * 256 ^ p.length + setBytes p := by
  have := setBytes_foldl p (256 * 0 + b.toNat)
  simp only [Nat.mul_zero, Nat.zero_add] at this
  rw [← this]
  simp only [setBytes, List.foldl_cons, Nat.mul_zero, Nat.zero_add]

theorem setBytes_lt (p : List Byte) : setBytes p < 256 ^ p.length := by
  induction p with
  | nil => simp [setBytes]
  | cons b p ih =>
    rw [setBytes_cons, List.length_cons, Nat.pow_succ]
    have : b.toNat * 256 ^ p.length ≤ 255 * 256 ^ p.length := Nat.mul_le_mul_right _ (by omega)
    omega

theorem setBytes_inj (n : Nat) (p q : List Byte) (hp : p.length = n) (hq : q.length = n)
    (h : setBytes p = setBytes q) : p = q := by
  induction n generalizing p q with
  | zero => rw [List.eq_nil_of_length_eq_zero hp, List.eq_nil_of_length_eq_zero hq]
  | succ n ih =>
    match p, q, hp, hq with
    | a :: p, b :: q, hp, hq =>
      simp only [List.length_cons, Nat.add_right_cancel_iff] at hp hq
      rw [setBytes_cons, setBytes_cons, hp, hq] at h
      have h1 := setBytes_lt p
      have h2 := setBytes_lt q
      rw [hp] at h1
      rw [hq] at h2
      have e := congrArg (· / 256 ^ n) h
      rw [Nat.mul_comm, Nat.mul_add_div (by positivity), Nat.div_eq_of_lt h1, Nat.mul_comm b.toNat,
        Nat.mul_add_div (by positivity), Nat.div_eq_of_lt h2] at e
      have e' : a = b := BitVec.eq_of_toNat_eq (by omega)
      subst e'
      rw [ih p q hp hq (by omega)]

theorem setBytes_surj (n N : Nat) (h : N < 256 ^ n) : ∃ p : List Byte, p.length = n ∧ setBytes p = N := by
  induction n generalizing N with
  | zero => exact ⟨[], rfl, by simp at h; subst h; rfl⟩
  | succ n ih =>
    obtain ⟨p, h1, h2⟩ := ih (N % 256 ^ n) (Nat.mod_lt _ (by positivity))
    refine ⟨BitVec.ofNat 8 (N / 256 ^ n) :: p, by simp [h1], ?_⟩
    rw [setBytes_cons, h1, h2, BitVec.toNat_ofNat, Nat.mod_eq_of_lt, Nat.mul_comm]
    · exact Nat.div_add_mod _ _
    · rw [Nat.div_lt_iff_lt_mul (by positivity)]
      rw [Nat.pow_succ] at h
      omega

/-- Counting byte strings by their big-endian value. -/
theorem countBytes_eq (n M : Nat) (hM : M = 256 ^ n) (P : Nat → Prop) [DecidablePred P] :
    countBytes n (fun b => P (setBytes b)) = M.count P := by
  unfold countBytes
  rw [Nat.count_eq_card_filter_range, ← Nat.card_eq_finsetCard]
  have hlt : ∀ b : List Byte, b.length = n → setBytes b < M := fun b hb => by rw [hM, ← hb]; exact setBytes_lt b
  have hs : ∀ N < M, ∃ p : List Byte, p.length = n ∧ setBytes p = N := fun N hN => setBytes_surj n N (hM ▸ hN)
  clear hM
  refine Nat.card_congr (Equiv.ofBijective (fun b => ⟨setBytes b.1, ?_⟩) ⟨?_, ?_⟩)
  · rw [Finset.mem_filter, Finset.mem_range]; exact ⟨hlt _ b.2.1, b.2.2⟩
  · intro b b' h
    exact Subtype.ext (setBytes_inj n _ _ b.2.1 b'.2.1 (congrArg Subtype.val h))
  · intro N
    have := N.2
    rw [Finset.mem_filter, Finset.mem_range] at this
    obtain ⟨p, h1, h2⟩ := hs _ this.1
    exact ⟨⟨p, h1, by show P (setBytes p); rw [h2]; exact this.2⟩, Subtype.ext h2⟩

/-- Bits of the result of `Big`: the top byte is masked to `nbits mod 8` bits, to none if `nbits` is a multiple of 8. -/
def bigBits (nbits : Nat) : Nat := nbits % 8 + 8 * ((nbits + 7) / 8 - 1)

theorem bigBits_eq (nbits : Nat) (h : 0 < nbits) : bigBits nbits = if nbits % 8 = 0 then nbits - 8 else nbits := by
  unfold bigBits
  split <;> omega

theorem mask_toNat (b : Byte) (r : Nat) (hr : r < 8) : (b &&& ((0xff#8) >>> (8 - r))).toNat = b.toNat % 2 ^ r := by
  have : (0xff#8 >>> (8 - r)).toNat = 2 ^ r - 1 := by
    have : r = 0 ∨ r = 1 ∨ r = 2 ∨ r = 3 ∨ r = 4 ∨ r = 5 ∨ r = 6 ∨ r = 7 := by omega
    rcases this with rfl | rfl | rfl | rfl | rfl | rfl | rfl | rfl <;> rfl
  rw [BitVec.toNat_and, this, Nat.and_two_pow_sub_one_eq_mod]

theorem mask_value (b : Byte) (rest : List Byte) (r : Nat) (hr : r < 8) :
    setBytes ((b &&& ((0xff#8) >>> (8 - r))) :: rest) = setBytes (b :: rest) % 2 ^ (r + 8 * rest.length) := by
  rw [setBytes_cons, setBytes_cons, mask_toNat b r hr, Nat.pow_add, Nat.pow_mul, Nat.mul_comm (2 ^ r),
    Nat.mod_mul, Nat.mul_comm b.toNat]
  have h := setBytes_lt rest
  show _ = (256 ^ rest.length * b.toNat + setBytes rest) % 256 ^ rest.length +
    256 ^ rest.length * ((256 ^ rest.length * b.toNat + setBytes rest) / 256 ^ rest.length % 2 ^ r)
  rw [Nat.mul_add_mod, Nat.mod_eq_of_lt h, Nat.mul_add_div (by positivity), Nat.div_eq_of_lt h, Nat.add_zero,
    Nat.mul_comm]
  omega

variable {σ : Type}

/-- `Big` for `nbits > 0`: one read of `⌈nbits/8⌉` bytes; the result is their big-endian value modulo a power of 2. -/
theorem big_eq (src : Source σ) (nbits : Nat) (h0 : 0 < nbits) (hm : (nbits + 7) / 8 ≤ maxAlloc) (s : σ) :
    big src nbits s = (src.read (zeros ((nbits + 7) / 8)) s).map fun r =>
      (((setBytes r.1.buf % 2 ^ bigBits nbits : Nat) : Int), r.2) := by
  have hma : maxAlloc = 2 ^ 48 := rfl
  have hb : nbits < 2 ^ 64 - 7 := by omega
  have e1 : toUint (nbits : Int) = nbits := by
    unfold toUint
    omega
  have e2 : ((toUint (nbits : Int) + 7) % 2 ^ 64) >>> 3 = (nbits + 7) / 8 := by
    rw [e1, Nat.mod_eq_of_lt (by omega), Nat.shiftRight_eq_div_pow]
  unfold big makeBytes
  rw [e2, if_neg (by omega)]
  simp only [bind, Except.bind, pure, Except.pure]
  cases hr : src.read (zeros ((nbits + 7) / 8)) s with
  | error e => rfl
  | ok r =>
    have hl := src.len_buf _ _ r.1 r.2 hr
    rw [zeros_length] at hl
    simp only [Except.map]
    cases hbuf : r.1.buf with
    | nil => rw [hbuf] at hl; simp at hl; omega
    | cons b rest =>
      rw [hbuf, List.length_cons] at hl
      simp only [e1]
      rw [mask_value b rest _ (Nat.mod_lt _ (by decide))]
      have : nbits % 8 + 8 * rest.length = bigBits nbits := by unfold bigBits; omega
      rw [this]

end RNG
end Crazy
