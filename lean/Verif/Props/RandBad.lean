/-
C28: alphabets that are not valid UTF-8.
-/
import Verif.Props.RandText
namespace Crazy

variable {σ : Type}

theorem cont_dec (b : Byte) (h : isCont b = true) : ∃ n < 64, b = 0x80#8 ||| (BitVec.ofNat 8 n &&& 0x3F#8) ∧ (b &&& 0x3F#8).toNat = n := by
  have : ∀ b : Fin 256, isCont (BitVec.ofFin b) = true → BitVec.ofFin b = 0x80#8 ||| (BitVec.ofNat 8 (BitVec.ofFin b &&& 0x3F#8).toNat &&& 0x3F#8) ∧
      (BitVec.ofFin b &&& 0x3F#8).toNat < 64 := by decide +kernel
  exact ⟨_, (this b.toFin h).2, (this b.toFin h).1, rfl⟩

theorem lead2_dec (b : Byte) (h : 0xC0#8 ≤ b ∧ b < 0xE0#8) : ∃ n < 32, b = 0xC0#8 ||| BitVec.ofNat 8 n ∧ (b &&& 0x1F#8).toNat = n := by
  have : ∀ b : Fin 256, 0xC0#8 ≤ BitVec.ofFin b ∧ BitVec.ofFin b < 0xE0#8 → BitVec.ofFin b = 0xC0#8 ||| BitVec.ofNat 8 (BitVec.ofFin b &&& 0x1F#8).toNat ∧
      (BitVec.ofFin b &&& 0x1F#8).toNat < 32 := by decide +kernel
  exact ⟨_, (this b.toFin h).2, (this b.toFin h).1, rfl⟩

theorem lead3_dec (b : Byte) (h : 0xE0#8 ≤ b ∧ b < 0xF0#8) : ∃ n < 16, b = 0xE0#8 ||| BitVec.ofNat 8 n ∧ (b &&& 0x0F#8).toNat = n := by
  have : ∀ b : Fin 256, 0xE0#8 ≤ BitVec.ofFin b ∧ BitVec.ofFin b < 0xF0#8 → BitVec.ofFin b = 0xE0#8 ||| BitVec.ofNat 8 (BitVec.ofFin b &&& 0x0F#8).toNat ∧
      (BitVec.ofFin b &&& 0x0F#8).toNat < 16 := by decide +kernel
  exact ⟨_, (this b.toFin h).2, (this b.toFin h).1, rfl⟩

theorem lead4_dec (b : Byte) (h : 0xF0#8 ≤ b ∧ b < 0xF8#8) : ∃ n < 8, b = 0xF0#8 ||| BitVec.ofNat 8 n ∧ (b &&& 0x07#8).toNat = n := by
  have : ∀ b : Fin 256, 0xF0#8 ≤ BitVec.ofFin b ∧ BitVec.ofFin b < 0xF8#8 → BitVec.ofFin b = 0xF0#8 ||| BitVec.ofNat 8 (BitVec.ofFin b &&& 0x07#8).toNat ∧
      (BitVec.ofFin b &&& 0x07#8).toNat < 8 := by decide +kernel
  exact ⟨_, (this b.toFin h).2, (this b.toFin h).1, rfl⟩

theorem cont_mod (m n : Nat) (h : m % 64 = n % 64) : 0x80#8 ||| (BitVec.ofNat 8 m &&& 0x3F#8) = 0x80#8 ||| (BitVec.ofNat 8 n &&& 0x3F#8) := by
  have e : ∀ n, BitVec.ofNat 8 n &&& 0x3F#8 = BitVec.ofNat 8 (n % 64) := fun n => by
    apply BitVec.eq_of_toNat_eq
    rw [BitVec.toNat_and, BitVec.toNat_ofNat, BitVec.toNat_ofNat, BitVec.toNat_ofNat, show 0x3F % 2 ^ 8 = 2 ^ 6 - 1 from rfl, Nat.and_two_pow_sub_one_eq_mod]
    omega
  rw [e, e, h]

theorem decode_cases (l : List Byte) :
    decodeRune l = badRune ∨ ∃ r rest, ValidRune r ∧ l = encodeRune r ++ rest ∧ decodeRune l = (r, (encodeRune r).length) := by
  by_cases hb : decodeRune l = badRune
  · exact Or.inl hb
  refine Or.inr ?_
  suffices h : ∃ r rest, ValidRune r ∧ l = encodeRune r ++ rest by
    obtain ⟨r, rest, h1, h2⟩ := h
    exact ⟨r, rest, h1, h2, by rw [h2]; exact (decode_encode r h1 rest).1⟩
  have hv := decodeRune_valid l
  refine ⟨(decodeRune l).1, l.drop (decodeRune l).2, hv, ?_⟩
  unfold decodeRune at hb hv ⊢
  split at hb
  · exact absurd rfl hb
  rename_i s0 s
  simp only [] at hv ⊢
  by_cases h1 : s0 < 0x80#8
  · rw [if_pos h1]
    rw [BitVec.lt_def] at h1
    simp at h1
    unfold encodeRune
    rw [if_pos (by show s0.toNat ≤ _; omega)]
    simp
  rw [if_neg h1] at hb hv ⊢
  by_cases h2 : 0xC0#8 ≤ s0 ∧ s0 < 0xE0#8
  · rw [if_pos h2] at hb hv ⊢
    split at hb
    · rename_i s1 s
      simp only [] at hb hv ⊢
      split at hb
      · rename_i hc
        rw [if_pos hc]
        obtain ⟨a, a1, a2, a3⟩ := lead2_dec s0 h2
        obtain ⟨b, b1, b2, b3⟩ := cont_dec s1 hc.1
        rw [a3, b3, or_lt6 _ _ b1] at hc ⊢
        have h7 := hc.2
        simp only []
        unfold encodeRune
        rw [if_neg (by omega), if_pos (by omega), Nat.shiftRight_eq_div_pow, show (a * 64 + b) / 2 ^ 6 = a by omega, ← a2,
          cont_mod (a * 64 + b) b (by omega), ← b2]
        rfl
      · exact absurd rfl hb
    · exact absurd rfl hb
  rw [if_neg h2] at hb hv ⊢
  by_cases h3 : 0xE0#8 ≤ s0 ∧ s0 < 0xF0#8
  · rw [if_pos h3] at hb hv ⊢
    split at hb
    · rename_i s1 s2 s
      simp only [] at hb hv ⊢
      split at hb
      · rename_i hc
        rw [if_pos hc]
        obtain ⟨a, a1, a2, a3⟩ := lead3_dec s0 h3
        obtain ⟨b, b1, b2, b3⟩ := cont_dec s1 hc.1
        obtain ⟨c, c1, c2, c3⟩ := cont_dec s2 hc.2.1
        rw [a3, b3, c3, Nat.or_assoc, or_lt6 _ _ c1, or_lt12 _ _ (by omega)] at hc ⊢
        have h7 := hc.2.2
        simp only []
        unfold encodeRune
        have h8 : ¬ (0x10FFFF < a * 4096 + (b * 64 + c) ∨ (0xD800 ≤ a * 4096 + (b * 64 + c) ∧ a * 4096 + (b * 64 + c) ≤ 0xDFFF)) := by omega
        simp only [if_neg h8]
        rw [if_neg (by omega), if_neg (by omega), if_pos (by omega), Nat.shiftRight_eq_div_pow, Nat.shiftRight_eq_div_pow,
          show (a * 4096 + (b * 64 + c)) / 2 ^ 12 = a by omega, ← a2, cont_mod ((a * 4096 + (b * 64 + c)) / 2 ^ 6) b (by omega), ← b2,
          cont_mod (a * 4096 + (b * 64 + c)) c (by omega), ← c2]
        rfl
      · exact absurd rfl hb
    · exact absurd rfl hb
  rw [if_neg h3] at hb hv ⊢
  by_cases h4 : 0xF0#8 ≤ s0 ∧ s0 < 0xF8#8
  · rw [if_pos h4] at hb hv ⊢
    split at hb
    · rename_i s1 s2 s3 s
      simp only [] at hb hv ⊢
      split at hb
      · rename_i hc
        rw [if_pos hc]
        obtain ⟨a, a1, a2, a3⟩ := lead4_dec s0 h4
        obtain ⟨b, b1, b2, b3⟩ := cont_dec s1 hc.1
        obtain ⟨c, c1, c2, c3⟩ := cont_dec s2 hc.2.1
        obtain ⟨d, d1, d2, d3⟩ := cont_dec s3 hc.2.2.1
        rw [a3, b3, c3, d3, Nat.or_assoc, Nat.or_assoc, or_lt6 _ _ d1, or_lt12 _ _ (by omega), or_lt18 _ _ (by omega)] at hc ⊢
        have h7 := hc.2.2.2
        simp only []
        unfold encodeRune
        have h8 : ¬ (0x10FFFF < a * 262144 + (b * 4096 + (c * 64 + d)) ∨ (0xD800 ≤ a * 262144 + (b * 4096 + (c * 64 + d)) ∧
            a * 262144 + (b * 4096 + (c * 64 + d)) ≤ 0xDFFF)) := by omega
        simp only [if_neg h8]
        rw [if_neg (by omega), if_neg (by omega), if_neg (by omega), Nat.shiftRight_eq_div_pow, Nat.shiftRight_eq_div_pow,
          Nat.shiftRight_eq_div_pow,
          show (a * 262144 + (b * 4096 + (c * 64 + d))) / 2 ^ 18 = a by omega, ← a2,
          cont_mod ((a * 262144 + (b * 4096 + (c * 64 + d))) / 2 ^ 12) b (by omega), ← b2,
          cont_mod ((a * 262144 + (b * 4096 + (c * 64 + d))) / 2 ^ 6) c (by omega), ← c2,
          cont_mod (a * 262144 + (b * 4096 + (c * 64 + d))) d (by omega), ← d2]
        rfl
      · exact absurd rfl hb
    · exact absurd rfl hb
  · rw [if_neg h4] at hb
    exact absurd rfl hb

theorem runes_cons (b : Byte) (s : List Byte) :
    runes (b :: s) = (decodeRune (b :: s)).1 :: runes ((b :: s).drop (decodeRune (b :: s)).2) := by
  rw [runes, List.length_cons, runesAux]
  refine congrArg _ (runesAux_fuel _ _ _ ?_ (Nat.le_refl _))
  have := decodeRune_pos (b :: s)
  rw [List.length_drop, List.length_cons]
  omega

theorem char_of_valid (r : Nat) (h : ValidRune r) : ∃ c : Char, c.toNat = r := by
  have hv : r.isValidChar := by
    unfold ValidRune at h
    unfold Nat.isValidChar
    omega
  exact ⟨Char.ofNatAux r hv, rfl⟩

/-- C28, the runes of an alphabet: where the UTF-8 encoding of a character begins, that character's code point (no two encodings begin at
the same place, `C28_runes_unique`), and where none begins, U+FFFD, for one byte, and on with the next byte. -/
theorem C28_runes (b : Byte) (s : List Byte) :
    (∀ (c : Char) rest, b :: s = (String.utf8EncodeChar c).map UInt8.toBitVec ++ rest → runes (b :: s) = c.toNat :: runes rest) ∧
      ((∀ (c : Char) rest, b :: s ≠ (String.utf8EncodeChar c).map UInt8.toBitVec ++ rest) → runes (b :: s) = 0xFFFD :: runes s) := by
  constructor
  · intro c rest h
    rw [← encodeRune_char] at h
    rw [runes_cons, h, (decode_encode _ (validRune_char c) rest).1]
    simp
  · intro h
    rcases decode_cases (b :: s) with hb | ⟨r, rest, h1, h2, -⟩
    · rw [runes_cons, hb]
      rfl
    · obtain ⟨c, rfl⟩ := char_of_valid r h1
      rw [encodeRune_char] at h2
      exact absurd h2 (h c rest)

theorem C28_runes_unique (c c' : Char) (rest rest' : List Byte)
    (e : (String.utf8EncodeChar c).map UInt8.toBitVec ++ rest = (String.utf8EncodeChar c').map UInt8.toBitVec ++ rest') : c = c' ∧ rest = rest' := by
  rw [← encodeRune_char, ← encodeRune_char] at e
  have h1 := decode_encode _ (validRune_char c) rest
  have h2 := decode_encode _ (validRune_char c') rest'
  rw [e, h2.1, Prod.mk.injEq] at h1
  have := toNat_injective h1.1.1
  subst this
  exact ⟨rfl, List.append_cancel_left e⟩

/-- A byte that can begin no code point. -/
example : runes (0x80#8 :: utf8 "aé") = [0xFFFD, 97, 233] := by decide +kernel
/-- A truncated encoding in front of a letter: one U+FFFD for each byte. -/
example : runes [0xE2#8, 0x82#8, 0x61#8] = [0xFFFD, 0xFFFD, 0x61] := by decide +kernel

/-- C28: the alphabet "\x80\x80\x80" is the same as three times U+FFFD: `RandString` returns only U+FFFD. -/
theorem C28_invalid (k : Nat) : runes (List.replicate k 0x80#8) = List.replicate k 0xFFFD := by
  induction k with
  | zero => rfl
  | succ k ih =>
    rw [List.replicate_succ, List.replicate_succ, runes_cons, show decodeRune (0x80#8 :: List.replicate k 0x80#8) = badRune by
      unfold decodeRune
      simp only []
      rw [if_neg (by decide), if_neg (by decide), if_neg (by decide), if_neg (by decide)], ← ih]
    rfl

end Crazy
