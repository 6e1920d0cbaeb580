/-
C103: what the bits of SelectCompose tell about those of its parts.
-/
import Verif.Spec.Select
import Verif.Props.Compose2
namespace Crazy

/-- The bytes with bit `j` of the one at place `m` turned over. -/
def turn (m j : Nat) (t : List Byte) : List Byte := t.modify m (· ^^^ (1#8 <<< j))

theorem turn_length (m j : Nat) (t : List Byte) : (turn m j t).length = t.length := by
  simp [turn]

theorem turn_turn (m j : Nat) (t : List Byte) : turn m j (turn m j t) = t := by
  apply List.ext_getElem?
  intro i
  simp only [turn, List.getElem?_modify]
  cases t[i]? with
  | none => rfl
  | some x => by_cases h : m = i <;> simp [h, BitVec.xor_assoc]

theorem bit_turn (m j : Nat) (hj : j < 8) (t : List Byte) (hm : m < t.length) : bitOf m j (turn m j t) = !bitOf m j t := by
  simp only [bitOf, turn, List.getElem?_modify, List.getElem?_eq_getElem hm]
  simp [hj]

theorem bit_turn_ne (m m' j : Nat) (h : m' ≠ m) (t : List Byte) : bitOf m j (turn m' j t) = bitOf m j t := by
  simp only [bitOf, turn, List.getElem?_modify]
  cases t[m]? with
  | none => rfl
  | some x => simp [h]

/-- In strings of `N` bytes three bits at different places take each of the eight values equally often. -/
theorem three_bits (N j m1 m2 m3 : Nat) (hj : j < 8) (h1 : m1 < N) (h2 : m2 < N) (h3 : m3 < N) (h12 : m1 ≠ m2) (h13 : m1 ≠ m3) (h23 : m2 ≠ m3)
    (u v w : Bool) : 8 * Nat.card {t : List Byte // t.length = N ∧ (bitOf m1 j t = u ∧ bitOf m2 j t = v ∧ bitOf m3 j t = w)} = 256 ^ N := by
  have fin : Finite {b : List Byte // b.length = N} := (Nat.finite_of_card_ne_zero (by
    rw [card_bytes]; exact (Nat.pow_pos (by decide)).ne'))
  have f1 : ∀ u v w : Bool, Nat.card {t : List Byte // t.length = N ∧ (bitOf m1 j t = u ∧ bitOf m2 j t = v ∧ bitOf m3 j t = w)} =
      Nat.card {t : List Byte // t.length = N ∧ (bitOf m1 j t = !u ∧ bitOf m2 j t = v ∧ bitOf m3 j t = w)} := by
    intro u v w
    refine Nat.card_congr ⟨fun t => ⟨turn m1 j t.1, ?_, ?_⟩, fun t => ⟨turn m1 j t.1, ?_, ?_⟩, fun t => Subtype.ext (turn_turn _ _ _),
      fun t => Subtype.ext (turn_turn _ _ _)⟩
    · rw [turn_length, t.2.1]
    · rw [bit_turn _ _ hj _ (by rw [t.2.1]; exact h1), bit_turn_ne _ _ _ h12, bit_turn_ne _ _ _ h13]
      exact ⟨congrArg _ t.2.2.1, t.2.2.2⟩
    · rw [turn_length, t.2.1]
    · rw [bit_turn _ _ hj _ (by rw [t.2.1]; exact h1), bit_turn_ne _ _ _ h12, bit_turn_ne _ _ _ h13]
      exact ⟨by rw [t.2.2.1, Bool.not_not], t.2.2.2⟩
  have f2 : ∀ u v w : Bool, Nat.card {t : List Byte // t.length = N ∧ (bitOf m1 j t = u ∧ bitOf m2 j t = v ∧ bitOf m3 j t = w)} =
      Nat.card {t : List Byte // t.length = N ∧ (bitOf m1 j t = u ∧ bitOf m2 j t = !v ∧ bitOf m3 j t = w)} := by
    intro u v w
    refine Nat.card_congr ⟨fun t => ⟨turn m2 j t.1, ?_, ?_⟩, fun t => ⟨turn m2 j t.1, ?_, ?_⟩, fun t => Subtype.ext (turn_turn _ _ _),
      fun t => Subtype.ext (turn_turn _ _ _)⟩
    · rw [turn_length, t.2.1]
    · rw [bit_turn _ _ hj _ (by rw [t.2.1]; exact h2), bit_turn_ne _ _ _ h12.symm, bit_turn_ne _ _ _ h23]
      exact ⟨t.2.2.1, congrArg _ t.2.2.2.1, t.2.2.2.2⟩
    · rw [turn_length, t.2.1]
    · rw [bit_turn _ _ hj _ (by rw [t.2.1]; exact h2), bit_turn_ne _ _ _ h12.symm, bit_turn_ne _ _ _ h23]
      exact ⟨t.2.2.1, by rw [t.2.2.2.1, Bool.not_not], t.2.2.2.2⟩
  have f3 : ∀ u v w : Bool, Nat.card {t : List Byte // t.length = N ∧ (bitOf m1 j t = u ∧ bitOf m2 j t = v ∧ bitOf m3 j t = w)} =
      Nat.card {t : List Byte // t.length = N ∧ (bitOf m1 j t = u ∧ bitOf m2 j t = v ∧ bitOf m3 j t = !w)} := by
    intro u v w
    refine Nat.card_congr ⟨fun t => ⟨turn m3 j t.1, ?_, ?_⟩, fun t => ⟨turn m3 j t.1, ?_, ?_⟩, fun t => Subtype.ext (turn_turn _ _ _),
      fun t => Subtype.ext (turn_turn _ _ _)⟩
    · rw [turn_length, t.2.1]
    · rw [bit_turn _ _ hj _ (by rw [t.2.1]; exact h3), bit_turn_ne _ _ _ h13.symm, bit_turn_ne _ _ _ h23.symm]
      exact ⟨t.2.2.1, t.2.2.2.1, congrArg _ t.2.2.2.2⟩
    · rw [turn_length, t.2.1]
    · rw [bit_turn _ _ hj _ (by rw [t.2.1]; exact h3), bit_turn_ne _ _ _ h13.symm, bit_turn_ne _ _ _ h23.symm]
      exact ⟨t.2.2.1, t.2.2.2.1, by rw [t.2.2.2.2, Bool.not_not]⟩
  have all : ∀ x : Bool × Bool × Bool, Nat.card {t : List Byte // t.length = N ∧ (bitOf m1 j t = x.1 ∧ bitOf m2 j t = x.2.1 ∧ bitOf m3 j t = x.2.2)} =
      Nat.card {t : List Byte // t.length = N ∧ (bitOf m1 j t = u ∧ bitOf m2 j t = v ∧ bitOf m3 j t = w)} := by
    rintro ⟨a, b, c⟩
    have g1 : ∀ a a' b c, Nat.card {t : List Byte // t.length = N ∧ (bitOf m1 j t = a ∧ bitOf m2 j t = b ∧ bitOf m3 j t = c)} =
        Nat.card {t : List Byte // t.length = N ∧ (bitOf m1 j t = a' ∧ bitOf m2 j t = b ∧ bitOf m3 j t = c)} := fun a a' b c => by
      by_cases h : a = a'
      · rw [h]
      · rw [f1 a, show (!a) = a' by revert h; cases a <;> cases a' <;> simp]
    have g2 : ∀ a b b' c, Nat.card {t : List Byte // t.length = N ∧ (bitOf m1 j t = a ∧ bitOf m2 j t = b ∧ bitOf m3 j t = c)} =
        Nat.card {t : List Byte // t.length = N ∧ (bitOf m1 j t = a ∧ bitOf m2 j t = b' ∧ bitOf m3 j t = c)} := fun a b b' c => by
      by_cases h : b = b'
      · rw [h]
      · rw [f2 a b, show (!b) = b' by revert h; cases b <;> cases b' <;> simp]
    have g3 : ∀ a b c c', Nat.card {t : List Byte // t.length = N ∧ (bitOf m1 j t = a ∧ bitOf m2 j t = b ∧ bitOf m3 j t = c)} =
        Nat.card {t : List Byte // t.length = N ∧ (bitOf m1 j t = a ∧ bitOf m2 j t = b ∧ bitOf m3 j t = c')} := fun a b c c' => by
      by_cases h : c = c'
      · rw [h]
      · rw [f3 a b c, show (!c) = c' by revert h; cases c <;> cases c' <;> simp]
    exact (g1 a u b c).trans ((g2 u b v c).trans (g3 u v c w))
  have e : {t : List Byte // t.length = N} ≃
      (Σ x : Bool × Bool × Bool, {t : List Byte // t.length = N ∧ (bitOf m1 j t = x.1 ∧ bitOf m2 j t = x.2.1 ∧ bitOf m3 j t = x.2.2)}) :=
    ⟨fun t => ⟨(bitOf m1 j t.1, bitOf m2 j t.1, bitOf m3 j t.1), ⟨t.1, t.2, rfl, rfl, rfl⟩⟩, fun x => ⟨x.2.1, x.2.2.1⟩, fun _ => rfl, by
      rintro ⟨x, ⟨t, ht, hx⟩⟩
      obtain rfl : x = (bitOf m1 j t, bitOf m2 j t, bitOf m3 j t) := Prod.ext hx.1.symm (Prod.ext hx.2.1.symm hx.2.2.symm)
      rfl⟩
  have fs : ∀ x : Bool × Bool × Bool, Finite {t : List Byte // t.length = N ∧ (bitOf m1 j t = x.1 ∧ bitOf m2 j t = x.2.1 ∧ bitOf m3 j t = x.2.2)} :=
    fun x => Finite.of_injective (β := {b : List Byte // b.length = N}) (fun t => ⟨t.1, t.2.1⟩) fun a b h => Subtype.ext (Subtype.mk.inj h)
  rw [← card_bytes N, Nat.card_congr e, Nat.card_sigma, Finset.sum_congr rfl fun x _ => all x, Finset.sum_const, Finset.card_univ]
  rfl

/-- How often what is made of three bits holds. -/
theorem three_bits_count (N j m1 m2 m3 : Nat) (hj : j < 8) (h1 : m1 < N) (h2 : m2 < N) (h3 : m3 < N) (h12 : m1 ≠ m2) (h13 : m1 ≠ m3) (h23 : m2 ≠ m3)
    (f : Bool → Bool → Bool → Bool) : 8 * Nat.card {t : List Byte // t.length = N ∧ f (bitOf m1 j t) (bitOf m2 j t) (bitOf m3 j t) = true} =
      (Finset.univ.filter fun x : Bool × Bool × Bool => f x.1 x.2.1 x.2.2 = true).card * 256 ^ N := by
  classical
  have e : {t : List Byte // t.length = N ∧ f (bitOf m1 j t) (bitOf m2 j t) (bitOf m3 j t) = true} ≃
      (Σ x : {x : Bool × Bool × Bool // f x.1 x.2.1 x.2.2 = true},
        {t : List Byte // t.length = N ∧ (bitOf m1 j t = x.1.1 ∧ bitOf m2 j t = x.1.2.1 ∧ bitOf m3 j t = x.1.2.2)}) :=
    ⟨fun t => ⟨⟨(bitOf m1 j t.1, bitOf m2 j t.1, bitOf m3 j t.1), t.2.2⟩, ⟨t.1, t.2.1, rfl, rfl, rfl⟩⟩,
      fun x => ⟨x.2.1, x.2.2.1, by rw [x.2.2.2.1, x.2.2.2.2.1, x.2.2.2.2.2]; exact x.1.2⟩, fun _ => rfl, by
      rintro ⟨⟨x, hf⟩, ⟨t, ht, hx⟩⟩
      obtain rfl : x = (bitOf m1 j t, bitOf m2 j t, bitOf m3 j t) := Prod.ext hx.1.symm (Prod.ext hx.2.1.symm hx.2.2.symm)
      rfl⟩
  have fin : Finite {b : List Byte // b.length = N} := (Nat.finite_of_card_ne_zero (by
    rw [card_bytes]; exact (Nat.pow_pos (by decide)).ne'))
  have fs : ∀ x : {x : Bool × Bool × Bool // f x.1 x.2.1 x.2.2 = true},
      Finite {t : List Byte // t.length = N ∧ (bitOf m1 j t = x.1.1 ∧ bitOf m2 j t = x.1.2.1 ∧ bitOf m3 j t = x.1.2.2)} :=
    fun x => Finite.of_injective (β := {b : List Byte // b.length = N}) (fun t => ⟨t.1, t.2.1⟩) fun a b h => Subtype.ext (Subtype.mk.inj h)
  rw [Nat.card_congr e, Nat.card_sigma, Finset.mul_sum,
    Finset.sum_congr rfl fun x _ => three_bits N j m1 m2 m3 hj h1 h2 h3 h12 h13 h23 x.1.1 x.1.2.1 x.1.2.2, Finset.sum_const, Finset.card_univ,
    Fintype.card_subtype]
  rfl

/-- The bit that SelectCompose makes of the tape of `S`, `A` and `B`. -/
theorem select_bitOf (n i j : Nat) (hi : i < n) (p t : List Byte) (hp : p.length = n) (ht : t.length = 3 * n) :
    ∃ out, selectCompose byteTape byteTape byteTape p t = .ok (⟨out, n, none⟩, []) ∧
      bitOf i j out = if bitOf i j t then bitOf (2 * n + i) j t else bitOf (n + i) j t := by
  have l1 : (t.take n).length = p.length := by rw [List.length_take]; omega
  have l2 : ((t.drop n).take n).length = p.length := by rw [List.length_take, List.length_drop]; omega
  have l3 : (t.drop (n + n)).length = p.length := by rw [List.length_drop]; omega
  have e := selectCompose_tape p (t.take n) ((t.drop n).take n) (t.drop (n + n)) [] l1 l2 l3
  rw [List.append_nil, ← List.drop_drop, List.take_append_drop, List.take_append_drop, hp] at e
  refine ⟨_, e, ?_⟩
  have g := selL_get (t.take n) ((t.drop n).take n) ((t.drop n).drop n) i (by omega) (by omega) (by rw [List.drop_drop]; omega)
  have g1 : t[i]? = some t[i] := List.getElem?_eq_getElem (by omega)
  have g2 : t[n + i]? = some t[n + i] := List.getElem?_eq_getElem (by omega)
  have g3 : t[2 * n + i]? = some t[2 * n + i] := List.getElem?_eq_getElem (by omega)
  simp only [bitOf, g, g1, g2, g3, Option.getD_some, List.getElem_take, List.getElem_drop, selB, BitVec.getLsbD_xor, BitVec.getLsbD_and,
    show n + (n + i) = 2 * n + i by omega]
  cases (t[i]).getLsbD j <;> cases (t[n + i]).getLsbD j <;> cases (t[2 * n + i]).getLsbD j <;> rfl

section
variable (n i j : Nat) (hi : i < n) (hj : j < 8) (p : List Byte) (hp : p.length = n)
include hi hj hp

theorem select_agree (f : Bool → Bool → Bool → Bool) (m : Nat) (hf : ∀ t : List Byte, t.length = 3 * n →
      ((if bitOf i j t then bitOf (2 * n + i) j t else bitOf (n + i) j t) = bitOf m j t ↔ f (bitOf i j t) (bitOf (n + i) j t) (bitOf (2 * n + i) j t) = true)) :
    8 * countBytes (3 * n) (fun t => ∃ out, selectCompose byteTape byteTape byteTape p t = .ok (⟨out, n, none⟩, []) ∧ bitOf i j out = bitOf m j t) =
      (Finset.univ.filter fun x : Bool × Bool × Bool => f x.1 x.2.1 x.2.2 = true).card * 256 ^ (3 * n) := by
  rw [← three_bits_count (3 * n) j i (n + i) (2 * n + i) hj (by omega) (by omega) (by omega) (by omega) (by omega) (by omega) f, countBytes]
  refine congrArg (8 * ·) (Nat.card_congr (Equiv.subtypeEquivRight fun t => ?_))
  refine and_congr_right fun ht => ?_
  obtain ⟨out, h1, h2⟩ := select_bitOf n i j hi p t hp ht
  rw [← hf t ht]
  constructor
  · rintro ⟨o, k1, k2⟩
    rw [h1, ok_buf_inj] at k1
    rw [← k2, ← k1.1, h2]
  · intro h
    exact ⟨out, h1, h2.trans h⟩

/-- C103: with ideal sources, each bit of `SelectCompose{S, A, B}` is the bit `A` delivered three times out of four. -/
theorem C103_agrees_with_A : 4 * countBytes (3 * n) (fun t => ∃ out, selectCompose byteTape byteTape byteTape p t = .ok (⟨out, n, none⟩, []) ∧
    bitOf i j out = bitOf (n + i) j t) = 3 * 256 ^ (3 * n) := by
  have := select_agree n i j hi hj p hp (fun c a b => (if c then b else a) == a) (n + i) fun t _ => by rw [beq_iff_eq]
  rw [show (Finset.univ.filter fun x : Bool × Bool × Bool => ((if x.1 then x.2.2 else x.2.1) == x.2.1) = true).card = 6 from rfl] at this
  omega

/-- C103: and the bit `B` delivered three times out of four. -/
theorem C103_agrees_with_B : 4 * countBytes (3 * n) (fun t => ∃ out, selectCompose byteTape byteTape byteTape p t = .ok (⟨out, n, none⟩, []) ∧
    bitOf i j out = bitOf (2 * n + i) j t) = 3 * 256 ^ (3 * n) := by
  have := select_agree n i j hi hj p hp (fun c a b => (if c then b else a) == b) (2 * n + i) fun t _ => by rw [beq_iff_eq]
  rw [show (Finset.univ.filter fun x : Bool × Bool × Bool => ((if x.1 then x.2.2 else x.2.1) == x.2.2) = true).card = 6 from rfl] at this
  omega

/-- C103: but the bit the switch `S` delivered only every second time, as often as not. -/
theorem C103_agrees_with_S : 2 * countBytes (3 * n) (fun t => ∃ out, selectCompose byteTape byteTape byteTape p t = .ok (⟨out, n, none⟩, []) ∧
    bitOf i j out = bitOf i j t) = 256 ^ (3 * n) := by
  have := select_agree n i j hi hj p hp (fun c a b => (if c then b else a) == c) i fun t _ => by rw [beq_iff_eq]
  rw [show (Finset.univ.filter fun x : Bool × Bool × Bool => ((if x.1 then x.2.2 else x.2.1) == x.1) = true).card = 4 from rfl] at this
  omega

end

/-- A case: the switch is `0x0f`, `A` delivers `0x12`, `B` delivers `0x34`; bit 1 of the result is not `A`'s, bit 4 is. -/
example : ∃ out, selectCompose byteTape byteTape byteTape [0#8] [0x0f#8, 0x12#8, 0x34#8] = .ok (⟨out, 1, none⟩, []) ∧
    bitOf 0 1 out ≠ bitOf (1 + 0) 1 [0x0f#8, 0x12#8, 0x34#8] ∧ bitOf 0 4 out = bitOf (1 + 0) 4 [0x0f#8, 0x12#8, 0x34#8] :=
  ⟨[0x14#8], by decide, by decide, by decide⟩

end Crazy
