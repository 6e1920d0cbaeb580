/-
C38: how the ziggurat uses the bits of a word.
-/
import Verif.Model.Distr
import Verif.Props.Uniform
namespace Crazy

variable {σ : Type}

theorem toNat_sshiftRight54 (x : U64) : (x.sshiftRight 54).toNat % 1024 = x.toNat / 2 ^ 54 := by
  have hx := x.isLt
  cases h : x.msb with
  | false =>
    rw [BitVec.sshiftRight_eq_of_msb_false h, BitVec.toNat_ushiftRight, Nat.shiftRight_eq_div_pow]
    omega
  | true =>
    rw [BitVec.sshiftRight_eq_of_msb_true h, BitVec.toNat_not, BitVec.toNat_ushiftRight, BitVec.toNat_not,
      Nat.shiftRight_eq_div_pow]
    omega

/-- C38: the layer is the number formed by the top ten bits. -/
theorem C38_layer (m : Bool) (x : U64) : (Ziggurat.split m x).1 = x.toNat / 2 ^ 54 ∧ (Ziggurat.split m x).1 < 1024 := by
  have hx := x.isLt
  have h : (Ziggurat.split m x).1 = x.toNat / 2 ^ 54 := by
    show (((x.sshiftRight 54) &&& 0x3ff#64).setWidth 16).toNat = _
    have e : (0x3ff#64).toNat = 2 ^ 10 - 1 := by decide
    rw [BitVec.toNat_setWidth, BitVec.toNat_and, e, Nat.and_two_pow_sub_one_eq_mod]
    have := toNat_sshiftRight54 x
    omega
  exact ⟨h, by rw [h]; omega⟩

/-- C38: without mirroring the offset is the number formed by the low 53 bits. -/
theorem C38_offset (x : U64) : (Ziggurat.split false x).2.toInt = (x.toNat % 2 ^ 53 : Nat) := by
  show (x &&& 0x001fffffffffffff#64).toInt = _
  have h := and_mask53 x
  rw [BitVec.toInt_eq_toNat_of_lt (by rw [h]; omega), h]

/-- C38: with mirroring the offset is the signed (two's complement) number formed by the low 54 bits. -/
theorem C38_offset_mirrored (x : U64) : (Ziggurat.split true x).2.toInt = Int.bmod x.toNat (2 ^ 54) := by
  show ((x <<< 10).sshiftRight 10).toInt = _
  rw [BitVec.toInt_sshiftRight, BitVec.toInt_shiftLeft, Int.shiftRight_eq_div_pow, Nat.shiftLeft_eq]
  unfold Int.bmod
  push_cast
  omega

theorem split_offset (m : Bool) (x : U64) :
    (Ziggurat.split m x).2.toInt = if m then Int.bmod x.toNat (2 ^ 54) else (x.toNat % 2 ^ 53 : Nat) := by
  cases m
  · rw [if_neg (by decide)]; exact C38_offset x
  · rw [if_pos rfl]; exact C38_offset_mirrored x

/-- C38: the value compared with `K` is the absolute value of the offset. -/
theorem C38_abs (j : U64) : (Ziggurat.absj j).toNat = j.toInt.natAbs := by
  have hj := j.isLt
  unfold Ziggurat.absj
  cases h : j.msb with
  | false =>
    have h0 : j.sshiftRight 63 = 0#64 := by
      rw [BitVec.sshiftRight_eq_of_msb_false h]
      apply BitVec.eq_of_toNat_eq
      rw [BitVec.toNat_ushiftRight, Nat.shiftRight_eq_div_pow]
      rw [BitVec.msb_eq_decide, decide_eq_false_iff_not] at h
      simp only [BitVec.toNat_ofNat]
      omega
    rw [h0, BitVec.toInt_eq_msb_cond, h]
    simp
  | true =>
    have hm : 2 ^ 63 ≤ j.toNat := by
      rw [BitVec.msb_eq_decide, decide_eq_true_iff] at h
      omega
    have h0 : j.sshiftRight 63 = BitVec.allOnes 64 := by
      rw [BitVec.sshiftRight_eq_of_msb_true h]
      apply BitVec.eq_of_toNat_eq
      rw [BitVec.toNat_not, BitVec.toNat_ushiftRight, BitVec.toNat_not, Nat.shiftRight_eq_div_pow, BitVec.toNat_allOnes]
      omega
    rw [h0, BitVec.xor_allOnes, BitVec.toNat_not, BitVec.toNat_add, BitVec.toNat_allOnes, BitVec.toInt_eq_msb_cond, h,
      if_pos rfl]
    omega

/-- C38: with mirroring, layer and offset determine the word, and every pair of a layer in [0, 1024) and an offset in
[-2^53, 2^53) comes from a word: the two are independent and uniform if the word is. -/
theorem C38_mirrored_bijection (i : Nat) (j : Int) (hi : i < 1024) (hj : -2 ^ 53 ≤ j) (hj' : j < 2 ^ 53) :
    ∃! x : U64, (Ziggurat.split true x).1 = i ∧ (Ziggurat.split true x).2.toInt = j := by
  have hlt : i * 2 ^ 54 + (j % 2 ^ 54).toNat < 2 ^ 64 := by omega
  have e : (BitVec.ofNat 64 (i * 2 ^ 54 + (j % 2 ^ 54).toNat)).toNat = i * 2 ^ 54 + (j % 2 ^ 54).toNat := by
    rw [BitVec.toNat_ofNat, Nat.mod_eq_of_lt hlt]
  refine ⟨BitVec.ofNat 64 (i * 2 ^ 54 + (j % 2 ^ 54).toNat), ⟨?_, ?_⟩, ?_⟩
  · rw [(C38_layer _ _).1, e]; omega
  · rw [C38_offset_mirrored, e, Int.bmod_def]; push_cast; omega
  · rintro y ⟨h1, h2⟩
    apply BitVec.eq_of_toNat_eq
    rw [e]
    rw [(C38_layer _ _).1] at h1
    rw [C38_offset_mirrored, Int.bmod_def] at h2
    push_cast at h2
    omega

/-- C38: with mirroring the offset is always in [-2^53, 2^53), without it in [0, 2^53). -/
theorem C38_offset_range (x : U64) : (-2 ^ 53 ≤ (Ziggurat.split true x).2.toInt ∧ (Ziggurat.split true x).2.toInt < 2 ^ 53) ∧
    0 ≤ (Ziggurat.split false x).2.toInt ∧ (Ziggurat.split false x).2.toInt < 2 ^ 53 := by
  rw [C38_offset_mirrored, C38_offset, Int.bmod_def]
  push_cast
  omega

theorem card_pair (a b : U64) (h : a ≠ b) : countWords (fun x => x = a ∨ x = b) = 2 := by
  unfold countWords
  rw [← Nat.card_fin 2]
  refine Nat.card_congr ⟨fun x => if x.1 = a then 0 else 1, fun k => if k = 0 then ⟨a, Or.inl rfl⟩ else ⟨b, Or.inr rfl⟩, ?_, ?_⟩
  · rintro ⟨x, rfl | rfl⟩
    · simp
    · simp [Ne.symm h]
  · intro k
    match k with
    | 0 => simp
    | 1 => simp [Ne.symm h]

/-- C38: without mirroring, every pair of a layer in [0, 1024) and an offset in [0, 2^53) comes from exactly two words. -/
theorem C38_twice (i j : Nat) (hi : i < 1024) (hj : j < 2 ^ 53) :
    countWords (fun x => (Ziggurat.split false x).1 = i ∧ (Ziggurat.split false x).2.toInt = j) = 2 := by
  have e : (fun x : U64 => (Ziggurat.split false x).1 = i ∧ (Ziggurat.split false x).2.toInt = j) =
      fun x => x = BitVec.ofNat 64 (i * 2 ^ 54 + j) ∨ x = BitVec.ofNat 64 (i * 2 ^ 54 + 2 ^ 53 + j) := by
    funext x
    have hx := x.isLt
    rw [(C38_layer _ _).1, C38_offset, ← BitVec.toNat_inj, ← BitVec.toNat_inj, BitVec.toNat_ofNat, BitVec.toNat_ofNat]
    refine propext ⟨fun h => ?_, fun h => ?_⟩ <;> omega
  have hne : BitVec.ofNat 64 (i * 2 ^ 54 + j) ≠ BitVec.ofNat 64 (i * 2 ^ 54 + 2 ^ 53 + j) := by
    rw [← BitVec.toNat_inj.ne, BitVec.toNat_ofNat, BitVec.toNat_ofNat]
    omega
  rw [e]
  exact card_pair _ _ hne

theorem RNG_uint64_tape (x : U64) (xs : List U64) : RNG.uint64 tape (x :: xs) = .ok (x, xs) := by
  unfold RNG.uint64
  simp only [tape_read, bind, Except.bind, pure, Except.pure, u64le_leNat _ (le64_length x), leNat_le64]
  rw [BitVec.ofNat_toNat, BitVec.setWidth_eq]

theorem aget_ok {n : Nat} (a : Vector U64 n) (i : Nat) (h : i < n) : aget a i = .ok (a[i]'h) := by
  unfold aget; rw [dif_pos h]

theorem fget_ok {n : Nat} (a : Vector F64 n) (i : Nat) (h : i < n) : fget a i = .ok (a[i]'h) := by
  unfold fget; rw [dif_pos h]

/-- One round of `GenNext`, after its word `x` has been read. -/
theorem genNext_step (z : Ziggurat σ) (fused : Bool) (src : Source σ) (fuel : Nat) (s s1 : σ) (x : U64)
    (h : RNG.uint64 src s = .ok (x, s1)) (i : Nat) (j : U64) (hs : Ziggurat.split z.mirrored x = (i, j)) (hi : i < 1024) :
    z.genNext fused src (fuel + 1) s =
      if j.toInt.natAbs < (z.K[i]'hi).toNat then .ok (F64.mul (F64.ofInt j.toInt) (z.W[i]'hi), s1)
      else if i ≠ 0 then (do
        let (u, s2) ← uniform01 src s1
        if F64.lt (F64.mulAdd fused u (F64.sub (z.F[i - 1]'(by omega)) (z.F[i]'hi)) (z.F[i]'hi))
            (z.pdf (F64.mul (F64.ofInt j.toInt) (z.W[i]'hi))) then
          return (F64.mul (F64.ofInt j.toInt) (z.W[i]'hi), s2)
        else z.genNext fused src fuel s2)
      else (do
        let (x, s2) ← z.tail src fuel s1
        if j.toInt < 0 then return (F64.neg x, s2) else return (x, s2)) := by
  rw [Ziggurat.genNext]
  simp only [h, bind, Except.bind, pure, Except.pure, hs, aget_ok _ _ hi, fget_ok _ _ hi, fget_ok z.F (i - 1) (by omega),
    BitVec.lt_def, C38_abs]

theorem uint64_error (src : Source σ) (s : σ) (p : Panic) (h : RNG.uint64 src s = .error p) :
    src.read (zeros 8) s = .error p := by
  cases hr : src.read (zeros 8) s with
  | ok r =>
    unfold RNG.uint64 at h
    have hl := src.len_buf _ _ _ _ hr
    rw [zeros_length] at hl
    simp only [hr, bind, Except.bind, u64le_leNat _ hl] at h
    contradiction
  | error e =>
    unfold RNG.uint64 at h
    simp only [hr, bind, Except.bind] at h
    exact congrArg Except.error (Except.error.inj h)

/-- C38: no access to a table is out of range and nothing else in `GenNext` can panic: if the source's `Read` and the
distribution's `Tail` succeed, so does `GenNext` (`fuel`: unless it is still rejecting after that many words). -/
theorem C38_no_panic (z : Ziggurat σ) (fused : Bool) (src : Source σ) (hsrc : ∀ p s, ∃ r, src.read p s = .ok r)
    (htail : ∀ fuel s, (∃ r, z.tail src fuel s = .ok r) ∨ z.tail src fuel s = .error .fuel) (fuel : Nat) (s : σ) :
    (∃ r, z.genNext fused src fuel s = .ok r) ∨ z.genNext fused src fuel s = .error .fuel := by
  induction fuel generalizing s with
  | zero => exact Or.inr rfl
  | succ fuel ih =>
    cases hx : RNG.uint64 src s with
    | error p =>
      obtain ⟨r, hr⟩ := hsrc (zeros 8) s
      rw [uint64_error src s p hx] at hr
      contradiction
    | ok r =>
      obtain ⟨⟨i, j⟩, hs⟩ : ∃ ij, Ziggurat.split z.mirrored r.1 = ij := ⟨_, rfl⟩
      have hi := (C38_layer z.mirrored r.1).2
      rw [hs] at hi
      rw [genNext_step z fused src fuel s r.2 r.1 hx i j hs hi]
      split
      · exact Or.inl ⟨_, rfl⟩
      · split
        · cases hu : uniform01 src r.2 with
          | error p =>
            obtain ⟨r', hr⟩ := hsrc (zeros 8) r.2
            rw [C36_panics src r.2 p hu] at hr
            contradiction
          | ok v =>
            simp only [bind, Except.bind, pure, Except.pure]
            split
            · exact Or.inl ⟨_, rfl⟩
            · exact ih v.2
        · rcases htail fuel r.2 with ⟨v, hv⟩ | hv
          · rw [hv]
            simp only [bind, Except.bind, pure, Except.pure]
            split <;> exact Or.inl ⟨_, rfl⟩
          · rw [hv]
            exact Or.inr rfl

/-- C38, seen from outside: when the absolute offset is below the layer's `K`, `GenNext` consumes one word and returns the
offset times the layer's `W`. -/
theorem C38_fast_path (z : Ziggurat (List U64)) (fused : Bool) (fuel : Nat) (x : U64) (xs : List U64) (i : Nat) (j : Int)
    (hi : i < 1024) (hxi : i = x.toNat / 2 ^ 54)
    (hxj : j = if z.mirrored then Int.bmod x.toNat (2 ^ 54) else (x.toNat % 2 ^ 53 : Nat)) (h : j.natAbs < z.K[i].toNat) :
    z.genNext fused tape (fuel + 1) (x :: xs) = .ok (F64.mul (F64.ofInt j) z.W[i], xs) := by
  obtain ⟨⟨i', j'⟩, hs⟩ : ∃ ij, Ziggurat.split z.mirrored x = ij := ⟨_, rfl⟩
  have hL := (C38_layer z.mirrored x).1
  have hO := split_offset z.mirrored x
  rw [hs] at hL hO
  rw [← hxi] at hL
  rw [← hxj] at hO
  simp only at hL hO
  subst hL
  rw [genNext_step z fused tape fuel _ xs x (RNG_uint64_tape x xs) i' j' hs hi, hO, if_pos h]

/-- Non-vacuity of C38: a mirrored word of layer 3 and offset -2, and one of layer 3 and offset 5. -/
example : (Ziggurat.split true 0x00fffffffffffffe#64).1 = 3 ∧ (Ziggurat.split true 0x00fffffffffffffe#64).2.toInt = -2 ∧
    (Ziggurat.split false 0x00e0000000000005#64).1 = 3 ∧ (Ziggurat.split false 0x00e0000000000005#64).2.toInt = 5 := by
  decide

end Crazy
