/-
C35, C36, C37: the uniform distributions of `distr.go`.
-/
import Verif.Model.Distr
import Verif.Proofs.Float
import Verif.Props.Big
import Verif.Props.Uintn
set_option exponentiation.threshold 2200
namespace Crazy
open F64

variable {σ : Type}

/-! ### C35 -/

theorem ofBits_one_two (x : U64) (hx : x.toNat < 2 ^ 56) :
    F64.ofBits (x ||| 0x3ff0000000000000#64) = .fin false ((2 ^ 52 + x.toNat % 2 ^ 52) * 2 ^ 1022) := by
  have h1 : (x ||| 0x3ff0000000000000#64).msb = false := by
    rw [BitVec.msb_or]
    have : x.msb = false := by rw [BitVec.msb_eq_decide]; simp; omega
    rw [this]; rfl
  have h2 : ((x ||| 0x3ff0000000000000#64) >>> 52 &&& 0x7ff#64).toNat = 1023 := by
    rw [BitVec.toNat_and, BitVec.toNat_ushiftRight, BitVec.toNat_or, Nat.shiftRight_or_distrib]
    have hy : x.toNat >>> 52 < 16 := by rw [Nat.shiftRight_eq_div_pow]; omega
    generalize x.toNat >>> 52 = y at hy
    have : ∀ y < 16, (y ||| (0x3ff0000000000000#64).toNat >>> 52) &&& (0x7ff#64).toNat = 1023 := by decide
    exact this y hy
  have h3 : ((x ||| 0x3ff0000000000000#64) &&& 0xfffffffffffff#64).toNat = x.toNat % 2 ^ 52 := by
    rw [BitVec.toNat_and, BitVec.toNat_or, Nat.and_comm, Nat.and_or_distrib_left]
    have e1 : (0xfffffffffffff#64).toNat = 2 ^ 52 - 1 := by decide
    have e2 : (0xfffffffffffff#64).toNat &&& (0x3ff0000000000000#64).toNat = 0 := by decide
    rw [e2, Nat.or_zero, e1, Nat.and_comm, Nat.and_two_pow_sub_one_eq_mod]
  unfold F64.ofBits
  simp only [h1, h2, h3]
  rw [if_neg (by decide), if_neg (by decide)]


theorem val_scaled (m a b : Nat) (h : a + b = 1074) : (F64.fin false (m * 2 ^ a)).val = (m : ℚ) / 2 ^ b := by
  show (1 : ℚ) * (((m * 2 ^ a : Nat) : ℚ) / 2 ^ 1074) = _
  rw [one_mul, ← h, Nat.cast_mul, Nat.cast_pow, pow_add, Nat.cast_ofNat, mul_comm ((2 : ℚ) ^ a)]
  exact mul_div_mul_right _ _ (by positivity)

theorem valid_scaled (neg : Bool) (m k : Nat) (hm : m < 2 ^ 53) (hk : k ≤ 2045) : (F64.fin neg (m * 2 ^ k)).Valid := by
  refine ⟨⟨m, k, hm, rfl⟩, ?_⟩
  obtain ⟨e, he⟩ : ∃ e, 2098 = e := ⟨_, rfl⟩
  rw [limit_eq e he]
  calc m * 2 ^ k < 2 ^ 53 * 2 ^ k := Nat.mul_lt_mul_of_pos_right hm (Nat.two_pow_pos k)
    _ = 2 ^ (53 + k) := (pow_add _ _ _).symm
    _ ≤ 2 ^ e := Nat.pow_le_pow_right (by decide) (by omega)

theorem uniform12_eq (src : Source σ) (s s' : σ) (r : ReadRes) (h : src.read (zeros 7) s = .ok (r, s')) :
    uniform12 src s = .ok (.fin false ((2 ^ 52 + leNat r.buf % 2 ^ 52) * 2 ^ 1022), s') := by
  have hl := src.len_buf _ _ _ _ h
  rw [zeros_length] at hl
  have hx := leNat_lt r.buf
  rw [hl] at hx
  have e0 : zeros 8 = zeros 7 ++ [0#8] := rfl
  have e1 : u64le (r.buf ++ [0#8]) = .ok (BitVec.ofNat 64 (leNat r.buf)) := by
    rw [u64le_leNat _ (by simp [hl]), leNat_append]
    simp [leNat]
  have e2 : (BitVec.ofNat 64 (leNat r.buf)).toNat = leNat r.buf := by
    rw [BitVec.toNat_ofNat, Nat.mod_eq_of_lt (by omega)]
  unfold uniform12
  show (do
    let (r, s) ← src.read (zeros 7) s
    let b := r.buf ++ [0#8]
    return (F64.ofBits ((← u64le b) ||| 0x3ff0000000000000#64), s) : Go (F64 × σ)) = _
  rw [h]
  simp only [bind, Except.bind, pure, Except.pure, e1]
  rw [ofBits_one_two _ (by rw [e2]; omega), e2]

theorem uniform12_error (src : Source σ) (s : σ) (e : Panic) (h : src.read (zeros 7) s = .error e) :
    uniform12 src s = .error e := by
  unfold uniform12
  show (do
    let (r, s) ← src.read (zeros 7) s
    let b := r.buf ++ [0#8]
    return (F64.ofBits ((← u64le b) ||| 0x3ff0000000000000#64), s) : Go (F64 × σ)) = _
  rw [h]
  rfl

/-- C35: `Uniform1_2.Next` makes one `Read` of seven zeroed bytes and returns exactly `1 + m / 2^52`, where `m` is the
number that the low 52 bits of the buffer denote (little-endian), whatever count and error the source reports. -/
theorem C35_value (src : Source σ) (s s' : σ) (r : ReadRes) (h : src.read (zeros 7) s = .ok (r, s')) :
    ∃ x, uniform12 src s = .ok (x, s') ∧ x.Valid ∧ x.IsFin ∧ x.val = 1 + ((leNat r.buf % 2 ^ 52 : Nat) : ℚ) / 2 ^ 52 := by
  have hm : leNat r.buf % 2 ^ 52 < 2 ^ 52 := Nat.mod_lt _ (by decide)
  refine ⟨_, uniform12_eq src s s' r h, valid_scaled _ _ _ (by omega) (by decide), trivial, ?_⟩
  rw [val_scaled _ 1022 52 rfl, Nat.cast_add, add_div]
  norm_num

/-- C35: it fails only if the source's `Read` does. -/
theorem C35_panics (src : Source σ) (s : σ) (p : Panic) (h : uniform12 src s = .error p) :
    src.read (zeros 7) s = .error p := by
  cases hr : src.read (zeros 7) s with
  | ok r => rw [uniform12_eq src s r.2 r.1 hr] at h; contradiction
  | error e =>
    rw [uniform12_error src s e hr] at h
    exact congrArg Except.error (Except.error.inj h)

/-- C35: the values returned lie in [1, 2). -/
theorem C35_range (src : Source σ) (s s' : σ) (x : F64) (h : uniform12 src s = .ok (x, s')) :
    x.IsFin ∧ 1 ≤ x.val ∧ x.val < 2 := by
  cases hr : src.read (zeros 7) s with
  | error e =>
    rw [uniform12_error src s e hr] at h
    contradiction
  | ok r =>
    obtain ⟨y, h1, -, h2, h3⟩ := C35_value src s r.2 r.1 hr
    rw [h1, Except.ok.injEq, Prod.mk.injEq] at h
    rw [← h.1, h3]
    have hm : leNat r.1.buf % 2 ^ 52 < 2 ^ 52 := Nat.mod_lt _ (by decide)
    have hm' : ((leNat r.1.buf % 2 ^ 52 : Nat) : ℚ) < 2 ^ 52 := by exact_mod_cast hm
    refine ⟨h2, ?_, ?_⟩
    · have : (0 : ℚ) ≤ ((leNat r.1.buf % 2 ^ 52 : Nat) : ℚ) / 2 ^ 52 := by positivity
      linarith
    · have : ((leNat r.1.buf % 2 ^ 52 : Nat) : ℚ) / 2 ^ 52 < 1 := by rw [div_lt_one (by positivity)]; exact hm'
      linarith

theorem leNat_reverse (b : List Byte) : leNat b.reverse = RNG.setBytes b := by
  induction b with
  | nil => rfl
  | cons v b ih =>
    rw [List.reverse_cons, leNat_append, ih, RNG.setBytes_cons, List.length_reverse, leNat, leNat]
    ring

theorem countBytes_leNat_mod (n k v : Nat) (hk : k ≤ 8 * n) (hv : v < 2 ^ k) :
    countBytes n (fun b => leNat b % 2 ^ k = v) = 2 ^ (8 * n - k) := by
  rw [← countBytes_mod n k v hk hv]
  unfold countBytes
  refine Nat.card_congr ⟨fun b => ⟨b.1.reverse, ?_⟩, fun b => ⟨b.1.reverse, ?_⟩, ?_, ?_⟩
  · refine ⟨by rw [List.length_reverse]; exact b.2.1, ?_⟩
    show RNG.setBytes b.1.reverse % 2 ^ k = v
    rw [← leNat_reverse, List.reverse_reverse]; exact b.2.2
  · refine ⟨by rw [List.length_reverse]; exact b.2.1, ?_⟩
    show leNat b.1.reverse % 2 ^ k = v
    rw [leNat_reverse]; exact b.2.2
  · intro b; exact Subtype.ext (List.reverse_reverse _)
  · intro b; exact Subtype.ext (List.reverse_reverse _)

/-- C35: each of the 2^52 values `1 + m / 2^52` is returned for exactly 16 of the 2^56 strings of seven bytes. -/
theorem C35_even (m : Nat) (hm : m < 2 ^ 52) :
    countBytes 7 (fun b => ∃ x, uniform12 byteTape b = .ok (x, []) ∧ x.val = 1 + (m : ℚ) / 2 ^ 52) = 16 := by
  rw [show 16 = 2 ^ (8 * 7 - 52) by decide, ← countBytes_leNat_mod 7 52 m (by decide) hm]
  refine countBytes_congr _ _ _ fun b hb => ?_
  obtain ⟨x, h1, -, -, h3⟩ := C35_value byteTape b [] _ (byteTape_read 7 b hb)
  simp only at h3
  constructor
  · rintro ⟨y, h4, h5⟩
    rw [h1, Except.ok.injEq, Prod.mk.injEq] at h4
    rw [← h4.1, h3, add_right_inj, div_left_inj' (by positivity)] at h5
    exact_mod_cast h5
  · intro h
    exact ⟨x, h1, by rw [h3, h]⟩

/-- Non-vacuity of C35: a source that delivers seven bytes. -/
example : byteTape.read (zeros 7) [1, 2, 3, 4, 5, 6, 7] = .ok (⟨[1, 2, 3, 4, 5, 6, 7], 7, none⟩, []) :=
  byteTape_read 7 _ rfl

/-! ### C36 -/

theorem one_pos : 0 < F64.one := Nat.two_pow_pos _

theorem ofNat_exact (m : Nat) (hm : m < 2 ^ 53) : F64.ofNat m = .fin false (m * 2 ^ 1074) := by
  have := rnd_exact false (m * 2 ^ 1074) 1 (by decide) (valid_scaled _ _ _ hm (by decide))
  rw [Nat.mul_one] at this
  exact this

theorem const_2_53 : F64.ofDec 111022302462515654042 36 = .fin false (2 ^ 1021) := by decide +kernel

theorem mul_2_53 (m : Nat) (hm : m < 2 ^ 53) :
    F64.mul (F64.fin false (m * 2 ^ 1074)) (F64.fin false (2 ^ 1021)) = .fin false (m * 2 ^ 1021) := by
  have := rnd_exact false (m * 2 ^ 1021) F64.one one_pos (valid_scaled _ _ _ hm (by decide))
  rw [← this]
  show F64.rnd (false ^^ false) (m * 2 ^ 1074 * 2 ^ 1021) F64.one = _
  rw [Nat.mul_right_comm]
  rfl

theorem and_mask53 (x : U64) : (x &&& 0x1fffffffffffff#64).toNat = x.toNat % 2 ^ 53 := by
  have e1 : (0x1fffffffffffff#64).toNat = 2 ^ 53 - 1 := by decide
  rw [BitVec.toNat_and, e1, Nat.and_two_pow_sub_one_eq_mod]

theorem uniform01_eq (src : Source σ) (s s' : σ) (r : ReadRes) (h : src.read (zeros 8) s = .ok (r, s')) :
    uniform01 src s = .ok (.fin false (leNat r.buf % 2 ^ 53 * 2 ^ 1021), s') := by
  have hl := src.len_buf _ _ _ _ h
  rw [zeros_length] at hl
  have hx := leNat_lt r.buf
  rw [hl] at hx
  have hm : leNat r.buf % 2 ^ 53 < 2 ^ 53 := Nat.mod_lt _ (by decide)
  unfold uniform01
  simp only [h, bind, Except.bind, pure, Except.pure, u64le_leNat _ hl, and_mask53, const_2_53]
  rw [BitVec.toNat_ofNat, Nat.mod_eq_of_lt (b := 2 ^ 64) (by omega), ofNat_exact _ hm, mul_2_53 _ hm]

/-- C36: `Uniform0_1.Next` makes one `Read` of eight zeroed bytes and returns exactly `m / 2^53`, where `m` is the number
that the low 53 bits of the buffer denote (little-endian). -/
theorem C36_value (src : Source σ) (s s' : σ) (r : ReadRes) (h : src.read (zeros 8) s = .ok (r, s')) :
    ∃ x, uniform01 src s = .ok (x, s') ∧ x.Valid ∧ x.IsFin ∧ x.val = ((leNat r.buf % 2 ^ 53 : Nat) : ℚ) / 2 ^ 53 := by
  have hm : leNat r.buf % 2 ^ 53 < 2 ^ 53 := Nat.mod_lt _ (by decide)
  refine ⟨_, uniform01_eq src s s' r h, valid_scaled _ _ _ (by omega) (by decide), trivial, ?_⟩
  rw [val_scaled _ 1021 53 rfl]

theorem uniform01_error (src : Source σ) (s : σ) (e : Panic) (h : src.read (zeros 8) s = .error e) :
    uniform01 src s = .error e := by
  unfold uniform01
  simp only [h, bind, Except.bind]

/-- C36: it fails only if the source's `Read` does. -/
theorem C36_panics (src : Source σ) (s : σ) (p : Panic) (h : uniform01 src s = .error p) :
    src.read (zeros 8) s = .error p := by
  cases hr : src.read (zeros 8) s with
  | ok r => rw [uniform01_eq src s r.2 r.1 hr] at h; contradiction
  | error e => rw [uniform01_error src s e hr] at h; exact congrArg Except.error (Except.error.inj h)

/-- C36: the values returned lie in [0, 1). -/
theorem C36_range (src : Source σ) (s s' : σ) (x : F64) (h : uniform01 src s = .ok (x, s')) :
    x.IsFin ∧ 0 ≤ x.val ∧ x.val < 1 := by
  cases hr : src.read (zeros 8) s with
  | error e => rw [uniform01_error src s e hr] at h; contradiction
  | ok r =>
    obtain ⟨y, h1, -, h2, h3⟩ := C36_value src s r.2 r.1 hr
    rw [h1, Except.ok.injEq, Prod.mk.injEq] at h
    rw [← h.1, h3]
    have hm : leNat r.1.buf % 2 ^ 53 < 2 ^ 53 := Nat.mod_lt _ (by decide)
    have hm' : ((leNat r.1.buf % 2 ^ 53 : Nat) : ℚ) < 2 ^ 53 := by exact_mod_cast hm
    exact ⟨h2, by positivity, by rw [div_lt_one (by positivity)]; exact hm'⟩

theorem tape_read (x : U64) (xs : List U64) : tape.read (zeros 8) (x :: xs) = .ok (⟨le64 x, 8, none⟩, xs) := rfl

/-- C36: each of the 2^53 values `m / 2^53` (0 among them) is returned for exactly 2^11 of the 2^64 words. -/
theorem C36_even (m : Nat) (hm : m < 2 ^ 53) :
    countWords (fun w => ∃ x, uniform01 tape [w] = .ok (x, []) ∧ x.val = (m : ℚ) / 2 ^ 53) = 2 ^ 11 := by
  have e : (fun w => ∃ x, uniform01 tape [w] = .ok (x, []) ∧ x.val = (m : ℚ) / 2 ^ 53) =
      fun w : U64 => w.toNat % 2 ^ 53 = m := by
    funext w
    obtain ⟨x, h1, -, -, h3⟩ := C36_value tape [w] [] _ (tape_read w [])
    simp only [leNat_le64] at h3
    refine propext ⟨?_, fun h => ⟨x, h1, by rw [h3, h]⟩⟩
    rintro ⟨y, h4, h5⟩
    rw [h1, Except.ok.injEq, Prod.mk.injEq] at h4
    rw [← h4.1, h3, div_left_inj' (by positivity)] at h5
    exact_mod_cast h5
  obtain ⟨N, hN⟩ : ∃ N, N = 2 ^ 64 := ⟨_, rfl⟩
  rw [e, countWords_eq N hN (fun w => w % 2 ^ 53 = m), hN, show 2 ^ 64 = 2 ^ 53 * 2 ^ 11 by decide, count_mod _ _ _ hm]

/-! ### C37 -/

theorem sub_one (f e e' : Nat) (he : e = 1022) (he' : e' = e + 52) (hf : f < 2 ^ 52) :
    F64.sub (.fin false ((2 ^ 52 + f) * 2 ^ e)) (.fin false (1 * 2 ^ e')) = .fin false (f * 2 ^ e) := by
  show F64.rndInt (false && true) (F64.sint false ((2 ^ 52 + f) * 2 ^ e) + F64.sint true (1 * 2 ^ e')) 1 = _
  have h : F64.sint false ((2 ^ 52 + f) * 2 ^ e) + F64.sint true (1 * 2 ^ e') = F64.sint false (f * 2 ^ e) * (1 : Nat) := by
    unfold F64.sint
    rw [if_neg (by decide), if_pos rfl, if_neg (by decide), he', pow_add]
    push_cast
    ring
  rw [h]
  exact rndInt_exact false _ 1 (by decide) (valid_scaled _ _ _ (by omega) (by omega))

theorem uniform_eq (fused : Bool) (low high : F64) (src : Source σ) (s s' : σ) (r : ReadRes)
    (h : src.read (zeros 7) s = .ok (r, s')) :
    uniform fused low high src s =
      .ok (F64.mulAdd fused high (.fin false (leNat r.buf % 2 ^ 52 * 2 ^ 1022)) low, s') := by
  unfold uniform
  simp only [uniform12_eq src s s' r h, bind, Except.bind, pure, Except.pure, ofNat_exact 1 (by decide)]
  rw [sub_one _ 1022 1074 rfl rfl (Nat.mod_lt _ (by decide))]

/-- C37, what `Uniform{Low, High}.Next` returns: `High*u + Low` in float arithmetic, where `u` is exactly `m / 2^52` for the
number `m` that the low 52 bits of the seven bytes read denote. -/
theorem C37_formula (fused : Bool) (low high : F64) (src : Source σ) (s s' : σ) (r : ReadRes)
    (h : src.read (zeros 7) s = .ok (r, s')) :
    ∃ u, uniform fused low high src s = .ok (F64.mulAdd fused high u low, s') ∧ u.Valid ∧ u.IsFin ∧
      u.val = ((leNat r.buf % 2 ^ 52 : Nat) : ℚ) / 2 ^ 52 := by
  have hm : leNat r.buf % 2 ^ 52 < 2 ^ 52 := Nat.mod_lt _ (by decide)
  refine ⟨_, uniform_eq fused low high src s s' r h, valid_scaled _ _ _ (by omega) (by decide), trivial, ?_⟩
  rw [val_scaled _ 1022 52 rfl]

/-- `High*u` for `u` in [0, 1) and `High ≥ 0`: rounded, it does not exceed `High`. -/
theorem high_mul (n f e e' : Nat) (he' : e' = e + 52) (hf : f < 2 ^ 52) (hn : Short n) :
    F64.rndNat (n * (f * 2 ^ e)) (2 ^ e') ≤ n := by
  refine rndNat_le _ _ _ (Nat.two_pow_pos _) hn ?_
  rw [he', pow_add]
  calc n * (f * 2 ^ e) ≤ n * (2 ^ 52 * 2 ^ e) := Nat.mul_le_mul_left _ (Nat.mul_le_mul_right _ hf.le)
    _ = n * (2 ^ e * 2 ^ 52) := by ring

theorem mul_high (n f e : Nat) (he : 1022 = e) (hf : f < 2 ^ 52) (hn : (F64.fin false n).Valid) :
    F64.mul (.fin false n) (.fin false (f * 2 ^ e)) = .fin false (F64.rndNat (n * (f * 2 ^ e)) F64.one) := by
  have h := high_mul n f e (e + 52) rfl hf hn.1
  have e1 : F64.one = 2 ^ (e + 52) := by rw [← he]; rfl
  show F64.rnd (false ^^ false) _ _ = _
  rw [e1]
  unfold F64.rnd
  rw [if_pos (lt_of_le_of_lt h hn.2)]
  rfl

theorem mulAdd_eq (fused : Bool) (n f e l : Nat) (c : Bool) (he : 1022 = e) (hf : f < 2 ^ 52) (hn : (F64.fin false n).Valid) :
    F64.mulAdd fused (.fin false n) (.fin false (f * 2 ^ e)) (.fin c l) =
      if fused then F64.rndInt false (n * (f * 2 ^ e) + F64.sint c (l * F64.one)) F64.one
      else F64.rndInt false (F64.rndNat (n * (f * 2 ^ e)) F64.one + F64.sint c l) 1 := by
  unfold F64.mulAdd
  cases fused
  · rw [if_neg (by decide), if_neg (by decide), mul_high n f e he hf hn]
    rfl
  · rw [if_pos rfl, if_pos rfl]
    show F64.rndInt ((false ^^ false) && c) (F64.sint (false ^^ false) (n * (f * 2 ^ e)) + F64.sint c (l * F64.one)) F64.one = _
    unfold F64.sint
    simp

theorem sint_mul (c : Bool) (l b : Nat) : F64.sint c (l * b) = F64.sint c l * b := by
  cases c <;> simp [F64.sint]

theorem bounds_aux (s s' c : Bool) (p n : Int) (l B : Nat) (hB : 0 < B) (hlow : (F64.fin c l).Valid) (h0 : 0 ≤ p)
    (h1 : p ≤ n * B) :
    F64.le (.fin c l) (F64.rndInt s (p + F64.sint c (l * B)) B) = true ∧
      F64.le (F64.rndInt s (p + F64.sint c (l * B)) B) (F64.rndInt s' (n + F64.sint c l) 1) = true := by
  have hex : F64.rndInt c (F64.sint c l * (B : Nat)) B = .fin c l := rndInt_exact c l B hB hlow
  constructor
  · nth_rw 1 [← hex]
    refine rndInt_mono _ _ _ _ _ hB ?_
    rw [sint_mul]
    omega
  · rw [← rndInt_scale s' (n + F64.sint c l) 1 B hB, Nat.one_mul]
    refine rndInt_mono _ _ _ _ _ hB ?_
    rw [sint_mul, Int.add_mul]
    omega

theorem bounds_aux1 (s s' c : Bool) (p n : Int) (l : Nat) (hlow : (F64.fin c l).Valid) (h0 : 0 ≤ p)
    (h1 : p ≤ n) :
    F64.le (.fin c l) (F64.rndInt s (p + F64.sint c l) 1) = true ∧
      F64.le (F64.rndInt s (p + F64.sint c l) 1) (F64.rndInt s' (n + F64.sint c l) 1) = true := by
  have := bounds_aux s s' c p n l 1 (by decide) hlow h0 (by push_cast; omega)
  rwa [Nat.mul_one] at this

theorem bounds_aux2 (s s' c : Bool) (n f e l B : Nat) (hB : B = 2 ^ (e + 52)) (hf : f < 2 ^ 52) (hlow : (F64.fin c l).Valid) :
    F64.le (.fin c l) (F64.rndInt s (n * (f * 2 ^ e) + F64.sint c (l * B)) B) = true ∧
      F64.le (F64.rndInt s (n * (f * 2 ^ e) + F64.sint c (l * B)) B) (F64.rndInt s' (n + F64.sint c l) 1) = true := by
  have h0 : ((n * (f * 2 ^ e) : Nat) : Int) = n * (f * 2 ^ e) := by push_cast; rfl
  rw [← h0]
  refine bounds_aux s s' c _ n l B (hB ▸ Nat.two_pow_pos _) hlow (Int.natCast_nonneg _) ?_
  have h1 : n * (f * 2 ^ e) ≤ n * B := by
    refine Nat.mul_le_mul_left _ ?_
    rw [hB, pow_add, Nat.mul_comm (2 ^ e)]
    exact Nat.mul_le_mul_right _ hf.le
  exact_mod_cast h1

theorem rndNat_zero (b : Nat) (hb : 0 < b) : F64.rndNat 0 b = 0 := by
  have := rndNat_exact 0 b hb short_zero
  rwa [Nat.zero_mul] at this

theorem mul_negzero (m : Nat) : F64.mul (.fin true 0) (.fin false m) = .fin true 0 := by
  show F64.rnd (true ^^ false) (0 * m) F64.one = _
  unfold F64.rnd
  rw [Nat.zero_mul, rndNat_zero _ one_pos, if_pos limit_pos]
  rfl

/-- C37, the bounds that do hold: for finite `Low` and finite `High ≥ 0`, the result is at least `Low` and at most
`High + Low` (as computed in float arithmetic); in particular it is not NaN. -/
theorem C37_bounds (fused : Bool) (low high : F64) (hlow : low.Valid) (hlf : low.IsFin) (hhigh : high.Valid)
    (hhf : high.IsFin) (h0 : F64.le (.fin false 0) high = true) (src : Source σ) (s s' : σ) (x : F64)
    (h : uniform fused low high src s = .ok (x, s')) :
    F64.le low x = true ∧ F64.le x (F64.add high low) = true := by
  cases hr : src.read (zeros 7) s with
  | error e =>
    unfold uniform at h
    simp only [uniform12_error src s e hr, bind, Except.bind] at h
    contradiction
  | ok r =>
    rw [uniform_eq fused low high src s r.2 r.1 hr, Except.ok.injEq, Prod.mk.injEq] at h
    obtain ⟨rfl, -⟩ := h
    have hf : leNat r.1.buf % 2 ^ 52 < 2 ^ 52 := Nat.mod_lt _ (by decide)
    generalize leNat r.1.buf % 2 ^ 52 = f at hf
    match low, high with
    | .fin c l, .fin b n =>
      obtain ⟨e, he⟩ : ∃ e, 1022 = e := ⟨_, rfl⟩
      rw [he]
      have e1 : F64.one = 2 ^ (e + 52) := by rw [← he]; rfl
      cases b with
      | false =>
        rw [mulAdd_eq fused n f e l c he hf hhigh]
        have hadd : F64.add (.fin false n) (.fin c l) = F64.rndInt false (n + F64.sint c l) 1 := rfl
        rw [hadd]
        cases fused with
        | false =>
          rw [if_neg (by decide)]
          have hp := high_mul n f e (e + 52) rfl hf hhigh.1
          rw [← e1] at hp
          exact bounds_aux1 _ _ _ _ _ _ hlow (Int.natCast_nonneg _) (by exact_mod_cast hp)
        | true =>
          rw [if_pos rfl]
          have hB := one_pos
          generalize F64.one = B at e1 hB ⊢
          exact bounds_aux2 _ _ _ n f e l B e1 hf hlow
      | true =>
        have hn : n = 0 := by
          have : (0 : Int) ≤ -(n : Int) := of_decide_eq_true h0
          omega
        subst hn
        have hadd : F64.add (.fin true 0) (.fin c l) = F64.rndInt (true && c) (0 + F64.sint c l) 1 := rfl
        rw [hadd]
        cases fused with
        | false =>
          show F64.le (.fin c l) (F64.add (F64.mul (.fin true 0) (.fin false (f * 2 ^ e))) (.fin c l)) = true ∧
            F64.le (F64.add (F64.mul (.fin true 0) (.fin false (f * 2 ^ e))) (.fin c l)) _ = true
          rw [mul_negzero, hadd]
          exact bounds_aux1 _ _ _ 0 0 _ hlow (le_refl _) (le_refl _)
        | true =>
          show F64.le (.fin c l) (F64.rndInt ((true ^^ false) && c) (F64.sint (true ^^ false) (0 * (f * 2 ^ e)) +
              F64.sint c (l * F64.one)) F64.one) = true ∧
            F64.le (F64.rndInt ((true ^^ false) && c) (F64.sint (true ^^ false) (0 * (f * 2 ^ e)) +
              F64.sint c (l * F64.one)) F64.one) _ = true
          have e2 : F64.sint (true ^^ false) (0 * (f * 2 ^ e)) = 0 := by
            rw [Nat.zero_mul]; rfl
          rw [e2]
          have hB := one_pos
          generalize F64.one = B at hB ⊢
          exact bounds_aux _ _ _ 0 0 _ _ hB hlow (le_refl _) (by rw [Int.zero_mul])

theorem F64.le_trans (x y z : F64) (h1 : F64.le x y = true) (h2 : F64.le y z = true) : F64.le x z = true := by
  cases x with
  | nan => simp [F64.le] at h1
  | inf a =>
    cases y with
    | nan => simp [F64.le] at h1
    | inf b =>
      cases z with
      | nan => simp [F64.le] at h2
      | inf c => cases a <;> cases b <;> cases c <;> simp_all [F64.le]
      | fin c l => cases a <;> cases b <;> simp_all [F64.le]
    | fin b m =>
      cases z with
      | nan => simp [F64.le] at h2
      | inf c => cases a <;> cases c <;> simp_all [F64.le]
      | fin c l => cases a <;> simp_all [F64.le]
  | fin a n =>
    cases y with
    | nan => simp [F64.le] at h1
    | inf b =>
      cases z with
      | nan => simp [F64.le] at h2
      | inf c => cases b <;> cases c <;> simp_all [F64.le]
      | fin c l => cases b <;> simp_all [F64.le]
    | fin b m =>
      cases z with
      | nan => simp [F64.le] at h2
      | inf c => cases c <;> simp_all [F64.le]
      | fin c l => simp only [F64.le, decide_eq_true_eq] at *; omega

/-- C37: for `Low ≤ 0 ≤ High` the result does lie between `Low` and `High`, both included. -/
theorem C37_nonpos_low (fused : Bool) (low high : F64) (hlow : low.Valid) (hlf : low.IsFin) (hhigh : high.Valid)
    (hhf : high.IsFin) (h0 : F64.le (.fin false 0) high = true) (hl : F64.le low (.fin false 0) = true)
    (src : Source σ) (s s' : σ) (x : F64) (h : uniform fused low high src s = .ok (x, s')) :
    F64.le low x = true ∧ F64.le x high = true := by
  have hb := C37_bounds fused low high hlow hlf hhigh hhf h0 src s s' x h
  refine ⟨hb.1, F64.le_trans _ _ _ hb.2 ?_⟩
  match low, high with
  | .fin c l, .fin b n =>
    have hl' : F64.sint c l ≤ 0 := of_decide_eq_true hl
    have hex : F64.rndInt b (F64.sint b n * (1 : Nat)) 1 = .fin b n := rndInt_exact b n 1 (by decide) hhigh
    nth_rw 2 [← hex]
    exact rndInt_mono _ _ _ _ _ (by decide) (by push_cast; omega)

theorem short_normal (n : Nat) (hn : Short n) (h : 2 ^ 52 ≤ n) : ∃ m k, 2 ^ 52 ≤ m ∧ m < 2 ^ 53 ∧ n = m * 2 ^ k := by
  obtain ⟨m, k, hm, rfl⟩ := hn
  induction k generalizing m with
  | zero => exact ⟨m, 0, by simpa using h, hm, rfl⟩
  | succ k ih =>
    by_cases h1 : 2 ^ 52 ≤ m
    · exact ⟨m, k + 1, h1, hm, rfl⟩
    · have e : m * 2 ^ (k + 1) = m * 2 * 2 ^ k := by rw [pow_succ]; ring
      rw [e] at h ⊢
      exact ih (m * 2) (by omega) h

theorem high_mul_lt (n f e e' : Nat) (he' : e' = e + 52) (hf : f < 2 ^ 52) (hn : Short n) (h : 2 ^ 52 ≤ n) :
    F64.rndNat (n * (f * 2 ^ e)) (2 ^ e') < n := by
  obtain ⟨m, k, h1, h2, rfl⟩ := short_normal n hn h
  have hk := Nat.two_pow_pos k
  refine lt_of_le_of_lt (b := (m - 1) * 2 ^ k) (rndNat_le _ _ _ (Nat.two_pow_pos _) ⟨m - 1, k, by omega, rfl⟩ ?_)
    (Nat.mul_lt_mul_of_pos_right (by omega) hk)
  rw [he', pow_add]
  obtain ⟨j, rfl⟩ : ∃ j, m = j + 1 := ⟨m - 1, by omega⟩
  have h3 : (j + 1) * f ≤ j * 2 ^ 52 := by
    obtain ⟨g, hg⟩ : ∃ g, 2 ^ 52 = g + 1 := ⟨2 ^ 52 - 1, by decide⟩
    rw [hg] at hf h1 ⊢
    have : (j + 1) * f ≤ (j + 1) * g := Nat.mul_le_mul_left _ (by omega)
    nlinarith
  calc (j + 1) * 2 ^ k * (f * 2 ^ e) = (j + 1) * f * (2 ^ k * 2 ^ e) := by ring
    _ ≤ j * 2 ^ 52 * (2 ^ k * 2 ^ e) := Nat.mul_le_mul_right _ h3
    _ = _ := by rw [Nat.add_sub_cancel]; ring

theorem rndInt_nat (z b : Nat) (hb : 0 < b) : F64.rndInt false z b = F64.rnd false z b := by
  cases z with
  | zero =>
    unfold F64.rnd
    rw [rndNat_zero _ hb, if_pos limit_pos]
    rfl
  | succ z => exact rndInt_of_nonneg _ _ _ (by omega)

theorem uniform_ok (fused : Bool) (low high : F64) (src : Source σ) (s s' : σ) (x : F64)
    (h : uniform fused low high src s = .ok (x, s')) :
    ∃ f, f < 2 ^ 52 ∧ x = F64.mulAdd fused high (.fin false (f * 2 ^ 1022)) low := by
  cases hr : src.read (zeros 7) s with
  | error e =>
    unfold uniform at h
    simp only [uniform12_error src s e hr, bind, Except.bind] at h
    contradiction
  | ok r =>
    rw [uniform_eq fused low high src s r.2 r.1 hr, Except.ok.injEq, Prod.mk.injEq] at h
    exact ⟨_, Nat.mod_lt _ (by decide), h.1.symm⟩

/-- `High*u + 0`. -/
theorem mulAdd_zero (fused : Bool) (n f e : Nat) (c : Bool) (he : 1022 = e) (hf : f < 2 ^ 52) (hn : (F64.fin false n).Valid) :
    F64.mulAdd fused (.fin false n) (.fin false (f * 2 ^ e)) (.fin c 0) =
      .fin false (F64.rndNat (n * (f * 2 ^ e)) F64.one) := by
  have hz : F64.sint c 0 = 0 := by cases c <;> rfl
  have e1 : F64.one = 2 ^ (e + 52) := by rw [← he]; rfl
  have hp := high_mul n f e (e + 52) rfl hf hn.1
  rw [← e1] at hp
  rw [mulAdd_eq fused n f e 0 c he hf hn]
  have hB := one_pos
  generalize F64.one = B at hB hp ⊢
  rw [Nat.zero_mul, hz, add_zero, add_zero]
  have hlt := lt_of_le_of_lt hp hn.2
  cases fused
  · rw [if_neg (by decide), rndInt_nat _ _ (by decide)]
    have := rnd_exact false (F64.rndNat (n * (f * 2 ^ e)) B) 1 (by decide) ⟨short_rndNat _ _ hB, hlt⟩
    rwa [Nat.mul_one] at this
  · have h0 : ((n * (f * 2 ^ e) : Nat) : Int) = n * (f * 2 ^ e) := by push_cast; rfl
    rw [if_pos rfl, ← h0, rndInt_nat _ _ hB]
    unfold F64.rnd
    rw [if_pos hlt]

theorem val_pos (k : Nat) : 0 ≤ (F64.fin false k).val := by
  show (0 : ℚ) ≤ 1 * ((k : ℚ) / 2 ^ 1074)
  positivity

theorem val_neg (k : Nat) : (F64.fin true k).val ≤ 0 := by
  show -1 * ((k : ℚ) / 2 ^ 1074) ≤ (0 : ℚ)
  have : (0 : ℚ) ≤ (k : ℚ) / 2 ^ 1074 := by positivity
  linarith

theorem val_eq (k e : Nat) (he : 1074 = e) : (F64.fin false k).val = (k : ℚ) / 2 ^ e := by
  rw [← he]
  exact one_mul _

theorem val_lt (p n : Nat) (h : p < n) : (F64.fin false p).val < (F64.fin false n).val := by
  obtain ⟨e, he⟩ : ∃ e, 1074 = e := ⟨_, rfl⟩
  rw [val_eq p e he, val_eq n e he]
  have : (p : ℚ) < n := by exact_mod_cast h
  exact div_lt_div_of_pos_right this (by positivity)

theorem normal_val (n : Nat) (h0 : 1 / 2 ^ 1022 ≤ (F64.fin false n).val) : 2 ^ 52 ≤ n := by
  obtain ⟨e, he⟩ : ∃ e, 1022 = e := ⟨_, rfl⟩
  obtain ⟨e', he'⟩ : ∃ e', 1074 = e' := ⟨_, rfl⟩
  rw [val_eq n e' he', he, show e' = 52 + e by omega, pow_add, div_le_div_iff₀ (by positivity) (by positivity), one_mul] at h0
  have h1 : (2 : ℚ) ^ 52 ≤ n := le_of_mul_le_mul_right h0 (by positivity)
  exact_mod_cast h1

/-- C37: with `Low = 0` (of either sign) and `High` a positive normal number, the promise [Low, High) is kept. -/
theorem C37_zero_low (fused c : Bool) (high : F64) (hhigh : high.Valid) (hhf : high.IsFin) (h0 : 1 / 2 ^ 1022 ≤ high.val)
    (src : Source σ) (s s' : σ) (x : F64) (h : uniform fused (.fin c 0) high src s = .ok (x, s')) :
    x.IsFin ∧ 0 ≤ x.val ∧ x.val < high.val := by
  obtain ⟨f, hf, rfl⟩ := uniform_ok _ _ _ _ _ _ _ h
  match high with
  | .fin true n =>
    have h1 := lt_of_lt_of_le (by positivity) (h0.trans (val_neg n))
    exact absurd h1 (lt_irrefl _)
  | .fin false n =>
    obtain ⟨e, he⟩ : ∃ e, 1022 = e := ⟨_, rfl⟩
    rw [he, mulAdd_zero fused n f e c he hf hhigh]
    have e1 : F64.one = 2 ^ (e + 52) := by rw [← he]; rfl
    have hp := high_mul_lt n f e (e + 52) rfl hf hhigh.1 (normal_val n h0)
    rw [← e1] at hp
    exact ⟨trivial, val_pos _, val_lt _ _ hp⟩

/-- A source whose bytes are all ones. -/
def onesSource : Source Unit where
  read b s := .ok (⟨List.replicate b.length 0xff#8, b.length, none⟩, s)
  len_buf := by
    intro b s r s' h
    rw [Except.ok.injEq, Prod.mk.injEq] at h
    rw [← h.1]
    exact List.length_replicate

theorem ones_read : onesSource.read (zeros 7) () = .ok (⟨List.replicate 7 0xff#8, 7, none⟩, ()) := rfl

theorem ones_val : leNat (List.replicate 7 0xff#8) % 2 ^ 52 = 2 ^ 52 - 1 := by decide +kernel

theorem exceeds_aux (n l e : Nat) (hn : Short n) (h0 : 0 < n) (h : n ≤ 2 ^ 51 * l) :
    n ≤ F64.rndNat (n * ((2 ^ 52 - 1) * 2 ^ e)) (2 ^ (e + 52)) + l := by
  obtain ⟨g, hg⟩ : ∃ g, 2 ^ 52 = g + 1 := ⟨2 ^ 52 - 1, by decide⟩
  by_cases h1 : 2 ^ 52 ≤ n
  · obtain ⟨m, k, h2, h3, rfl⟩ := short_normal n hn h1
    obtain ⟨j, rfl⟩ : ∃ j, m = j + 2 := ⟨m - 2, by omega⟩
    have hp : j * 2 ^ k ≤ F64.rndNat ((j + 2) * 2 ^ k * ((2 ^ 52 - 1) * 2 ^ e)) (2 ^ (e + 52)) := by
      refine le_rndNat _ _ _ (Nat.two_pow_pos _) ⟨j, k, by omega, rfl⟩ ?_
      have h4 : j * 2 ^ 52 ≤ (j + 2) * (2 ^ 52 - 1) := by omega
      calc j * 2 ^ k * 2 ^ (e + 52) = j * 2 ^ 52 * (2 ^ k * 2 ^ e) := by rw [pow_add]; ring
        _ ≤ (j + 2) * (2 ^ 52 - 1) * (2 ^ k * 2 ^ e) := Nat.mul_le_mul_right _ h4
        _ = _ := by ring
    have hl : 2 * 2 ^ k ≤ l := by
      have h5 : 2 ^ 52 * 2 ^ k ≤ 2 ^ 51 * l := (Nat.mul_le_mul_right _ h2).trans h
      have h6 : 2 ^ 51 * (2 * 2 ^ k) ≤ 2 ^ 51 * l := by
        calc 2 ^ 51 * (2 * 2 ^ k) = 2 ^ 52 * 2 ^ k := by ring
          _ ≤ _ := h5
      exact Nat.le_of_mul_le_mul_left h6 (by decide)
    calc (j + 2) * 2 ^ k = j * 2 ^ k + 2 * 2 ^ k := by ring
      _ ≤ _ := Nat.add_le_add hp hl
  · obtain ⟨j, rfl⟩ : ∃ j, n = j + 1 := ⟨n - 1, by omega⟩
    have hp : j ≤ F64.rndNat ((j + 1) * ((2 ^ 52 - 1) * 2 ^ e)) (2 ^ (e + 52)) := by
      refine le_rndNat _ _ _ (Nat.two_pow_pos _) ⟨j, 0, by omega, by simp⟩ ?_
      have h4 : j * 2 ^ 52 ≤ (j + 1) * (2 ^ 52 - 1) := by omega
      calc j * 2 ^ (e + 52) = j * 2 ^ 52 * 2 ^ e := by rw [pow_add]; ring
        _ ≤ (j + 1) * (2 ^ 52 - 1) * 2 ^ e := Nat.mul_le_mul_right _ h4
        _ = _ := by ring
    omega

theorem val_le_mul (n l : Nat) (h : (F64.fin false n).val ≤ 2 ^ 51 * (F64.fin false l).val) : n ≤ 2 ^ 51 * l := by
  obtain ⟨e, he⟩ : ∃ e, 1074 = e := ⟨_, rfl⟩
  rw [val_eq n e he, val_eq l e he, ← mul_div_assoc, div_le_div_iff_of_pos_right (by positivity)] at h
  exact_mod_cast h

theorem val_pos_iff (n : Nat) (h : 0 < (F64.fin false n).val) : 0 < n := by
  rcases Nat.eq_zero_or_pos n with rfl | h1
  · obtain ⟨e, he⟩ : ∃ e, 1074 = e := ⟨_, rfl⟩
    rw [val_eq 0 e he] at h
    simp at h
  · exact h1

theorem exceeds_fused (n l e B : Nat) (hB : B = 2 ^ (e + 52)) (h : n ≤ 2 ^ 51 * l) :
    ((n * B : Nat) : Int) ≤ ((n * ((2 ^ 52 - 1) * 2 ^ e) + l * B : Nat) : Int) := by
  have h1 : n * 2 ^ 52 ≤ n * (2 ^ 52 - 1) + l * 2 ^ 52 := by omega
  have h2 := Nat.mul_le_mul_right (2 ^ e) h1
  have h3 : n * B ≤ n * ((2 ^ 52 - 1) * 2 ^ e) + l * B := by
    calc n * B = n * 2 ^ 52 * 2 ^ e := by rw [hB, pow_add]; ring
      _ ≤ _ := h2
      _ = _ := by rw [hB, pow_add]; ring
  exact_mod_cast h3

/-- C37, the promise [Low, High) is not kept for `0 < Low` unless `Low` is negligible beside `High`: if `High ≤ 2^51*Low`, a
source that delivers all ones makes the result at least `High`. -/
theorem C37_exceeds_high (fused : Bool) (low high : F64) (hlow : low.Valid) (hlf : low.IsFin) (hhigh : high.Valid)
    (hhf : high.IsFin) (h0 : 0 < low.val) (h1 : 0 < high.val) (h2 : high.val ≤ 2 ^ 51 * low.val) :
    ∃ x, uniform fused low high onesSource () = .ok (x, ()) ∧ F64.le high x = true := by
  refine ⟨_, uniform_eq fused low high onesSource () () _ ones_read, ?_⟩
  show F64.le high (F64.mulAdd fused high (.fin false (leNat (List.replicate 7 0xff#8) % 2 ^ 52 * 2 ^ 1022)) low) = true
  rw [ones_val]
  match low, high with
  | .fin true l, _ => exact absurd (lt_of_lt_of_le h0 (val_neg l)) (lt_irrefl _)
  | .fin false l, .fin true n => exact absurd (lt_of_lt_of_le h1 (val_neg n)) (lt_irrefl _)
  | .fin false l, .fin false n =>
    have hn := val_pos_iff n h1
    have hnl := val_le_mul n l h2
    obtain ⟨e, he⟩ : ∃ e, 1022 = e := ⟨_, rfl⟩
    rw [he, mulAdd_eq fused n _ e l false he (by decide) hhigh]
    have e1 : F64.one = 2 ^ (e + 52) := by rw [← he]; rfl
    have hB := one_pos
    generalize F64.one = B at e1 hB ⊢
    cases fused with
    | false =>
      have hex : F64.rndInt false (F64.sint false n * (1 : Nat)) 1 = .fin false n := rndInt_exact false n 1 (by decide) hhigh
      rw [if_neg (by decide)]
      nth_rw 1 [← hex]
      refine rndInt_mono _ _ _ _ _ (by decide) ?_
      have h3 := exceeds_aux n l e hhigh.1 hn hnl
      rw [← e1] at h3
      generalize F64.rndNat (n * ((2 ^ 52 - 1) * 2 ^ e)) B = p at h3 ⊢
      show (n : Int) * (1 : Nat) ≤ p + l
      push_cast
      omega
    | true =>
      have hex : F64.rndInt false (F64.sint false n * (B : Nat)) B = .fin false n := rndInt_exact false n B hB hhigh
      rw [if_pos rfl]
      nth_rw 1 [← hex]
      refine rndInt_mono _ _ _ _ _ hB ?_
      have h3 := exceeds_fused n l e B e1 hnl
      rw [Nat.cast_mul, Nat.cast_add, Nat.cast_mul, Nat.cast_mul, Nat.cast_pow, Nat.cast_ofNat] at h3
      exact h3

theorem rndInt_ne (s s' : Bool) (z : Int) (b : Nat) (h : z ≠ 0) : F64.rndInt s z b = F64.rndInt s' z b := by
  unfold F64.rndInt
  rw [if_neg h, if_neg h]

theorem minus_one_val (f e : Nat) (he : 1022 = e) (hf : f < 2 ^ 52) :
    (F64.fin true ((2 ^ 52 - f) * 2 ^ e)).val = (f : ℚ) / 2 ^ 52 - 1 := by
  show (-1 : ℚ) * ((((2 ^ 52 - f) * 2 ^ e : Nat) : ℚ) / 2 ^ 1074) = _
  obtain ⟨e', he'⟩ : ∃ e', 1074 = e' := ⟨_, rfl⟩
  rw [he', show e' = 52 + e by omega, pow_add, Nat.cast_mul, Nat.cast_sub hf.le, Nat.cast_pow, Nat.cast_pow, Nat.cast_ofNat,
    mul_div_mul_right _ _ (by positivity), sub_div, div_self (by positivity)]
  ring

theorem minus_one_aux (s : Bool) (f e B : Nat) (he : 1022 = e) (hf : f < 2 ^ 52) (hB : 0 < B) (z : Int)
    (hz : z = -(((2 ^ 52 - f) * 2 ^ e : Nat) : Int) * B) :
    F64.rndInt s z B = .fin true ((2 ^ 52 - f) * 2 ^ e) := by
  have hw : (F64.fin true ((2 ^ 52 - f) * 2 ^ e)).Valid := valid_scaled _ _ _ (by omega) (by omega)
  rw [← rndInt_exact true _ B hB hw, hz]
  refine rndInt_ne _ _ _ _ ?_
  have h1 : 0 < (2 ^ 52 - f) * 2 ^ e := Nat.mul_pos (by omega) (Nat.two_pow_pos _)
  have h2 : (0 : Int) < ((2 ^ 52 - f) * 2 ^ e : Nat) := by exact_mod_cast h1
  have h3 : (0 : Int) < B := by exact_mod_cast hB
  have := mul_pos h2 h3
  rw [neg_mul]
  omega

/-- C37: `Uniform{-1, 1}` is uniform on [-1, 0): the result is exactly `m / 2^52 - 1`. -/
theorem C37_minus_one_one (fused : Bool) (src : Source σ) (s s' : σ) (r : ReadRes)
    (h : src.read (zeros 7) s = .ok (r, s')) :
    ∃ x, uniform fused (F64.neg (F64.ofNat 1)) (F64.ofNat 1) src s = .ok (x, s') ∧ x.IsFin ∧
      x.val = ((leNat r.buf % 2 ^ 52 : Nat) : ℚ) / 2 ^ 52 - 1 := by
  have hm : leNat r.buf % 2 ^ 52 < 2 ^ 52 := Nat.mod_lt _ (by decide)
  refine ⟨_, uniform_eq fused _ _ src s s' r h, ?_⟩
  generalize leNat r.buf % 2 ^ 52 = f at hm
  rw [ofNat_exact 1 (by decide)]
  obtain ⟨e, he⟩ : ∃ e, 1022 = e := ⟨_, rfl⟩
  have hv : (F64.fin false (1 * 2 ^ 1074)).Valid := valid_scaled _ _ _ (by decide) (by decide)
  have e1 : F64.one = 2 ^ (e + 52) := by rw [← he]; rfl
  have e2 : (2 : Nat) ^ 1074 = 2 ^ (e + 52) := e1
  rw [e2] at hv ⊢
  rw [he]
  show (F64.mulAdd fused (.fin false (1 * 2 ^ (e + 52))) (.fin false (f * 2 ^ e)) (.fin true (1 * 2 ^ (e + 52)))).IsFin ∧
    (F64.mulAdd fused (.fin false (1 * 2 ^ (e + 52))) (.fin false (f * 2 ^ e)) (.fin true (1 * 2 ^ (e + 52)))).val = _
  rw [mulAdd_eq fused _ f e _ true he hm hv, e1]
  have hpos : 0 < 2 ^ (e + 52) := Nat.two_pow_pos _
  suffices hx : (if fused = true then F64.rndInt false (((1 * 2 ^ (e + 52) : Nat) : Int) * (f * 2 ^ e) +
        F64.sint true (1 * 2 ^ (e + 52) * 2 ^ (e + 52))) (2 ^ (e + 52))
      else F64.rndInt false (F64.rndNat (1 * 2 ^ (e + 52) * (f * 2 ^ e)) (2 ^ (e + 52)) + F64.sint true (1 * 2 ^ (e + 52))) 1) =
      .fin true ((2 ^ 52 - f) * 2 ^ e) by
    rw [hx]
    exact ⟨trivial, minus_one_val f e he hm⟩
  have hf : ((2 ^ 52 - f : Nat) : Int) = 2 ^ 52 - f := by omega
  cases fused with
  | false =>
    rw [if_neg (by decide), show 1 * 2 ^ (e + 52) * (f * 2 ^ e) = f * 2 ^ e * 2 ^ (e + 52) by ring,
      rndNat_exact _ _ hpos ⟨f, e, by omega, rfl⟩]
    refine minus_one_aux _ _ _ _ he hm (by decide) _ ?_
    show ((f * 2 ^ e : Nat) : Int) + -((1 * 2 ^ (e + 52) : Nat) : Int) = _
    rw [Nat.cast_mul (2 ^ 52 - f), hf, pow_add]
    push_cast
    ring
  | true =>
    rw [if_pos rfl]
    refine minus_one_aux _ _ _ _ he hm hpos _ ?_
    show ((1 * 2 ^ (e + 52) : Nat) : Int) * (f * 2 ^ e) + -((1 * 2 ^ (e + 52) * 2 ^ (e + 52) : Nat) : Int) = _
    rw [Nat.cast_mul (2 ^ 52 - f), hf, pow_add]
    push_cast
    ring

theorem le_zero_pos (n : Nat) : F64.le (.fin false 0) (.fin false n) = true := by
  simp [F64.le, F64.sint]

theorem neg_le_zero (n : Nat) : F64.le (F64.neg (.fin false n)) (.fin false 0) = true := by
  simp [F64.le, F64.sint, F64.neg]

/-- Non-vacuity of C37: `Low = 1`, `High = 2` meet the hypotheses of `C37_exceeds_high` and `C37_bounds`, `High = 2` those of
`C37_zero_low`. -/
example : (F64.ofNat 1).Valid ∧ (F64.ofNat 1).IsFin ∧ (F64.ofNat 2).Valid ∧ (F64.ofNat 2).IsFin ∧ 0 < (F64.ofNat 1).val ∧
    0 < (F64.ofNat 2).val ∧ (F64.ofNat 2).val ≤ 2 ^ 51 * (F64.ofNat 1).val ∧ 1 / 2 ^ 1022 ≤ (F64.ofNat 2).val ∧
    F64.le (.fin false 0) (F64.ofNat 2) = true ∧ F64.le (F64.neg (F64.ofNat 1)) (.fin false 0) = true := by
  have h1 : (F64.fin false (1 * 2 ^ 1074)).val = 1 := by rw [val_scaled 1 1074 0 rfl]; norm_num
  have h2 : (F64.fin false (2 * 2 ^ 1074)).val = 2 := by rw [val_scaled 2 1074 0 rfl]; norm_num
  rw [ofNat_exact 1 (by decide), ofNat_exact 2 (by decide)]
  refine ⟨valid_scaled _ _ _ (by decide) (by decide), trivial, valid_scaled _ _ _ (by decide) (by decide), trivial, ?_, ?_,
    ?_, ?_, ?_, ?_⟩
  · rw [h1]; norm_num
  · rw [h2]; norm_num
  · rw [h1, h2]; norm_num
  · rw [h2, div_le_iff₀ (by positivity)]
    have : (1 : ℚ) ≤ 2 ^ 1022 := one_le_pow₀ (by norm_num)
    linarith
  · exact le_zero_pos _
  · exact neg_le_zero _

end Crazy
