import Verif.Model.RNG
import Verif.Model.GenSources
import Verif.Proofs.Gens
namespace Crazy

theorem leNat_lt (b : List Byte) : leNat b < 256 ^ b.length := by
  induction b with
  | nil => simp [leNat]
  | cons x xs ih =>
    simp only [leNat, List.length_cons, Nat.pow_succ]
    omega

theorem leNat_zeros (n : Nat) : leNat (zeros n) = 0 := by
  induction n with
  | zero => rfl
  | succ n ih => simp only [zeros, List.replicate_succ, leNat] at ih ⊢; rw [ih]; rfl

theorem leNat_append (a b : List Byte) : leNat (a ++ b) = leNat a + 256 ^ a.length * leNat b := by
  induction a with
  | nil => simp [leNat]
  | cons x xs ih =>
    simp only [List.cons_append, leNat, ih, List.length_cons, Nat.pow_succ]
    have : 256 * (256 ^ xs.length * leNat b) = 256 ^ xs.length * 256 * leNat b := by
      rw [← Nat.mul_assoc, Nat.mul_comm 256]
    omega

theorem leNat_le64 (x : U64) : leNat (le64 x) = x.toNat := by
  simp only [le64, leNat, BitVec.toNat_setWidth, BitVec.toNat_ushiftRight, Nat.shiftRight_eq_div_pow,
    Nat.reducePow]
  have := x.isLt
  omega

/-- `binary.LittleEndian.Uint64` is the number the first eight bytes denote. -/
theorem u64le_leNat (b : List Byte) (h : b.length = 8) : u64le b = .ok (BitVec.ofNat 64 (leNat b)) := by
  obtain ⟨x, h1, h2⟩ := u64le_eq b (by omega)
  rw [List.take_of_length_le (by omega)] at h2
  rw [h1, ← h2, leNat_le64, BitVec.ofNat_toNat, BitVec.setWidth_eq]

theorem bv_of_bytes2 (a b : Byte) :
    a.setWidth 16 ||| (b.setWidth 16 <<< 8) = BitVec.ofNat 16 (leNat [a, b]) := by
  apply BitVec.eq_of_toNat_eq
  have ha := a.isLt; have hb := b.isLt
  simp only [BitVec.toNat_or, BitVec.toNat_setWidth, BitVec.toNat_shiftLeft, BitVec.toNat_ofNat, leNat]
  rw [Nat.or_comm, Nat.mod_eq_of_lt (show b.toNat < 2 ^ 16 by omega), Nat.mod_eq_of_lt (show a.toNat < 2 ^ 16 by omega),
    Nat.mod_eq_of_lt (show b.toNat <<< 8 < 2 ^ 16 by rw [Nat.shiftLeft_eq]; omega),
    ← Nat.shiftLeft_add_eq_or_of_lt (by omega), Nat.shiftLeft_eq]
  omega

theorem u32le_leNat (b : List Byte) (h : b.length = 4) : u32le b = .ok (BitVec.ofNat 32 (leNat b)) := by
  match b, h with
  | [b0, b1, b2, b3], _ =>
    simp only [u32le]
    refine congrArg Except.ok ?_
    have e : u64le [b0, b1, b2, b3, 0, 0, 0, 0] = .ok (BitVec.ofNat 64 (leNat [b0, b1, b2, b3, 0, 0, 0, 0])) :=
      u64le_leNat _ rfl
    have e2 : leNat [b0, b1, b2, b3, 0, 0, 0, 0] = leNat [b0, b1, b2, b3] := by simp [leNat]
    rw [e2] at e
    have e3 := Except.ok.inj e
    have e4 := congrArg (BitVec.setWidth 32) e3
    have hl := leNat_lt [b0, b1, b2, b3]
    simp only [List.length_cons, List.length_nil, Nat.reduceAdd, Nat.reducePow] at hl
    have e5 : (BitVec.ofNat 64 (leNat [b0, b1, b2, b3])).setWidth 32 = BitVec.ofNat 32 (leNat [b0, b1, b2, b3]) := by
      apply BitVec.eq_of_toNat_eq; simp; 
    rw [e5] at e4
    rw [← e4]
    apply BitVec.eq_of_getLsbD_eq
    intro i hi
    simp only [BitVec.getLsbD_or, BitVec.getLsbD_setWidth, BitVec.getLsbD_shiftLeft]
    grind

theorem u16le_leNat (b : List Byte) (h : b.length = 2) : u16le b = .ok (BitVec.ofNat 16 (leNat b)) := by
  match b, h with
  | [b0, b1], _ => simp only [u16le, bv_of_bytes2]

/-- `RNG.Uint64` in terms of the one `Read` it makes. -/
theorem RNG.uint64_eq {σ : Type} (src : Source σ) (s : σ) :
    RNG.uint64 src s = (src.read (zeros 8) s).map fun r => (BitVec.ofNat 64 (leNat r.1.buf), r.2) := by
  simp only [RNG.uint64, bind, Except.bind, pure, Except.pure]
  cases h : src.read (zeros 8) s with
  | error e => rfl
  | ok r =>
    have := src.len_buf (zeros 8) s r.1 r.2 h
    simp only [u64le_leNat r.1.buf (by rw [this]; rfl), Except.map]

theorem RNG.uint32_eq {σ : Type} (src : Source σ) (s : σ) :
    RNG.uint32 src s = (src.read (zeros 4) s).map fun r => (BitVec.ofNat 32 (leNat r.1.buf), r.2) := by
  simp only [RNG.uint32, bind, Except.bind, pure, Except.pure]
  cases h : src.read (zeros 4) s with
  | error e => rfl
  | ok r =>
    have := src.len_buf (zeros 4) s r.1 r.2 h
    simp only [u32le_leNat r.1.buf (by rw [this]; rfl), Except.map]

theorem RNG.uint16_eq {σ : Type} (src : Source σ) (s : σ) :
    RNG.uint16 src s = (src.read (zeros 2) s).map fun r => (BitVec.ofNat 16 (leNat r.1.buf), r.2) := by
  simp only [RNG.uint16, bind, Except.bind, pure, Except.pure]
  cases h : src.read (zeros 2) s with
  | error e => rfl
  | ok r =>
    have := src.len_buf (zeros 2) s r.1 r.2 h
    simp only [u16le_leNat r.1.buf (by rw [this]; rfl), Except.map]

theorem leNat_take_le64 (x : U64) (k : Nat) (h : k ≤ 8) : leNat ((le64 x).take k) = x.toNat % 256 ^ k := by
  have h1 := leNat_le64 x
  rw [← List.take_append_drop k (le64 x), leNat_append, List.length_take, le64_length, Nat.min_eq_left h] at h1
  rw [← h1, Nat.add_mul_mod_self_left, Nat.mod_eq_of_lt]
  have := leNat_lt ((le64 x).take k)
  rwa [List.length_take, le64_length, Nat.min_eq_left h] at this

/-- A read of at most eight bytes through `readGt` takes one output. -/
theorem readGt_small {σ : Type} (next : σ → Go (U64 × σ)) (k : Nat) (hk : k ≤ 8) (s : σ) :
    readGt next (zeros k) s = (next s).map fun r => ((le64 r.1).take k, r.2) := by
  have : wordsGt (zeros k).length = 1 := by rw [zeros_length, wordsGt]; omega
  rw [readGt_eq, this, draws_one]
  simp only [bind, Except.bind, pure, Except.pure, zeros_length]
  cases next s with
  | error e => rfl
  | ok r => simp only [Except.map, bytesOf_one]

end Crazy
