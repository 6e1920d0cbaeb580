/-
C90: `LFG.SeedIV` on platforms with 32-bit `int`.
-/
import Verif.Model.WidthSeed
import Verif.Props.LfgSeed
namespace Crazy
namespace LFG

/-- What one step of the loop does. -/
def bodyW (w : Nat) (i : Nat) (v : Byte) (s : Vector U64 607) : Go (Vector U64 607) := do
  let i := BitVec.ofNat w i
  let k := (i + BitVec.ofNat w lfgK - BitVec.ofNat w lfgJ).srem (BitVec.ofNat w lfgK)
  let a ← agetW w s k
  let b ← agetW w lfgS0 ((BitVec.ofNat w v.toNat + BitVec.ofNat w 256 * i).srem (BitVec.ofNat w lfgK))
  asetW w s k (a + b)

/-- The same at given indices. -/
def bodyAt (k : Nat) (j : Int) (s : Vector U64 607) : Go (Vector U64 607) := do
  let a ← aget s k
  let b ← (if j < 0 then .error .index else aget lfgS0 j.toNat)
  aset s k (a + b)

theorem toInt_pos {w : Nat} (hw : 32 ≤ w) (n : Nat) (hn : n < 2 ^ (w - 1)) : (BitVec.ofNat w n).toInt = n := by
  obtain ⟨m, rfl⟩ : ∃ m, w = m + 1 := ⟨w - 1, by omega⟩
  rw [Nat.add_sub_cancel] at hn
  have h2 : 2 ^ (m + 1) = 2 * 2 ^ m := by rw [Nat.pow_succ, Nat.mul_comm]
  rw [BitVec.toInt_eq_toNat_cond, BitVec.toNat_ofNat, Nat.mod_eq_of_lt (by omega), if_pos (by omega)]

theorem bodyW_at (w : Nat) (hw : 32 ≤ w) (i : Nat) (hi : i + 1000 < 2 ^ (w - 1)) (v : Byte) (s : Vector U64 607) :
    bodyW w i v s = bodyAt ((i + 334) % 607) (((BitVec.ofNat w (v.toNat + 256 * i)).toInt).tmod 607) s := by
  have hbig : 2 ^ 31 ≤ 2 ^ (w - 1) := Nat.pow_le_pow_right (by decide) (by omega)
  have e607 : (BitVec.ofNat w 607).toInt = 607 := toInt_pos hw 607 (by omega)
  have ek : ((BitVec.ofNat w i + BitVec.ofNat w lfgK - BitVec.ofNat w lfgJ).srem (BitVec.ofNat w lfgK)).toInt = (((i + 334) % 607 : Nat) : Int) := by
    have e1 : BitVec.ofNat w i + BitVec.ofNat w lfgK - BitVec.ofNat w lfgJ = BitVec.ofNat w (i + 334) := by
      show BitVec.ofNat w i + BitVec.ofNat w 607 - BitVec.ofNat w 273 = _
      rw [← BitVec.ofNat_add, show i + 607 = i + 334 + 273 by omega, BitVec.ofNat_add (i + 334) 273, BitVec.add_sub_cancel]
    rw [BitVec.toInt_srem, e1, toInt_pos hw _ (by omega)]
    show Int.tmod _ (BitVec.ofNat w 607).toInt = _
    rw [e607, Int.tmod_eq_emod_of_nonneg (Int.natCast_nonneg _)]
    rfl
  have ej : ((BitVec.ofNat w v.toNat + BitVec.ofNat w 256 * BitVec.ofNat w i).srem (BitVec.ofNat w lfgK)).toInt =
      ((BitVec.ofNat w (v.toNat + 256 * i)).toInt).tmod 607 := by
    rw [BitVec.toInt_srem, ← BitVec.ofNat_mul, ← BitVec.ofNat_add]
    show Int.tmod _ (BitVec.ofNat w 607).toInt = _
    rw [e607]
  unfold bodyW bodyAt agetW asetW
  simp only [ek, ej]
  rw [if_neg (by omega), Int.toNat_natCast]
  simp only [if_neg (show ¬ (((i + 334) % 607 : Nat) : Int) < 0 by omega)]

theorem bodyAt_ok (k : Nat) (hk : k < 607) (j : Nat) (hj : j < 607) (s : Vector U64 607) :
    bodyAt k j s = .ok (s.set k (s[k] + lfgS0[j])) := by
  unfold bodyAt
  rw [if_neg (by omega), Int.toNat_natCast]
  have e2 : aget s k = .ok s[k] := dif_pos hk
  have e3 : aget lfgS0 j = .ok lfgS0[j] := dif_pos hj
  rw [e2, e3]
  exact dif_pos hk

theorem bodyAt_neg (k : Nat) (hk : k < 607) (j : Int) (hj : j < 0) (s : Vector U64 607) : bodyAt k j s = .error .index := by
  unfold bodyAt
  rw [if_pos hj]
  have e2 : aget s k = .ok s[k] := dif_pos hk
  rw [e2]
  rfl

/-- As long as `256 i + 255` fits into an `int`, the step is that of the model without wrap-around. -/
theorem bodyW_small (w : Nat) (hw : 32 ≤ w) (i : Nat) (hi : i < 2 ^ (w - 9)) (v : Byte) (s : Vector U64 607) :
    bodyW w i v s = (do
      let a ← aget s ((i + lfgK - lfgJ) % lfgK)
      let b ← aget lfgS0 ((v.toNat + 256 * i) % lfgK)
      aset s ((i + lfgK - lfgJ) % lfgK) (a + b)) := by
  have hv := v.isLt
  have hp : 2 ^ (w - 1) = 256 * 2 ^ (w - 9) := by
    rw [show w - 1 = 8 + (w - 9) by omega, Nat.pow_add]
  have hbig : 2 ^ 23 ≤ 2 ^ (w - 9) := Nat.pow_le_pow_right (by decide) (by omega)
  rw [bodyW_at w hw i (by omega), toInt_pos hw _ (by omega), seedBody_eq, Int.tmod_eq_emod_of_nonneg (Int.natCast_nonneg _)]
  exact bodyAt_ok _ (Nat.mod_lt _ (by decide)) ((v.toNat + 256 * i) % 607) (Nat.mod_lt _ (by decide)) s

theorem forRange_small (w : Nat) (hw : 32 ≤ w) (iv : List Byte) (i : Nat) (hi : i + iv.length ≤ 2 ^ (w - 9)) (s : Vector U64 607) :
    forRange (bodyW w) i iv s = forRange (fun i (v : Byte) s => do
      let a ← aget s ((i + lfgK - lfgJ) % lfgK)
      let b ← aget lfgS0 ((v.toNat + 256 * i) % lfgK)
      aset s ((i + lfgK - lfgJ) % lfgK) (a + b)) i iv s := by
  induction iv generalizing i s with
  | nil => rw [forRange, forRange]
  | cons v iv ih =>
    rw [List.length_cons] at hi
    rw [forRange, forRange, bodyW_small w hw i (by omega), seedBody_eq]
    exact ih (i + 1) (by omega) _

/-- With 32 bits `256 i + v` is negative for `i` from `2^23` on; the remainder is negative or zero. -/
theorem bodyW_large (i : Nat) (h1 : 2 ^ 23 ≤ i) (h2 : i < 2 ^ 24) (v : Byte) (s : Vector U64 607) (hne : (2 ^ 32 - (v.toNat + 256 * i)) % 607 ≠ 0) :
    bodyW 32 i v s = .error .index := by
  have hv := v.isLt
  rw [bodyW_at 32 (by decide) i (by omega)]
  refine bodyAt_neg _ (Nat.mod_lt _ (by decide)) _ ?_ s
  have e : (BitVec.ofNat 32 (v.toNat + 256 * i)).toInt = -((2 ^ 32 - (v.toNat + 256 * i) : Nat) : Int) := by
    rw [BitVec.toInt_eq_toNat_cond, BitVec.toNat_ofNat, Nat.mod_eq_of_lt (by omega), if_neg (by omega)]
    omega
  rw [e, Int.neg_tmod, Int.tmod_eq_emod_of_nonneg (Int.natCast_nonneg _)]
  have : ((2 ^ 32 - (v.toNat + 256 * i) : Nat) : Int) % 607 = (((2 ^ 32 - (v.toNat + 256 * i)) % 607 : Nat) : Int) := rfl
  omega

theorem bodyW_200 (i : Nat) (hi : i = 2 ^ 23) (v : Byte) (s : Vector U64 607) (h : v = 200#8) : ∃ s', bodyW 32 i v s = .ok s' := by
  have hv : v.toNat = 200 := by rw [h]; rfl
  have hj : ((BitVec.ofNat 32 (v.toNat + 256 * i)).toInt).tmod 607 = ((0 : Nat) : Int) := by
    have e : (BitVec.ofNat 32 (v.toNat + 256 * i)).toInt = -((2 ^ 32 - (v.toNat + 256 * i) : Nat) : Int) := by
      rw [BitVec.toInt_eq_toNat_cond, BitVec.toNat_ofNat, Nat.mod_eq_of_lt (by omega), if_neg (by omega)]
      omega
    rw [e, Int.neg_tmod, Int.tmod_eq_emod_of_nonneg (Int.natCast_nonneg _)]
    omega
  rw [bodyW_at 32 (by decide) i (by omega), hj]
  exact ⟨_, bodyAt_ok _ (Nat.mod_lt _ (by decide)) 0 (by decide) s⟩

theorem forRange_large (iv : List Byte) (i : Nat) (hi : i ≤ 2 ^ 23) (hl : 2 ^ 23 < i + iv.length) (s : Vector U64 607)
    (hex : i + iv.length = 2 ^ 23 + 1 → iv.getLast? ≠ some 200#8) : forRange (bodyW 32) i iv s = .error .index := by
  induction iv generalizing i s with
  | nil => rw [List.length_nil] at hl; omega
  | cons v iv ih =>
    rw [List.length_cons] at hl hex
    have hv := v.isLt
    rw [forRange]
    by_cases h1 : i < 2 ^ 23
    · rw [bodyW_small 32 (by decide) i h1, seedBody_eq]
      refine ih (i + 1) (by omega) (by omega) _ fun h => ?_
      have h3 := hex (by omega)
      match iv, h with
      | [], h => rw [List.length_nil] at h; omega
      | x :: iv, h => rwa [List.getLast?_cons_cons] at h3
    · have hi2 : i = 2 ^ 23 := by omega
      by_cases h200 : v = 200#8
      · obtain ⟨s', hs'⟩ := bodyW_200 i hi2 v s h200
        rw [hs']
        match iv, hex with
        | [], hex => exact absurd (by rw [h200]; rfl) (hex (by rw [hi2]; rfl))
        | x :: iv, _ =>
          have hx := x.isLt
          simp only [bind, Except.bind]
          rw [forRange, bodyW_large (i + 1) (by omega) (by omega) x _ (by omega)]
          rfl
      · rw [bodyW_large i (by omega) (by omega) v s (fun h => h200 (BitVec.eq_of_toNat_eq (by show v.toNat = 200; omega)))]
        rfl

theorem forRange_except (iv : List Byte) (i : Nat) (hi : i ≤ 2 ^ 23) (hl : i + iv.length = 2 ^ 23 + 1) (s : Vector U64 607)
    (hex : iv.getLast? = some 200#8) : ∃ s', forRange (bodyW 32) i iv s = .ok s' := by
  induction iv generalizing i s with
  | nil => rw [List.length_nil] at hl; omega
  | cons v iv ih =>
    rw [List.length_cons] at hl
    rw [forRange]
    by_cases h1 : i < 2 ^ 23
    · rw [bodyW_small 32 (by decide) i h1, seedBody_eq]
      refine ih (i + 1) (by omega) (by omega) _ ?_
      match iv, hl with
      | [], hl => rw [List.length_nil] at hl; omega
      | x :: iv, _ => rwa [List.getLast?_cons_cons] at hex
    · obtain rfl : iv = [] := List.length_eq_zero_iff.mp (by omega)
      obtain ⟨s', hs'⟩ := bodyW_200 i (by omega) v s (Option.some.inj hex)
      rw [hs']
      exact ⟨s', by simp only [bind, Except.bind]; rw [forRange]⟩

end LFG

/-- C90: with `int` of 32 bits or more `SeedIV` of an LFG is that of the other properties for ivs of up to `2^(w-9)` bytes: `2^55` with 64 bits. -/
theorem C90_LFG_SeedIV (w : Nat) (hw : 32 ≤ w) (iv : List Byte) (hl : iv.length ≤ 2 ^ (w - 9)) (g : LFG) : LFG.seedIVW w iv g = g.seedIV iv := by
  have h : LFG.seedBytesW w iv lfgS0 = LFG.seedBytes iv lfgS0 := LFG.forRange_small w hw iv 0 (by omega) lfgS0
  unfold LFG.seedIVW LFG.seedIV
  simp only [h]

/-- C90: that is every iv that fits into the memory of a 64-bit platform, -/
theorem C90_LFG_SeedIV_64 (iv : List Byte) (hl : iv.length ≤ 2 ^ 55) (g : LFG) : LFG.seedIVW 64 iv g = g.seedIV iv :=
  C90_LFG_SeedIV 64 (by decide) iv hl g

/-- C90: and 8 MiB on a 32-bit platform. -/
theorem C90_LFG_SeedIV_32 (iv : List Byte) (hl : iv.length ≤ 2 ^ 23) (g : LFG) : LFG.seedIVW 32 iv g = g.seedIV iv :=
  C90_LFG_SeedIV 32 (by decide) iv hl g

/-- C90: on a 32-bit platform `SeedIV` panics for every iv of more than 8 MiB, except those of 8 MiB and one byte that end with 200. -/
theorem C90_LFG_SeedIV_panics (iv : List Byte) (hl : 2 ^ 23 < iv.length) (hex : iv.length = 2 ^ 23 + 1 → iv.getLast? ≠ some 200#8) (g : LFG) :
    LFG.seedIVW 32 iv g = .error .index := by
  have h : LFG.seedBytesW 32 iv lfgS0 = .error .index :=
    LFG.forRange_large iv 0 (by decide) (by rw [Nat.zero_add]; exact hl) lfgS0 (by rw [Nat.zero_add]; exact hex)
  unfold LFG.seedIVW
  simp only [h]
  rfl

/-- C90: those do not panic. -/
theorem C90_LFG_SeedIV_except (iv : List Byte) (hl : iv.length = 2 ^ 23 + 1) (hex : iv.getLast? = some 200#8) (g : LFG) :
    ∃ s, LFG.seedIVW 32 iv g = .ok s := by
  obtain ⟨s', h⟩ : ∃ s', LFG.seedBytesW 32 iv lfgS0 = .ok s' := LFG.forRange_except iv 0 (by decide) (by rw [Nat.zero_add]; exact hl) lfgS0 hex
  refine ⟨LFG.nexts 4856 { f := 334, t := 0, s := s' }, ?_⟩
  unfold LFG.seedIVW
  simp only [h, bind, Except.bind]
  rw [show lfgK * 8 = 4856 from rfl, show lfgK - lfgJ = 334 from rfl]
  exact LFG.discard_eq 4856 { f := 334, t := 0, s := s' } ⟨by show 0 < 607; decide, by show 334 = (0 + 334) % 607; decide⟩

/-! ### Non-vacuity -/

/-- 8 MiB and two bytes. -/
example (g : LFG) (u : List Byte) (hu : u.length = 2 ^ 23) : LFG.seedIVW 32 (u ++ [1#8, 200#8]) g = .error .index :=
  C90_LFG_SeedIV_panics _ (by rw [List.length_append, hu, List.length_cons]; omega) (fun h => by
    rw [List.length_append, hu, List.length_cons, List.length_cons, List.length_nil] at h
    omega) g

end Crazy
