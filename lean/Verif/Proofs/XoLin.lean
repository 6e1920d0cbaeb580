/-
The states of the xo* generators as vector spaces over the field with two elements, with the state update as a linear map,
and its characteristic polynomial.
-/
import Verif.Proofs.XoCert
import Verif.Proofs.XoStep
namespace Crazy
open Polynomial Kron

/-! ### Words, bit by bit -/

theorem U64_bit_induction (p : U64 → Prop) (h0 : p 0#64) (hx : ∀ a b, p a → p b → p (a ^^^ b))
    (hb : ∀ i, i < 64 → p (BitVec.twoPow 64 i)) (v : U64) : p v := by
  have key : ∀ k, k ≤ 64 → p (BitVec.ofNat 64 (v.toNat % 2 ^ k)) := by
    intro k
    induction k with
    | zero => intro _; simpa [Nat.mod_one] using h0
    | succ k ih =>
      intro hk
      have h1 := ih (by omega)
      cases hv : v.getLsbD k with
      | false =>
        have e : BitVec.ofNat 64 (v.toNat % 2 ^ (k + 1)) = BitVec.ofNat 64 (v.toNat % 2 ^ k) := by
          apply BitVec.eq_of_getLsbD_eq
          intro i hi
          rw [BitVec.getLsbD] at hv
          simp only [BitVec.getLsbD_ofNat, Nat.testBit_mod_two_pow]
          rcases Nat.lt_trichotomy i k with h | h | h
          · simp [h, Nat.lt_succ_of_lt h]
          · subst h; simp [hv]
          · rw [decide_eq_false (by omega : ¬ i < k + 1), decide_eq_false (by omega : ¬ i < k)]
        rw [e]; exact h1
      | true =>
        have e : BitVec.ofNat 64 (v.toNat % 2 ^ (k + 1)) = BitVec.ofNat 64 (v.toNat % 2 ^ k) ^^^ BitVec.twoPow 64 k := by
          apply BitVec.eq_of_getLsbD_eq
          intro i hi
          rw [BitVec.getLsbD] at hv
          simp only [BitVec.getLsbD_ofNat, Nat.testBit_mod_two_pow, BitVec.getLsbD_xor, BitVec.getLsbD_twoPow]
          rcases Nat.lt_trichotomy i k with h | h | h
          · rw [decide_eq_true h, decide_eq_true (by omega : i < k + 1), decide_eq_false (by omega : ¬ k = i)]; simp
          · subst h; simp [hv, hi]
          · rw [decide_eq_false (by omega : ¬ i < k + 1), decide_eq_false (by omega : ¬ i < k), decide_eq_false (by omega : ¬ k = i)]; simp
        rw [e]; exact hx _ _ h1 (hb k (by omega))
  have h := key 64 le_rfl
  rwa [Nat.mod_eq_of_lt v.isLt, BitVec.ofNat_toNat, BitVec.setWidth_eq] at h

/-- `∑ᵢ cᵢ T^i v`, the coefficients being the bits of `c`. -/
def polyAct {V : Type} (add : V → V → V) (T : V → V) : Nat → Nat → V → V → V
  | 0, _, acc, _ => acc
  | n + 1, c, acc, v => polyAct add T n (Nat.div c 2) (bif Nat.beq (Nat.mod c 2) 1 then add acc v else acc) (T v)

theorem polyAct_eq {V : Type} [AddCommGroup V] [Module (ZMod 2) V] (T : Module.End (ZMod 2) V) (n c : Nat) (acc v : V) :
    polyAct (· + ·) T n c acc v = acc + aeval T (bp n c) v := by
  induction n generalizing c acc v with
  | zero => simp [polyAct, bp]
  | succ n ih =>
    rw [polyAct, ih, bp, map_add, map_mul, aeval_X, aeval_C, LinearMap.add_apply, Module.algebraMap_end_apply]
    have hcomm : (T * aeval T (bp n (c / 2))) v = aeval T (bp n (c / 2)) (T v) := by
      have h : T * aeval T (bp n (c / 2)) = aeval T (bp n (c / 2)) * T := by
        have h1 := congrArg (aeval T) (mul_comm X (bp n (c / 2)))
        rwa [map_mul, map_mul, aeval_X] at h1
      rw [h, Module.End.mul_apply]
    rw [hcomm, ← add_assoc]
    congr 1
    change (bif Nat.beq (c % 2) 1 then acc + v else acc) = _
    rcases Nat.mod_two_eq_zero_or_one c with h | h <;> rw [h] <;> simp [Nat.beq]

namespace Xoshiro

scoped instance : Zero Xoshiro := ⟨new⟩

scoped instance : Add Xoshiro := ⟨xor⟩

scoped instance : Neg Xoshiro := ⟨id⟩

scoped instance : AddCommGroup Xoshiro where
  nsmul := nsmulRec
  zsmul := zsmulRec
  add_assoc a b c := by
    show xor (xor a b) c = xor a (xor b c)
    simp [xor, BitVec.xor_assoc]
  zero_add a := by
    show xor new a = a
    simp [xor, new]
  add_zero a := by
    show xor a new = a
    simp [xor, new]
  neg_add_cancel a := by
    show xor a a = new
    simp [xor, new]
  add_comm a b := by
    show xor a b = xor b a
    simp [xor, BitVec.xor_comm]

theorem add_self (a : Xoshiro) : a + a = 0 := by
  show xor a a = new
  simp [xor, new]

noncomputable scoped instance : Module (ZMod 2) Xoshiro :=
  AddCommGroup.zmodModule fun a => by rw [two_nsmul, add_self]

theorem step_add (a b : Xoshiro) : (a + b).step = a.step + b.step := by
  show (xor a b).step = xor a.step b.step
  simp only [step, xor, rotl64_xor _ _ 45 (by decide) (by decide), BitVec.shiftLeft_xor_distrib, mk.injEq]
  refine ⟨?_, ?_, ?_, ?_⟩ <;> simp only [BitVec.xor_assoc, xor_lc, BitVec.xor_comm]

/-- `Uint64`'s state update as a linear map. -/
noncomputable def T : Module.End (ZMod 2) Xoshiro :=
  AddMonoidHom.toZModLinearMap 2 { toFun := step, map_zero' := (by decide +kernel : step new = new), map_add' := step_add }

theorem T_apply (a : Xoshiro) : T a = a.step := rfl

theorem T_iter (n : Nat) (a : Xoshiro) : T^[n] a = step^[n] a := rfl

theorem xoshiro_induction (p : Xoshiro → Prop) (h0 : p 0) (hx : ∀ a b, p a → p b → p (a + b))
    (hw : ∀ i, i < 64 → p ⟨BitVec.twoPow 64 i, 0#64, 0#64, 0#64⟩) (hx' : ∀ i, i < 64 → p ⟨0#64, BitVec.twoPow 64 i, 0#64, 0#64⟩)
    (hy : ∀ i, i < 64 → p ⟨0#64, 0#64, BitVec.twoPow 64 i, 0#64⟩) (hz : ∀ i, i < 64 → p ⟨0#64, 0#64, 0#64, BitVec.twoPow 64 i⟩)
    (a : Xoshiro) : p a := by
  have e (a b : Xoshiro) : a + b = xor a b := rfl
  have hW : ∀ v, p ⟨v, 0#64, 0#64, 0#64⟩ := U64_bit_induction _ h0
    (fun a b ha hb => by have := hx _ _ ha hb; rw [e] at this; simpa [xor] using this) hw
  have hX : ∀ v, p ⟨0#64, v, 0#64, 0#64⟩ := U64_bit_induction _ h0
    (fun a b ha hb => by have := hx _ _ ha hb; rw [e] at this; simpa [xor] using this) hx'
  have hY : ∀ v, p ⟨0#64, 0#64, v, 0#64⟩ := U64_bit_induction _ h0
    (fun a b ha hb => by have := hx _ _ ha hb; rw [e] at this; simpa [xor] using this) hy
  have hZ : ∀ v, p ⟨0#64, 0#64, 0#64, v⟩ := U64_bit_induction _ h0
    (fun a b ha hb => by have := hx _ _ ha hb; rw [e] at this; simpa [xor] using this) hz
  obtain ⟨w, x, y, z⟩ := a
  have := hx _ _ (hx _ _ (hx _ _ (hW w) (hX x)) (hY y)) (hZ z)
  rw [e, e, e] at this
  simpa [xor] using this

/-- Is this the zero state? -/
def isZero (a : Xoshiro) : Bool :=
  Nat.beq a.w.toNat 0 && (Nat.beq a.x.toNat 0 && (Nat.beq a.y.toNat 0 && Nat.beq a.z.toNat 0))

theorem isZero_eq {a : Xoshiro} (h : a.isZero = true) : a = 0 := by
  simp only [isZero, Bool.and_eq_true] at h
  obtain ⟨h1, h2, h3, h4⟩ := h
  obtain ⟨w, x, y, z⟩ := a
  show _ = new
  simp only [new, mk.injEq]
  exact ⟨BitVec.eq_of_toNat_eq (Nat.eq_of_beq_eq_true h1), BitVec.eq_of_toNat_eq (Nat.eq_of_beq_eq_true h2),
    BitVec.eq_of_toNat_eq (Nat.eq_of_beq_eq_true h3), BitVec.eq_of_toNat_eq (Nat.eq_of_beq_eq_true h4)⟩

/-- All the basis vectors `mk (2^i)`, `i < n`, are annihilated by the characteristic polynomial. -/
def annih (mk : U64 → Xoshiro) : Nat → Bool
  | 0 => true
  | n + 1 => (polyAct xor step 257 xoshiF new (mk (BitVec.twoPow 64 n))).isZero && annih mk n

theorem annih_eq {mk : U64 → Xoshiro} {n : Nat} (h : annih mk n = true) :
    ∀ i, i < n → aeval T (bp 257 xoshiF) (mk (BitVec.twoPow 64 i)) = 0 := by
  induction n with
  | zero => intro i hi; omega
  | succ n ih =>
    rw [annih, Bool.and_eq_true] at h
    intro i hi
    rcases Nat.lt_or_ge i n with hlt | hge
    · exact ih h.2 i hlt
    · have : i = n := by omega
      subst this
      have h1 := isZero_eq h.1
      have h2 := polyAct_eq T 257 xoshiF 0 (mk (BitVec.twoPow 64 i))
      rw [zero_add] at h2
      rw [← h2]
      exact h1

theorem annih_w : annih (fun v => ⟨v, 0, 0, 0⟩) 64 = true := by decide +kernel
theorem annih_x : annih (fun v => ⟨0, v, 0, 0⟩) 64 = true := by decide +kernel
theorem annih_y : annih (fun v => ⟨0, 0, v, 0⟩) 64 = true := by decide +kernel
theorem annih_z : annih (fun v => ⟨0, 0, 0, v⟩) 64 = true := by decide +kernel

theorem char_T : aeval T (bp (xoshiC.d + 1) xoshiF) = 0 := by
  have hd : xoshiC.d + 1 = 257 := rfl
  rw [hd]
  ext1 a
  rw [LinearMap.zero_apply]
  refine xoshiro_induction (fun a => aeval T (bp 257 xoshiF) a = 0) (map_zero _) ?_
    (annih_eq annih_w) (annih_eq annih_x) (annih_eq annih_y) (annih_eq annih_z) a
  intro a b ha hb
  rw [map_add, ha, hb, add_zero]

end Xoshiro

namespace Xoroshiro

/-- Word-wise xor of two states. -/
def xor (a b : Xoroshiro) : Xoroshiro := ⟨a.s0 ^^^ b.s0, a.s1 ^^^ b.s1⟩

scoped instance : Zero Xoroshiro := ⟨new⟩

scoped instance : Add Xoroshiro := ⟨xor⟩

scoped instance : Neg Xoroshiro := ⟨id⟩

scoped instance : AddCommGroup Xoroshiro where
  nsmul := nsmulRec
  zsmul := zsmulRec
  add_assoc a b c := by
    show xor (xor a b) c = xor a (xor b c)
    simp [xor, BitVec.xor_assoc]
  zero_add a := by
    show xor new a = a
    simp [xor, new]
  add_zero a := by
    show xor a new = a
    simp [xor, new]
  neg_add_cancel a := by
    show xor a a = new
    simp [xor, new]
  add_comm a b := by
    show xor a b = xor b a
    simp [xor, BitVec.xor_comm]

theorem add_self (a : Xoroshiro) : a + a = 0 := by
  show xor a a = new
  simp [xor, new]

noncomputable scoped instance : Module (ZMod 2) Xoroshiro :=
  AddCommGroup.zmodModule fun a => by rw [two_nsmul, add_self]

theorem step_add (a b : Xoroshiro) : (a + b).step = a.step + b.step := by
  show (xor a b).step = xor a.step b.step
  simp only [step, xor, rotl64_xor _ _ 55 (by decide) (by decide), rotl64_xor _ _ 36 (by decide) (by decide),
    BitVec.shiftLeft_xor_distrib, mk.injEq]
  refine ⟨?_, ?_⟩ <;> simp only [BitVec.xor_assoc, xor_lc, BitVec.xor_comm]

/-- `Uint64`'s state update as a linear map. -/
noncomputable def T : Module.End (ZMod 2) Xoroshiro :=
  AddMonoidHom.toZModLinearMap 2 { toFun := step, map_zero' := (by decide +kernel : step new = new), map_add' := step_add }

theorem T_apply (a : Xoroshiro) : T a = a.step := rfl

theorem T_iter (n : Nat) (a : Xoroshiro) : T^[n] a = step^[n] a := rfl

/-- Is this the zero state? -/
def isZero (a : Xoroshiro) : Bool := Nat.beq a.s0.toNat 0 && Nat.beq a.s1.toNat 0

theorem isZero_eq {a : Xoroshiro} (h : a.isZero = true) : a = 0 := by
  simp only [isZero, Bool.and_eq_true] at h
  obtain ⟨h1, h2⟩ := h
  obtain ⟨w, x⟩ := a
  show _ = new
  simp only [new, mk.injEq]
  exact ⟨BitVec.eq_of_toNat_eq (Nat.eq_of_beq_eq_true h1), BitVec.eq_of_toNat_eq (Nat.eq_of_beq_eq_true h2)⟩

theorem xoroshiro_induction (p : Xoroshiro → Prop) (h0 : p 0) (hx : ∀ a b, p a → p b → p (a + b))
    (hw : ∀ i, i < 64 → p ⟨BitVec.twoPow 64 i, 0#64⟩) (hx' : ∀ i, i < 64 → p ⟨0#64, BitVec.twoPow 64 i⟩)
    (a : Xoroshiro) : p a := by
  have e (a b : Xoroshiro) : a + b = xor a b := rfl
  have hW : ∀ v, p ⟨v, 0#64⟩ := U64_bit_induction _ h0
    (fun a b ha hb => by have := hx _ _ ha hb; rw [e] at this; simpa [xor] using this) hw
  have hX : ∀ v, p ⟨0#64, v⟩ := U64_bit_induction _ h0
    (fun a b ha hb => by have := hx _ _ ha hb; rw [e] at this; simpa [xor] using this) hx'
  obtain ⟨w, x⟩ := a
  have := hx _ _ (hW w) (hX x)
  rw [e] at this
  simpa [xor] using this

/-- All the basis vectors `mk (2^i)`, `i < n`, are annihilated by the characteristic polynomial. -/
def annih (mk : U64 → Xoroshiro) : Nat → Bool
  | 0 => true
  | n + 1 => (polyAct xor step 129 xoroF new (mk (BitVec.twoPow 64 n))).isZero && annih mk n

theorem annih_eq {mk : U64 → Xoroshiro} {n : Nat} (h : annih mk n = true) :
    ∀ i, i < n → aeval T (bp 129 xoroF) (mk (BitVec.twoPow 64 i)) = 0 := by
  induction n with
  | zero => intro i hi; omega
  | succ n ih =>
    rw [annih, Bool.and_eq_true] at h
    intro i hi
    rcases Nat.lt_or_ge i n with hlt | hge
    · exact ih h.2 i hlt
    · have : i = n := by omega
      subst this
      have h1 := isZero_eq h.1
      have h2 := polyAct_eq T 129 xoroF 0 (mk (BitVec.twoPow 64 i))
      rw [zero_add] at h2
      rw [← h2]
      exact h1

theorem annih_0 : annih (fun v => ⟨v, 0⟩) 64 = true := by decide +kernel
theorem annih_1 : annih (fun v => ⟨0, v⟩) 64 = true := by decide +kernel

theorem char_T : aeval T (bp (xoroC.d + 1) xoroF) = 0 := by
  have hd : xoroC.d + 1 = 129 := rfl
  rw [hd]
  ext1 a
  rw [LinearMap.zero_apply]
  refine xoroshiro_induction (fun a => aeval T (bp 129 xoroF) a = 0) (map_zero _) ?_ (annih_eq annih_0) (annih_eq annih_1) a
  intro a b ha hb
  rw [map_add, ha, hb, add_zero]

end Xoroshiro

/-! ### The periods -/

theorem bp_one : bp 128 1 = 1 ∧ bp 256 1 = 1 := by
  have h0 : ∀ n, bp n 0 = 0 := by
    intro n
    induction n with
    | zero => rfl
    | succ n ih => rw [bp, Nat.zero_div, ih]; simp
  have : ∀ n, bp (n + 1) 1 = 1 := by
    intro n
    rw [bp, show 1 / 2 = 0 from rfl, h0]
    simp
  exact ⟨this 127, this 255⟩

theorem Xoshiro.period (g : Xoshiro) (hg : g ≠ new) (n : Nat) : step^[n] g = g ↔ 2 ^ 256 - 1 ∣ n := by
  have h1 := Ctx.powIs_dvd xoshiC_ok xoshi_pow
  have e : bp xoshiC.d 1 = 1 := by rw [show xoshiC.d = 256 from rfl]; exact bp_one.2
  rw [e] at h1
  exact period_of_cert T char_T h1 xoshi_inv g hg n

theorem Xoroshiro.period (g : Xoroshiro) (hg : g ≠ new) (n : Nat) : step^[n] g = g ↔ 2 ^ 128 - 1 ∣ n := by
  have h1 := Ctx.powIs_dvd xoroC_ok xoro_pow
  have e : bp xoroC.d 1 = 1 := by rw [show xoroC.d = 128 from rfl]; exact bp_one.1
  rw [e] at h1
  exact period_of_cert T char_T h1 xoro_inv g hg n

end Crazy
