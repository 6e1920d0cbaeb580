/-
Polynomial arithmetic modulo `2^e` on natural numbers, fast enough for the kernel: a polynomial with small
coefficients is stored as its value at `2^w` (one `w`-bit slot per coefficient), so that one product of numbers is one
product of polynomials, and one bitwise and reduces all the coefficients.
-/
import Mathlib.Algebra.Polynomial.Eval.Degree
import Mathlib.Algebra.Polynomial.Inductions
import Mathlib.Algebra.Polynomial.Degree.Lemmas
import Mathlib.Data.Nat.Bitwise
import Mathlib.Algebra.Polynomial.Div
namespace Crazy.Kron
open Polynomial

/-- `n` stores `P`, with `D` slots of `w` bits and coefficients at most `b`. -/
def Cd {R : Type} [CommRing R] (w D b n : Nat) (P : R[X]) : Prop :=
  ∃ Q : ℕ[X], (∀ i, D ≤ i → Q.coeff i = 0) ∧ (∀ i, Q.coeff i ≤ b) ∧ Q.eval (2 ^ w) = n ∧ Q.map (Nat.castRingHom R) = P

section
variable {R : Type} [CommRing R] {w D D' b b' n m : Nat} {P P' : R[X]}

theorem Cd.mono (h : Cd w D b n P) (hD : D ≤ D') (hb : b ≤ b') : Cd w D' b' n P := by
  obtain ⟨Q, h1, h2, h3, h4⟩ := h
  exact ⟨Q, fun i hi => h1 i (by omega), fun i => (h2 i).trans hb, h3, h4⟩

theorem Cd.add (h : Cd w D b n P) (h' : Cd w D b' m P') : Cd w D (b + b') (n + m) (P + P') := by
  obtain ⟨Q, h1, h2, h3, h4⟩ := h
  obtain ⟨Q', h1', h2', h3', h4'⟩ := h'
  refine ⟨Q + Q', fun i hi => ?_, fun i => ?_, ?_, ?_⟩
  · rw [coeff_add, h1 i hi, h1' i hi]
  · rw [coeff_add]; exact Nat.add_le_add (h2 i) (h2' i)
  · rw [eval_add, h3, h3']
  · rw [Polynomial.map_add, h4, h4']

theorem Cd.mul (h : Cd w D b n P) (h' : Cd w D' b' m P') : Cd w (D + D' - 1) (D * (b * b')) (n * m) (P * P') := by
  obtain ⟨Q, h1, h2, h3, h4⟩ := h
  obtain ⟨Q', h1', h2', h3', h4'⟩ := h'
  refine ⟨Q * Q', fun i hi => ?_, fun i => ?_, ?_, ?_⟩
  · rw [coeff_mul]
    refine Finset.sum_eq_zero fun x hx => ?_
    rw [Finset.mem_antidiagonal] at hx
    rcases Nat.lt_or_ge x.1 D with hlt | hge
    · rw [h1' x.2 (by omega), Nat.mul_zero]
    · rw [h1 x.1 hge, Nat.zero_mul]
  · rw [coeff_mul, Finset.Nat.sum_antidiagonal_eq_sum_range_succ (fun a c => Q.coeff a * Q'.coeff c)]
    rcases Nat.lt_or_ge i D with hlt | hge
    · refine (Finset.sum_le_card_nsmul _ _ (b * b') fun a _ => Nat.mul_le_mul (h2 _) (h2' _)).trans ?_
      rw [Finset.card_range, smul_eq_mul]
      exact Nat.mul_le_mul_right _ hlt
    · rw [← Finset.sum_subset (s₁ := Finset.range D)]
      · refine (Finset.sum_le_card_nsmul _ _ (b * b') fun a _ => Nat.mul_le_mul (h2 _) (h2' _)).trans ?_
        rw [Finset.card_range, smul_eq_mul]
      · intro a ha
        rw [Finset.mem_range] at *
        omega
      · intro a _ ha
        rw [Finset.mem_range] at ha
        rw [h1 a (by omega), Nat.zero_mul]
  · rw [eval_mul, h3, h3']
  · rw [Polynomial.map_mul, h4, h4']

/-- `2^e - 1` in each of `D` slots of `w` bits. -/
def mask (e w : Nat) : Nat → Nat
  | 0 => 0
  | D + 1 => (2 ^ e - 1) + 2 ^ w * mask e w D

theorem mask_unique (e w D M : Nat) (hw : 0 < w) (h : M * (2 ^ w - 1) = (2 ^ e - 1) * (2 ^ (w * D) - 1)) : M = mask e w D := by
  have key : ∀ D, mask e w D * (2 ^ w - 1) = (2 ^ e - 1) * (2 ^ (w * D) - 1) := by
    intro D
    induction D with
    | zero => simp [mask]
    | succ D ih =>
      have h1 : 2 ^ (w * (D + 1)) - 1 = (2 ^ w - 1) + 2 ^ w * (2 ^ (w * D) - 1) := by
        have : 1 ≤ 2 ^ (w * D) := Nat.one_le_two_pow
        have h2 : 1 ≤ 2 ^ w := Nat.one_le_two_pow
        have h3 : 2 ^ w * 1 ≤ 2 ^ w * 2 ^ (w * D) := Nat.mul_le_mul_left _ this
        rw [Nat.mul_succ, Nat.pow_add, Nat.mul_comm (2 ^ (w * D)), Nat.mul_sub]
        omega
      rw [mask, h1, Nat.add_mul, Nat.mul_assoc, ih, Nat.mul_add]
      congr 1
      rw [← Nat.mul_assoc, ← Nat.mul_assoc, Nat.mul_comm (2 ^ w) (2 ^ e - 1)]
  refine Nat.eq_of_mul_eq_mul_right ?_ (h.trans (key D).symm)
  have : 2 ^ 1 ≤ 2 ^ w := Nat.pow_le_pow_right (by decide) hw
  omega

theorem land_slot (q n c M w : Nat) (hq : q < 2 ^ w) (hc : c < 2 ^ w) :
    (q + 2 ^ w * n) &&& (c + 2 ^ w * M) = (q &&& c) + 2 ^ w * (n &&& M) := by
  have hqc : q &&& c < 2 ^ w := Nat.lt_of_le_of_lt Nat.and_le_left hq
  apply Nat.eq_of_testBit_eq
  intro i
  rw [Nat.testBit_and, Nat.add_comm q, Nat.add_comm c, Nat.add_comm (q &&& c),
    Nat.testBit_two_pow_mul_add _ hq, Nat.testBit_two_pow_mul_add _ hc, Nat.testBit_two_pow_mul_add _ hqc]
  split <;> rw [Nat.testBit_and]

/-- Whatever the number, masking it leaves a polynomial. -/
theorem Cd.exists_mask (e : Nat) (hew : e ≤ w) (n : Nat) : ∃ P : R[X], Cd w D (2 ^ e - 1) (n &&& mask e w D) P := by
  induction D generalizing n with
  | zero => exact ⟨0, 0, by simp, by simp, by simp [mask], by simp⟩
  | succ D ih =>
    obtain ⟨P, Q, h1, h2, h3, h4⟩ := ih (n / 2 ^ w)
    have hm : 2 ^ e - 1 < 2 ^ w := by
      have := Nat.pow_le_pow_right (n := 2) (by decide) hew
      have := Nat.two_pow_pos e
      omega
    refine ⟨_, X * Q + C (n % 2 ^ w &&& (2 ^ e - 1)), ?_, ?_, ?_, rfl⟩
    · intro i hi
      cases i with
      | zero => omega
      | succ i => rw [coeff_add, coeff_X_mul, h1 i (by omega), coeff_C]; simp
    · intro i
      cases i with
      | zero => rw [coeff_add, coeff_X_mul_zero, coeff_C_zero, zero_add]; exact Nat.and_le_right
      | succ i => rw [coeff_add, coeff_X_mul, coeff_C]; simpa using h2 i
    · have hn : n = n % 2 ^ w + 2 ^ w * (n / 2 ^ w) := (Nat.mod_add_div n (2 ^ w)).symm
      rw [eval_add, eval_mul, eval_X, eval_C, h3, mask]
      conv_rhs => rw [hn, land_slot _ _ _ _ _ (Nat.mod_lt _ (Nat.two_pow_pos w)) hm]
      rw [Nat.add_comm]

/-- Masking reduces the coefficients modulo `2^e`. -/
theorem Cd.land (e : Nat) (hR : ((2 ^ e : Nat) : R) = 0) (hew : e ≤ w) (hb : b < 2 ^ w) (h : Cd w D b n P) :
    Cd w D (2 ^ e - 1) (n &&& mask e w D) P := by
  obtain ⟨Q, h1, h2, rfl, rfl⟩ := h
  induction D generalizing Q with
  | zero =>
    have : Q = 0 := by ext i; simpa using h1 i (Nat.zero_le i)
    subst this
    exact ⟨0, by simp, by simp, by simp [mask], rfl⟩
  | succ D ih =>
    obtain ⟨Q', i1, i2, i3, i4⟩ := ih Q.divX (fun i hi => by rw [coeff_divX]; exact h1 _ (by omega))
      (fun i => by rw [coeff_divX]; exact h2 _)
    have hm : 2 ^ e - 1 < 2 ^ w := by
      have := Nat.pow_le_pow_right (n := 2) (by decide) hew
      have := Nat.two_pow_pos e
      omega
    refine ⟨X * Q' + C (Q.coeff 0 &&& (2 ^ e - 1)), ?_, ?_, ?_, ?_⟩
    · intro i hi
      cases i with
      | zero => omega
      | succ i => rw [coeff_add, coeff_X_mul, i1 i (by omega), coeff_C]; simp
    · intro i
      cases i with
      | zero => rw [coeff_add, coeff_X_mul_zero, coeff_C_zero, zero_add]; exact Nat.and_le_right
      | succ i => rw [coeff_add, coeff_X_mul, coeff_C]; simpa using i2 i
    · rw [eval_add, eval_mul, eval_X, eval_C, i3, mask]
      conv_rhs => rw [← divX_mul_X_add Q, eval_add, eval_mul, eval_X, eval_C, Nat.add_comm, Nat.mul_comm,
        land_slot _ _ _ _ _ (Nat.lt_of_le_of_lt (h2 0) hb) hm]
      rw [Nat.add_comm]
    · conv_rhs => rw [← divX_mul_X_add Q]
      rw [Polynomial.map_add, Polynomial.map_add, Polynomial.map_mul, Polynomial.map_mul, i4, map_C, map_C, mul_comm, map_X]
      congr 2
      rw [Nat.and_two_pow_sub_one_eq_mod]
      have hc := congrArg (Nat.cast (R := R)) (Nat.mod_add_div (Q.coeff 0) (2 ^ e))
      rw [Nat.cast_add, Nat.cast_mul, hR, zero_mul, add_zero] at hc
      exact hc

/-- A number that fits in `D` slots has no further coefficients. -/
theorem Cd.shrink (h : Cd w D b n P) (hn : n < 2 ^ (w * D')) : Cd w D' b n P := by
  obtain ⟨Q, h1, h2, h3, h4⟩ := h
  refine ⟨Q, fun i hi => ?_, h2, h3, h4⟩
  by_contra hne
  have hle : Q.coeff i * (2 ^ w) ^ i ≤ Q.eval (2 ^ w) := by
    rw [eval_eq_sum, Polynomial.sum]
    exact Finset.single_le_sum (f := fun i => Q.coeff i * (2 ^ w) ^ i) (fun _ _ => Nat.zero_le _) (mem_support_iff.mpr hne)
  have h5 : 2 ^ (w * D') ≤ (2 ^ w) ^ i := by
    rw [← Nat.pow_mul]
    exact Nat.pow_le_pow_right (by decide) (Nat.mul_le_mul_left _ hi)
  have h6 : 1 * (2 ^ w) ^ i ≤ Q.coeff i * (2 ^ w) ^ i := Nat.mul_le_mul_right _ (Nat.pos_of_ne_zero hne)
  omega

theorem mask_lt (e : Nat) (hew : e ≤ w) (D : Nat) : mask e w D < 2 ^ (w * D) := by
  have hm : 2 ^ e ≤ 2 ^ w := Nat.pow_le_pow_right (by decide) hew
  have := Nat.two_pow_pos e
  induction D with
  | zero => simp [mask]
  | succ D ih =>
    have h : 2 ^ w * (mask e w D + 1) ≤ 2 ^ w * 2 ^ (w * D) := Nat.mul_le_mul_left _ ih
    rw [mask, Nat.mul_succ, Nat.pow_add, Nat.mul_comm (2 ^ (w * D))]
    rw [Nat.mul_add] at h
    omega

/-- The codes of a polynomial with reduced coefficients are unique: equal numbers store equal polynomials. -/
theorem Cd.unique (hb : b < 2 ^ w) (h : Cd w D b n P) (h' : Cd w D b n P') : P = P' := by
  obtain ⟨Q, h1, h2, rfl, rfl⟩ := h
  obtain ⟨Q', h1', h2', h3', rfl⟩ := h'
  congr 1
  induction D generalizing Q Q' with
  | zero =>
    ext i
    rw [h1 i (Nat.zero_le i), h1' i (Nat.zero_le i)]
  | succ D ih =>
    rw [← divX_mul_X_add Q, ← divX_mul_X_add Q'] at h3'
    simp only [eval_add, eval_mul, eval_X, eval_C] at h3'
    have hq := Nat.lt_of_le_of_lt (h2 0) hb
    have hq' := Nat.lt_of_le_of_lt (h2' 0) hb
    have hm : Q'.coeff 0 = Q.coeff 0 := by
      have := congrArg (· % 2 ^ w) h3'
      simpa [Nat.mul_add_mod_self_right, Nat.mod_eq_of_lt hq, Nat.mod_eq_of_lt hq'] using this
    rw [hm] at h3'
    have h4 := Nat.eq_of_mul_eq_mul_right (Nat.two_pow_pos w) (Nat.add_right_cancel h3')
    rw [← divX_mul_X_add Q, ← divX_mul_X_add Q', hm,
      ih _ (fun i hi => by rw [coeff_divX]; exact h1 _ (by omega)) (fun i => by rw [coeff_divX]; exact h2 _) _
        (fun i hi => by rw [coeff_divX]; exact h1' _ (by omega)) (fun i => by rw [coeff_divX]; exact h2' _) h4]

theorem Cd.shl (h : Cd w D b n P) : Cd w (D + 1) b (n <<< w) (P * X) := by
  obtain ⟨Q, h1, h2, h3, h4⟩ := h
  refine ⟨Q * X, fun i hi => ?_, fun i => ?_, ?_, ?_⟩
  · cases i with
    | zero => omega
    | succ i => rw [coeff_mul_X]; exact h1 i (by omega)
  · cases i with
    | zero => rw [coeff_mul_X_zero]; exact Nat.zero_le _
    | succ i => rw [coeff_mul_X]; exact h2 i
  · rw [eval_mul, h3, eval_X, Nat.shiftLeft_eq]
  · rw [Polynomial.map_mul, h4, map_X]

theorem Cd.one (hb : 1 ≤ b) (hD : 1 ≤ D) : Cd w D b 1 (1 : R[X]) := by
  refine ⟨1, fun i hi => ?_, fun i => ?_, by simp, by simp⟩
  · rw [coeff_one, if_neg (by omega)]
  · rw [coeff_one]; split <;> omega

end

/-- The constants of arithmetic modulo a polynomial of degree `d` over the integers modulo `2^e`: `nf` stores its
opposite, `mu` the quotient of `X^(2d)` by it, `m1` and `m2` are masks of `d` and `2 d` slots. -/
structure Ctx where
  e : Nat
  w : Nat
  d : Nat
  nf : Nat
  mu : Nat
  m1 : Nat
  m2 : Nat

/-- The side conditions, to be checked by evaluation. -/
def Ctx.ok (c : Ctx) : Bool :=
  decide (0 < c.e ∧ c.e ≤ c.w ∧ 0 < c.d ∧
    c.m1 * (2 ^ c.w - 1) = (2 ^ c.e - 1) * (2 ^ (c.w * c.d) - 1) ∧
    c.m2 * (2 ^ c.w - 1) = (2 ^ c.e - 1) * (2 ^ (c.w * (2 * c.d)) - 1) ∧
    (2 ^ c.e - 1) + c.d * ((2 ^ c.e - 1) * (2 ^ c.e - 1)) < 2 ^ c.w)

/-- Product modulo the polynomial; the quotient is estimated with `mu`, and nothing depends on the estimate being
right. -/
def Ctx.mulmod (c : Ctx) (a b : Nat) : Nat :=
  let p := Nat.land (Nat.mul a b) c.m2
  let q := Nat.land (Nat.shiftRight (Nat.mul (Nat.shiftRight p (c.w * c.d)) c.mu) (c.w * c.d)) c.m1
  Nat.land (Nat.add p (Nat.mul q c.nf)) c.m2

/-- `X^N`, by squaring, `i` bits of `N` to go. -/
def Ctx.pw (c : Ctx) (N : Nat) : Nat → Nat → Option Nat
  | 0, a => bif Nat.ble a c.m1 then some a else none
  | i + 1, a =>
    bif Nat.ble a c.m1 then Ctx.pw c N i (c.mulmod a (bif Nat.testBit N i then Nat.shiftLeft a c.w else a)) else none

/-- `c` describes arithmetic modulo `f`. -/
structure Ctx.For {R : Type} [CommRing R] (c : Ctx) (f : R[X]) : Prop where
  ok : c.ok = true
  zero : ((2 ^ c.e : Nat) : R) = 0
  nf : Cd c.w (c.d + 1) (2 ^ c.e - 1) c.nf (-f)

section
variable {R : Type} [CommRing R] {c : Ctx} {f : R[X]}

/-- `n` stores a reduced polynomial. -/
def Ctx.Red (c : Ctx) (n : Nat) (P : R[X]) : Prop := Cd c.w c.d (2 ^ c.e - 1) n P

/-- `n` stores a polynomial of at most twice the degree. -/
def Ctx.Dbl (c : Ctx) (n : Nat) (P : R[X]) : Prop := Cd c.w (2 * c.d) (2 ^ c.e - 1) n P

theorem Ctx.For.consts (h : c.For f) : 0 < c.e ∧ c.e ≤ c.w ∧ 0 < c.d ∧ c.m1 = mask c.e c.w c.d ∧
    c.m2 = mask c.e c.w (2 * c.d) ∧ (2 ^ c.e - 1) + c.d * ((2 ^ c.e - 1) * (2 ^ c.e - 1)) < 2 ^ c.w := by
  obtain ⟨h1, h2, h3, h4, h5, h6⟩ := of_decide_eq_true h.ok
  exact ⟨h1, h2, h3, mask_unique _ _ _ _ (by omega) h4, mask_unique _ _ _ _ (by omega) h5, h6⟩

theorem Ctx.For.red (h : c.For f) {n : Nat} {P : R[X]} (hd : c.Dbl n P) (hn : Nat.ble n c.m1 = true) : c.Red n P := by
  obtain ⟨h1, h2, h3, h4, h5, h6⟩ := h.consts
  have := mask_lt c.e h2 c.d
  have := Nat.le_of_ble_eq_true hn
  exact Cd.shrink hd (by omega)

theorem Ctx.Red.dbl {n : Nat} {P : R[X]} (h : c.Red n P) : c.Dbl n P := Cd.mono h (by omega) le_rfl

theorem Ctx.For.mulmod' (h : c.For f) {a b : Nat} {P P' : R[X]} (ha : c.Red a P)
    (hb : Cd c.w (c.d + 1) (2 ^ c.e - 1) b P') :
    ∃ P'' : R[X], c.Dbl (c.mulmod a b) P'' ∧ f ∣ P * P' - P'' := by
  obtain ⟨h1, h2, h3, h4, h5, h6⟩ := h.consts
  have hp := Cd.land (D := 2 * c.d) c.e h.zero h2 (by omega) (Cd.mono (Cd.mul ha hb) (by omega) le_rfl)
  obtain ⟨q, hq⟩ := Cd.exists_mask (R := R) (w := c.w) (D := c.d) c.e h2
    (Nat.shiftRight (Nat.mul (Nat.shiftRight (a * b &&& mask c.e c.w (2 * c.d)) (c.w * c.d)) c.mu) (c.w * c.d))
  have hr := Cd.land (D := 2 * c.d) c.e h.zero h2 (by omega)
    (Cd.add hp (Cd.mono (Cd.mul hq h.nf) (D' := 2 * c.d) (by omega) le_rfl))
  refine ⟨P * P' + q * -f, ?_, ?_⟩
  · unfold Ctx.Dbl Ctx.mulmod
    rw [h4, h5]
    exact hr
  · exact ⟨q, by ring⟩

theorem Ctx.For.mulmod (h : c.For f) {a b : Nat} {P P' : R[X]} (ha : c.Red a P) (hb : c.Red b P') :
    ∃ P'' : R[X], c.Dbl (c.mulmod a b) P'' ∧ f ∣ P * P' - P'' :=
  h.mulmod' ha (Cd.mono hb (by omega) le_rfl)

theorem shiftRight_bit (N i : Nat) : N >>> i = 2 * (N >>> (i + 1)) + (N.testBit i).toNat := by
  rw [Nat.shiftRight_succ, Nat.testBit_eq_decide_div_mod_eq, ← Nat.shiftRight_eq_div_pow]
  have := Nat.mod_add_div (N >>> i) 2
  have h2 : (decide (N >>> i % 2 = 1)).toNat = N >>> i % 2 := by
    rcases Nat.mod_two_eq_zero_or_one (N >>> i) with h | h <;> rw [h] <;> rfl
  rw [h2]
  omega

theorem Ctx.For.pw (h : c.For f) (N : Nat) : ∀ (i a : Nat) (P : R[X]), c.Dbl a P → f ∣ X ^ (N >>> i) - P →
    ∀ r, c.pw N i a = some r → ∃ P', c.Red r P' ∧ f ∣ X ^ N - P' := by
  intro i
  induction i with
  | zero =>
    intro a P ha hP r hr
    rw [Ctx.pw] at hr
    by_cases hle : Nat.ble a c.m1 = true
    · rw [hle, cond_true, Option.some.injEq] at hr
      subst hr
      exact ⟨P, h.red ha hle, hP⟩
    · rw [Bool.not_eq_true] at hle
      rw [hle] at hr
      contradiction
  | succ i ih =>
    intro a P ha hP r hr
    rw [Ctx.pw] at hr
    by_cases hle : Nat.ble a c.m1 = true
    · rw [hle, cond_true] at hr
      have ha := h.red ha hle
      obtain ⟨P', h1, h2⟩ : ∃ P' : R[X], Cd c.w (c.d + 1) (2 ^ c.e - 1) (bif N.testBit i then a <<< c.w else a) P' ∧
          P' = P * X ^ (N.testBit i).toNat := by
        cases N.testBit i with
        | true => exact ⟨_, Cd.shl ha, by simp⟩
        | false => exact ⟨_, Cd.mono ha (by omega) le_rfl, by simp⟩
      obtain ⟨P'', h3, h4⟩ := h.mulmod' ha h1
      refine ih _ P'' h3 ?_ r hr
      rw [shiftRight_bit, pow_add, pow_mul']
      have h5 : (X ^ (N >>> (i + 1))) ^ 2 * X ^ (N.testBit i).toNat - P'' =
          (X ^ (N >>> (i + 1)) - P) * ((X ^ (N >>> (i + 1)) + P) * X ^ (N.testBit i).toNat) + (P * P' - P'') := by
        rw [h2]; ring
      rw [h5]
      exact dvd_add (hP.mul_right _) h4
    · rw [Bool.not_eq_true] at hle
      rw [hle] at hr
      contradiction

/-- `X^N`, where `N` has at most `k` bits. -/
theorem Ctx.For.pow (h : c.For f) {N k r : Nat} (hN : N < 2 ^ k) (hr : c.pw N k 1 = some r) :
    ∃ P', c.Red r P' ∧ f ∣ X ^ N - P' := by
  obtain ⟨h1, h2, h3, -⟩ := h.consts
  have he : 2 ^ 1 ≤ 2 ^ c.e := Nat.pow_le_pow_right (by decide) h1
  refine h.pw N k 1 1 (Cd.one (by omega) (by omega)) ?_ r hr
  rw [Nat.shiftRight_eq_div_pow, Nat.div_eq_of_lt hN, pow_zero, sub_self]
  exact dvd_zero _

theorem Ctx.For.unique (h : c.For f) {n : Nat} {P P' : R[X]} (h1 : c.Dbl n P) (h2 : c.Dbl n P') : P = P' := by
  obtain ⟨-, h2', h3, -⟩ := h.consts
  have hm : 2 ^ c.e ≤ 2 ^ c.w := Nat.pow_le_pow_right (by decide) h2'
  have := Nat.two_pow_pos c.e
  exact Cd.unique (by omega) h1 h2

end
end Crazy.Kron
