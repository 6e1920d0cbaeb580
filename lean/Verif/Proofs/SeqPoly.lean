/-
Polynomials acting on sequences, and evaluated certificates over the integers modulo `2^e`.
-/
import Verif.Proofs.Kron
import Mathlib.Algebra.Polynomial.AlgebraMap
import Mathlib.Algebra.Module.LinearMap.End
import Mathlib.Data.ZMod.Basic
namespace Crazy.Kron
open Polynomial

section
variable {R : Type} [CommRing R]

/-- The shift of sequences. -/
def shift (R : Type) [CommRing R] : Module.End R (ℕ → R) where
  toFun s := fun k => s (k + 1)
  map_add' _ _ := rfl
  map_smul' _ _ := rfl

theorem shift_pow (n : Nat) (s : ℕ → R) (k : Nat) : (shift R ^ n) s k = s (k + n) := by
  induction n generalizing k with
  | zero => rfl
  | succ n ih =>
    rw [pow_succ', Module.End.mul_apply]
    show (shift R ^ n) s (k + 1) = _
    rw [ih, Nat.add_right_comm, Nat.add_assoc]

theorem aeval_X_pow_shift (n : Nat) (s : ℕ → R) (k : Nat) : aeval (shift R) (X ^ n : R[X]) s k = s (k + n) := by
  rw [map_pow, aeval_X, shift_pow]

theorem act_of_dvd {f P P' : R[X]} {s : ℕ → R} (hs : aeval (shift R) f s = 0) (h : f ∣ P - P') :
    aeval (shift R) P s = aeval (shift R) P' s := by
  obtain ⟨q, hq⟩ := h
  have h1 : aeval (shift R) (P - P') s = 0 := by
    rw [hq, mul_comm, map_mul, Module.End.mul_apply, hs, map_zero]
  rwa [map_sub, LinearMap.sub_apply, sub_eq_zero] at h1

/-- `∑ⱼ nⱼ sⱼ`, the `nⱼ` being the slots of `n`. -/
def dotf (w : Nat) : Nat → Nat → (ℕ → R) → R
  | 0, _, _ => 0
  | D + 1, n, s => ((n % 2 ^ w : Nat) : R) * s 0 + dotf w D (n / 2 ^ w) (fun k => s (k + 1))

theorem Cd.act {w D b n : Nat} {P : R[X]} (hb : b < 2 ^ w) (h : Cd w D b n P) (s : ℕ → R) (k : Nat) :
    aeval (shift R) P s k = dotf w D n (fun j => s (k + j)) := by
  obtain ⟨Q, h1, h2, rfl, rfl⟩ := h
  induction D generalizing Q k with
  | zero =>
    have : Q = 0 := by ext i; simpa using h1 i (Nat.zero_le i)
    subst this
    simp [dotf]
  | succ D ih =>
    have hq := Nat.lt_of_le_of_lt (h2 0) hb
    have e : Q.eval (2 ^ w) = Q.divX.eval (2 ^ w) * 2 ^ w + Q.coeff 0 := by
      conv_lhs => rw [← divX_mul_X_add Q]
      simp
    rw [dotf, e, Nat.mul_comm, Nat.mul_add_mod, Nat.mod_eq_of_lt hq, Nat.mul_add_div (Nat.two_pow_pos w),
      Nat.div_eq_of_lt hq]
    simp only [Nat.add_zero]
    have ih' := ih (k + 1) Q.divX (fun i hi => by rw [coeff_divX]; exact h1 _ (by omega))
      (fun i => by rw [coeff_divX]; exact h2 _)
    have e2 : (fun j => s (k + (j + 1))) = fun j => s (k + 1 + j) := by
      funext j; congr 1; omega
    rw [e2, ← ih']
    conv_lhs => rw [← divX_mul_X_add Q]
    rw [Polynomial.map_add, Polynomial.map_mul, map_X, map_C, map_add, mul_comm, map_mul, aeval_X, aeval_C,
      LinearMap.add_apply, Module.End.mul_apply, Pi.add_apply, add_comm]
    rfl

variable {c : Ctx} {f : R[X]}

/-- `X^N = 1` modulo the polynomial. -/
theorem Ctx.For.pow_one (h : c.For f) {N k : Nat} (hN : N < 2 ^ k) (hr : c.pw N k 1 = some 1) : f ∣ X ^ N - 1 := by
  obtain ⟨P, h1, h2⟩ := h.pow hN hr
  obtain ⟨c1, c2, c3, -⟩ := h.consts
  have he : 2 ^ 1 ≤ 2 ^ c.e := Nat.pow_le_pow_right (by decide) c1
  have h3 : c.Dbl 1 (1 : R[X]) := Cd.one (by omega) (by omega)
  rwa [h.unique h1.dbl h3] at h2

theorem Ctx.For.exists_red (h : c.For f) {v : Nat} (hv : Nat.land v c.m1 = v) : ∃ P : R[X], c.Red v P := by
  obtain ⟨c1, c2, c3, c4, -⟩ := h.consts
  obtain ⟨P, hP⟩ := Cd.exists_mask (R := R) (w := c.w) (D := c.d) c.e c2 v
  refine ⟨P, ?_⟩
  rw [← c4] at hP
  have e : v &&& c.m1 = v := hv
  rwa [e] at hP

/-- `v (X^N - 1) = 1` modulo the polynomial. -/
def Ctx.invE (c : Ctx) (N k v : Nat) : Bool :=
  decide (N < 2 ^ k) && (Nat.beq (Nat.land v c.m1) v && match c.pw N k 1 with
    | some a => Nat.beq (c.mulmod v a) (Nat.land (Nat.add v 1) c.m2)
    | none => false)

theorem Ctx.For.bound (h : c.For f) : 2 ^ c.e - 1 + 1 < 2 ^ c.w := by
  obtain ⟨c1, c2, c3, c4, c5, c6⟩ := h.consts
  have h1 : 2 ^ 1 ≤ 2 ^ c.e := Nat.pow_le_pow_right (by decide) c1
  have h2 : 1 * (1 * 1) ≤ c.d * ((2 ^ c.e - 1) * (2 ^ c.e - 1)) :=
    Nat.mul_le_mul (by omega) (Nat.mul_le_mul (by omega) (by omega))
  omega

theorem Ctx.For.one_red (h : c.For f) : c.Red 1 (1 : R[X]) := by
  obtain ⟨c1, c2, c3, -⟩ := h.consts
  have he : 2 ^ 1 ≤ 2 ^ c.e := Nat.pow_le_pow_right (by decide) c1
  exact Cd.one (by omega) (by omega)

theorem Ctx.For.add_dbl (h : c.For f) (h3 : 3 ≤ c.d) {a b : Nat} {P P' : R[X]} (ha : c.Dbl a P) (hb : c.Dbl b P') :
    c.Dbl (Nat.land (Nat.add a b) c.m2) (P + P') := by
  obtain ⟨c1, c2, c3, c4, c5, c6⟩ := h.consts
  rw [c5]
  refine Cd.land c.e h.zero c2 ?_ (Cd.add ha hb)
  have h1 : 2 ^ 1 ≤ 2 ^ c.e := Nat.pow_le_pow_right (by decide) c1
  have h2 : 3 * ((2 ^ c.e - 1) * 1) ≤ c.d * ((2 ^ c.e - 1) * (2 ^ c.e - 1)) :=
    Nat.mul_le_mul h3 (Nat.mul_le_mul le_rfl (by omega))
  omega

theorem Ctx.For.invE (h : c.For f) (h3 : 3 ≤ c.d) {N k v : Nat} (hc : c.invE N k v = true) :
    ∃ U : R[X], f ∣ U * (X ^ N - 1) - 1 := by
  simp only [Ctx.invE, Bool.and_eq_true] at hc
  obtain ⟨hN, hv, hm⟩ := hc
  have hN := of_decide_eq_true hN
  obtain ⟨U, hU⟩ := h.exists_red (Nat.eq_of_beq_eq_true hv)
  cases hp : c.pw N k 1 with
  | none => rw [hp] at hm; contradiction
  | some a =>
    rw [hp] at hm
    have hm : c.mulmod v a = Nat.land (Nat.add v 1) c.m2 := Nat.eq_of_beq_eq_true hm
    obtain ⟨P, h4, h5⟩ := h.pow hN hp
    obtain ⟨P'', h6, h7⟩ := h.mulmod hU h4
    rw [hm] at h6
    rw [h.unique h6 (h.add_dbl h3 hU.dbl h.one_red.dbl)] at h7
    refine ⟨U, ?_⟩
    have e : U * (X ^ N - 1) - 1 = U * (X ^ N - P) + (U * P - (U + 1)) := by ring
    rw [e]
    exact dvd_add (h5.mul_left _) h7

/-- `v (X^N - X^M - 1) = 1` modulo the polynomial. -/
def Ctx.invTri (c : Ctx) (N M k v : Nat) : Bool :=
  decide (N < 2 ^ k ∧ M < 2 ^ k) && (Nat.beq (Nat.land v c.m1) v && match c.pw N k 1, c.pw M k 1 with
    | some a, some b => Nat.beq (c.mulmod v a) (Nat.land (Nat.add (c.mulmod v b) (Nat.land (Nat.add v 1) c.m2)) c.m2)
    | _, _ => false)

theorem Ctx.For.invTri (h : c.For f) (h3 : 3 ≤ c.d) {N M k v : Nat} (hc : c.invTri N M k v = true) :
    ∃ U : R[X], f ∣ U * (X ^ N - X ^ M - 1) - 1 := by
  simp only [Ctx.invTri, Bool.and_eq_true] at hc
  obtain ⟨hN, hv, hm⟩ := hc
  obtain ⟨hN, hM⟩ := of_decide_eq_true hN
  obtain ⟨U, hU⟩ := h.exists_red (Nat.eq_of_beq_eq_true hv)
  cases hp : c.pw N k 1 with
  | none => rw [hp] at hm; contradiction
  | some a =>
    cases hq : c.pw M k 1 with
    | none => rw [hp, hq] at hm; contradiction
    | some b =>
      rw [hp, hq] at hm
      have hm : c.mulmod v a = Nat.land (Nat.add (c.mulmod v b) (Nat.land (Nat.add v 1) c.m2)) c.m2 :=
        Nat.eq_of_beq_eq_true hm
      obtain ⟨P, h4, h5⟩ := h.pow hN hp
      obtain ⟨P', h4', h5'⟩ := h.pow hM hq
      obtain ⟨P1, h6, h7⟩ := h.mulmod hU h4
      obtain ⟨P2, h6', h7'⟩ := h.mulmod hU h4'
      rw [hm] at h6
      rw [h.unique h6 (h.add_dbl h3 h6' (h.add_dbl h3 hU.dbl h.one_red.dbl))] at h7
      refine ⟨U, ?_⟩
      have e : U * (X ^ N - X ^ M - 1) - 1 = U * (X ^ N - P) - U * (X ^ M - P') + (U * P - (P2 + (U + 1))) - (U * P' - P2) := by
        ring
      rw [e]
      exact dvd_sub (dvd_add (dvd_sub (h5.mul_left _) (h5'.mul_left _)) h7) h7'

/-- `v (X^N + X^M - 1) = 1` modulo the polynomial. -/
def Ctx.invTri' (c : Ctx) (N M k v : Nat) : Bool :=
  decide (N < 2 ^ k ∧ M < 2 ^ k) && (Nat.beq (Nat.land v c.m1) v && match c.pw N k 1, c.pw M k 1 with
    | some a, some b => Nat.beq (Nat.land (Nat.add (c.mulmod v a) (c.mulmod v b)) c.m2) (Nat.land (Nat.add v 1) c.m2)
    | _, _ => false)

theorem Ctx.For.invTri' (h : c.For f) (h3 : 3 ≤ c.d) {N M k v : Nat} (hc : c.invTri' N M k v = true) :
    ∃ U : R[X], f ∣ U * (X ^ N + X ^ M - 1) - 1 := by
  simp only [Ctx.invTri', Bool.and_eq_true] at hc
  obtain ⟨hN, hv, hm⟩ := hc
  obtain ⟨hN, hM⟩ := of_decide_eq_true hN
  obtain ⟨U, hU⟩ := h.exists_red (Nat.eq_of_beq_eq_true hv)
  cases hp : c.pw N k 1 with
  | none => rw [hp] at hm; contradiction
  | some a =>
    cases hq : c.pw M k 1 with
    | none => rw [hp, hq] at hm; contradiction
    | some b =>
      rw [hp, hq] at hm
      have hm : Nat.land (Nat.add (c.mulmod v a) (c.mulmod v b)) c.m2 = Nat.land (Nat.add v 1) c.m2 :=
        Nat.eq_of_beq_eq_true hm
      obtain ⟨P, h4, h5⟩ := h.pow hN hp
      obtain ⟨P', h4', h5'⟩ := h.pow hM hq
      obtain ⟨P1, h6, h7⟩ := h.mulmod hU h4
      obtain ⟨P2, h6', h7'⟩ := h.mulmod hU h4'
      have h8 := h.add_dbl h3 h6 h6'
      rw [hm] at h8
      have h9 := h.unique h8 (h.add_dbl h3 hU.dbl h.one_red.dbl)
      refine ⟨U, ?_⟩
      have e : U * (X ^ N + X ^ M - 1) - 1 =
          U * (X ^ N - P) + U * (X ^ M - P') + (U * P - P1) + (U * P' - P2) + ((P1 + P2) - (U + 1)) := by
        ring
      rw [e, h9, sub_self, add_zero]
      exact dvd_add (dvd_add (dvd_add (h5.mul_left _) (h5'.mul_left _)) h7) h7'

/-- `∑ᵢ nᵢ (j + i)`, the `nᵢ` being the slots of `n`. -/
def dotN (w : Nat) : Nat → Nat → Nat → Nat
  | 0, _, _ => 0
  | D + 1, n, j => Nat.add (Nat.mul (Nat.mod n (2 ^ w)) j) (dotN w D (Nat.shiftRight n w) (Nat.succ j))

theorem dotf_eq_dotN (w D n j : Nat) (s : ℕ → R) (h : ∀ i < D, s i = ((j + i : Nat) : R)) :
    dotf w D n s = (dotN w D n j : R) := by
  induction D generalizing n j s with
  | zero => simp [dotf, dotN]
  | succ D ih =>
    have h1 := ih (n / 2 ^ w) (j + 1) (fun k => s (k + 1)) (fun i hi => by
      rw [h (i + 1) (by omega)]; congr 1; omega)
    rw [dotf, h1, h 0 (by omega), dotN]
    show _ = ((n % 2 ^ w * j + dotN w D (n >>> w) (j + 1) : Nat) : R)
    rw [Nat.shiftRight_eq_div_pow, Nat.add_zero, Nat.cast_add, Nat.cast_mul]

/-- The words `l` come out one after the other, where `r` stands for the first one and the sequence begins
`0, 1, 2, ...`. -/
def Ctx.walk (c : Ctx) : Nat → List Nat → Bool
  | _, [] => true
  | r, x :: l => Nat.ble r c.m1 && (Nat.beq (Nat.mod (dotN c.w c.d r 0) (2 ^ c.e)) x && c.walk (c.mulmod r (1 <<< c.w)) l)

theorem Ctx.For.walk (h : c.For f) {s : ℕ → R} (hs : aeval (shift R) f s = 0) (h0 : ∀ i < c.d, s i = ((i : Nat) : R)) :
    ∀ (l : List Nat) (r N : Nat) (P : R[X]), c.Dbl r P → f ∣ X ^ N - P → c.walk r l = true →
      ∀ i (hi : i < l.length), s (N + i) = ((l[i] : Nat) : R) := by
  intro l
  induction l with
  | nil => intro r N P _ _ _ i hi; simp at hi
  | cons x l ih =>
    intro r N P hr hP hw i hi
    rw [Ctx.walk, Bool.and_eq_true, Bool.and_eq_true] at hw
    obtain ⟨w1, w2, w3⟩ := hw
    have hr := h.red hr w1
    cases i with
    | zero =>
      have h1 := congrFun (act_of_dvd hs hP) 0
      rw [aeval_X_pow_shift, Cd.act (by have := h.bound; omega) hr,
        dotf_eq_dotN c.w c.d r 0 _ (fun i hi => by simpa using h0 i hi)] at h1
      have h2 : dotN c.w c.d r 0 % 2 ^ c.e = x := Nat.eq_of_beq_eq_true w2
      have h3 : ((dotN c.w c.d r 0 % 2 ^ c.e : Nat) : R) = dotN c.w c.d r 0 := by
        conv_rhs => rw [← Nat.mod_add_div (dotN c.w c.d r 0) (2 ^ c.e), Nat.cast_add, Nat.cast_mul, h.zero, zero_mul, add_zero]
      rw [Nat.add_zero, ← Nat.zero_add N, h1, ← h3, h2]
      rfl
    | succ i =>
      obtain ⟨P'', h4, h5⟩ := h.mulmod' hr (Cd.shl h.one_red)
      have h6 : f ∣ X ^ (N + 1) - P'' := by
        have e : X ^ (N + 1) - P'' = (X ^ N - P) * X + (P * (1 * X) - P'') := by ring
        rw [e]
        exact dvd_add (hP.mul_right _) h5
      have h7 := ih _ (N + 1) P'' h4 h6 w3 i (by simpa using hi)
      rw [show N + (i + 1) = N + 1 + i by omega, h7]
      rfl

end
end Crazy.Kron
