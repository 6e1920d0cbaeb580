/-
Periods of linear maps over the field with two elements, from evaluated certificates.
-/
import Verif.Proofs.Kron
import Mathlib.Algebra.Field.ZMod
import Mathlib.Algebra.CharP.Two
import Mathlib.Algebra.Polynomial.AlgebraMap
import Mathlib.Algebra.Module.ZMod
import Mathlib.Dynamics.PeriodicPts.Lemmas
import Mathlib.NumberTheory.LucasPrimality
namespace Crazy.Kron
open Polynomial

/-- The polynomial whose coefficient of `X^i` is bit `i` of `c`, for `i < D`. -/
noncomputable def bp : Nat → Nat → (ZMod 2)[X]
  | 0, _ => 0
  | D + 1, c => C ((c % 2 : Nat) : ZMod 2) + X * bp D (c / 2)

/-- Bit `i` of `c` in slot `i`. -/
def spread (w : Nat) : Nat → Nat → Nat
  | 0, _ => 0
  | D + 1, c => Nat.add (Nat.mod c 2) (Nat.mul (2 ^ w) (spread w D (Nat.div c 2)))

theorem spread_cd (w D c : Nat) : Cd w D 1 (spread w D c) (bp D c) := by
  induction D generalizing c with
  | zero => exact ⟨0, by simp, by simp, by simp [spread], by simp [bp]⟩
  | succ D ih =>
    obtain ⟨Q, h1, h2, h3, h4⟩ := ih (c / 2)
    refine ⟨C (c % 2) + X * Q, ?_, ?_, ?_, ?_⟩
    · intro i hi
      cases i with
      | zero => omega
      | succ i => rw [coeff_add, coeff_X_mul, h1 i (by omega), coeff_C]; simp
    · intro i
      cases i with
      | zero => rw [coeff_add, coeff_X_mul_zero, coeff_C_zero, add_zero]; omega
      | succ i => rw [coeff_add, coeff_X_mul, coeff_C]; simpa using h2 i
    · rw [eval_add, eval_mul, eval_X, eval_C, h3]; rfl
    · rw [Polynomial.map_add, Polynomial.map_mul, h4, map_C, map_X]; rfl

/-- The checks behind `Ctx.For` over the field with two elements. -/
def Ctx.ok2 (c : Ctx) (f : Nat) : Bool := c.ok && (Nat.beq c.e 1 && Nat.beq c.nf (spread c.w (c.d + 1) f))

theorem Ctx.ok2_for {c : Ctx} {f : Nat} (h : c.ok2 f = true) : c.For (bp (c.d + 1) f) := by
  simp only [Ctx.ok2, Bool.and_eq_true] at h
  obtain ⟨h1, h2, h3⟩ := h
  have h2 := Nat.eq_of_beq_eq_true h2
  have h3 := Nat.eq_of_beq_eq_true h3
  refine ⟨h1, ?_, ?_⟩
  · rw [h2]; rfl
  · rw [h2, h3, CharTwo.neg_eq]
    exact spread_cd _ _ _

/-- `X^N = r` modulo the polynomial, `N` having at most `k` bits; `r` bit by bit. -/
def Ctx.powIs (c : Ctx) (N k r : Nat) : Bool :=
  decide (N < 2 ^ k) && match c.pw N k 1 with
    | some a => Nat.beq a (spread c.w c.d r)
    | none => false

theorem Ctx.powIs_dvd {c : Ctx} {f N k r : Nat} (hc : c.ok2 f = true) (h : c.powIs N k r = true) :
    bp (c.d + 1) f ∣ X ^ N - bp c.d r := by
  have hf := Ctx.ok2_for hc
  have he : c.e = 1 := by
    simp only [Ctx.ok2, Bool.and_eq_true] at hc
    exact Nat.eq_of_beq_eq_true hc.2.1
  simp only [Ctx.powIs, Bool.and_eq_true] at h
  obtain ⟨h1, h2⟩ := h
  have h1 := of_decide_eq_true h1
  cases hp : c.pw N k 1 with
  | none => rw [hp] at h2; contradiction
  | some a =>
    rw [hp] at h2
    have h2 := Nat.eq_of_beq_eq_true h2
    obtain ⟨P, h3, h4⟩ := hf.pow h1 hp
    have h5 : c.Red a (bp c.d r) := by
      rw [h2]
      unfold Ctx.Red
      rw [he]
      exact spread_cd _ _ _
    rwa [hf.unique h3.dbl h5.dbl] at h4

/-- `u (X^N - 1) = 1` modulo the polynomial. -/
def Ctx.invCheck (c : Ctx) (N k u : Nat) : Bool :=
  decide (N < 2 ^ k) && match c.pw N k 1 with
    | some a => Nat.beq (c.mulmod (spread c.w c.d u) a) (Nat.land (Nat.add (spread c.w c.d u) 1) c.m2)
    | none => false

theorem Ctx.invCheck_dvd {c : Ctx} {f N k u : Nat} (hc : c.ok2 f = true) (h : c.invCheck N k u = true) :
    ∃ U : (ZMod 2)[X], bp (c.d + 1) f ∣ U * (X ^ N - 1) - 1 := by
  have hf := Ctx.ok2_for hc
  have he : c.e = 1 := by
    simp only [Ctx.ok2, Bool.and_eq_true] at hc
    exact Nat.eq_of_beq_eq_true hc.2.1
  simp only [Ctx.invCheck, Bool.and_eq_true] at h
  obtain ⟨h1, h2⟩ := h
  have h1 := of_decide_eq_true h1
  cases hp : c.pw N k 1 with
  | none => rw [hp] at h2; contradiction
  | some a =>
    rw [hp] at h2
    have h2 : c.mulmod (spread c.w c.d u) a = (spread c.w c.d u + 1) &&& c.m2 := Nat.eq_of_beq_eq_true h2
    obtain ⟨P, h3, h4⟩ := hf.pow h1 hp
    obtain ⟨c1, c2, c3, c4, c5, c6⟩ := hf.consts
    have hu : Cd c.w c.d (2 ^ c.e - 1) (spread c.w c.d u) (bp c.d u) := by
      rw [he]; exact spread_cd _ _ _
    have hd : 1 ≤ c.d := c3
    have h7 : Cd c.w (2 * c.d) (2 ^ c.e - 1) ((spread c.w c.d u + 1) &&& c.m2) (bp c.d u + 1) := by
      rw [c5]
      have hw : 2 ^ 1 - 1 + 1 < 2 ^ c.w := by
        rw [he] at c6
        have : (2 ^ 1 - 1) + 1 * ((2 ^ 1 - 1) * (2 ^ 1 - 1)) ≤ (2 ^ 1 - 1) + c.d * ((2 ^ 1 - 1) * (2 ^ 1 - 1)) := by
          have := Nat.mul_le_mul_right ((2 ^ 1 - 1) * (2 ^ 1 - 1)) hd
          omega
        omega
      refine Cd.land (b := 2 ^ 1 - 1 + 1) c.e hf.zero c2 hw ?_
      have h8 := Cd.mono hu (D' := 2 * c.d) (by omega) le_rfl
      rw [he] at h8
      exact Cd.add h8 (Cd.one (by omega) (by omega))
    obtain ⟨P'', h8, h9⟩ := hf.mulmod hu h3
    rw [h2] at h8
    rw [hf.unique h8 h7] at h9
    refine ⟨bp c.d u, ?_⟩
    have h10 : bp c.d u * (X ^ N - 1) - 1 = bp c.d u * (X ^ N - P) + (bp c.d u * P - (bp c.d u + 1)) := by ring
    rw [h10]
    exact dvd_add (h4.mul_left _) h9

/-! ### From divisibility to periods -/

section
variable {V : Type} [AddCommGroup V] [Module (ZMod 2) V]

theorem aeval_of_dvd (T : Module.End (ZMod 2) V) {f P P' : (ZMod 2)[X]} (hT : aeval T f = 0) (h : f ∣ P - P') :
    aeval T P = aeval T P' := by
  obtain ⟨q, hq⟩ := h
  have : aeval T (P - P') = 0 := by rw [hq, map_mul, hT, zero_mul]
  rwa [map_sub, sub_eq_zero] at this

theorem period_of_cert (T : Module.End (ZMod 2) V) {f : (ZMod 2)[X]} (hT : aeval T f = 0) {N : Nat}
    (h1 : f ∣ X ^ N - 1)
    (hq : ∀ q, q.Prime → q ∣ N → ∃ U : (ZMod 2)[X], f ∣ U * (X ^ (N / q) - 1) - 1) (v : V) (hv : v ≠ 0) :
    ∀ n, T^[n] v = v ↔ N ∣ n := by
  have hp : ∀ n, (T ^ n) v = T^[n] v := fun n => by rw [Module.End.pow_apply]
  have hN : Function.IsPeriodicPt T N v := by
    have := aeval_of_dvd T hT h1
    rw [map_pow, aeval_X, map_one] at this
    rw [Function.IsPeriodicPt, Function.IsFixedPt, ← hp, this]
    rfl
  have hm : Function.minimalPeriod T v = N := by
    have hdvd := hN.minimalPeriod_dvd
    obtain ⟨k, hk⟩ := hdvd
    by_cases hk1 : k = 1
    · rw [hk, hk1, Nat.mul_one]
    · exfalso
      obtain ⟨q, hqp, j, hj⟩ := Nat.exists_prime_and_dvd hk1
      obtain ⟨U, hU⟩ := hq q hqp ⟨Function.minimalPeriod T v * j, by rw [hk, hj]; ring⟩
      have hNq : N / q = Function.minimalPeriod T v * j := by
        rw [hk, hj, show Function.minimalPeriod T v * (q * j) = q * (Function.minimalPeriod T v * j) by ring]
        exact Nat.mul_div_cancel_left _ hqp.pos
      have hper : Function.IsPeriodicPt T (N / q) v := by
        rw [hNq]
        exact (Function.isPeriodicPt_minimalPeriod T v).mul_const j
      have h3 := congrArg (fun g : Module.End (ZMod 2) V => g v) (aeval_of_dvd T hT hU)
      simp only [map_mul, map_sub, map_pow, aeval_X, map_one, Module.End.mul_apply, LinearMap.sub_apply] at h3
      rw [hp, hper, Module.End.one_apply, sub_self] at h3
      exact hv h3.symm
  intro n
  rw [← hm]
  exact Function.isPeriodicPt_iff_minimalPeriod_dvd

end

/-! ### Primes -/

/-- `a^N mod p`, `i` bits of `N` to go. -/
def pwm (p a N : Nat) : Nat → Nat → Nat
  | 0, r => r
  | i + 1, r => bif Nat.ble r p then
      pwm p a N i (Nat.mod (Nat.mul (Nat.mul r r) (bif Nat.testBit N i then a else 1)) p) else 0

theorem pwm_eq (p a N : Nat) (hp : 0 < p) : ∀ i r, r ≤ p → (r : ZMod p) = (a : ZMod p) ^ (N >>> i) →
    (pwm p a N i r : ZMod p) = (a : ZMod p) ^ N := by
  intro i
  induction i with
  | zero => intro r _ h; rw [pwm, h]; rfl
  | succ i ih =>
    intro r hr h
    rw [pwm, Nat.ble_eq_true_of_le hr, cond_true]
    refine ih _ (Nat.mod_lt _ hp).le ?_
    show ((r * r * _ % p : Nat) : ZMod p) = _
    rw [ZMod.natCast_mod, shiftRight_bit, pow_add, pow_mul', ← h]
    cases N.testBit i <;> simp [pow_two]

/-- Lucas' certificate of primality: `a` has order `p - 1`, whose prime factors are among `qs`. -/
def lucasCheck (p a k : Nat) (qs : List Nat) : Bool :=
  decide (1 < p ∧ p < 2 ^ k) && (Nat.beq (pwm p a (p - 1) k 1) 1 &&
    (Nat.beq (qs.foldl Nat.mul 1) (p - 1) &&
      qs.all fun q => !(Nat.beq (Nat.mod (pwm p a ((p - 1) / q) k 1) p) 1)))

theorem prime_dvd_foldl (q : Nat) (hq : q.Prime) (qs : List Nat) (hqs : ∀ r ∈ qs, r.Prime) (m : Nat)
    (h : q ∣ qs.foldl Nat.mul m) : q ∈ qs ∨ q ∣ m := by
  induction qs generalizing m with
  | nil => exact Or.inr h
  | cons r rs ih =>
    rcases ih (fun r' hr' => hqs r' (List.mem_cons_of_mem _ hr')) _ h with h1 | h1
    · exact Or.inl (List.mem_cons_of_mem _ h1)
    · rcases (Nat.Prime.dvd_mul hq).mp h1 with h2 | h2
      · exact Or.inr h2
      · rw [(Nat.prime_dvd_prime_iff_eq hq (hqs r List.mem_cons_self)).mp h2]
        exact Or.inl List.mem_cons_self

theorem lucas_prime {p a k : Nat} {qs : List Nat} (hqs : ∀ r ∈ qs, r.Prime) (h : lucasCheck p a k qs = true) : p.Prime := by
  simp only [lucasCheck, Bool.and_eq_true, List.all_eq_true] at h
  obtain ⟨h1, h2, h3, h4⟩ := h
  obtain ⟨hp, hk⟩ := of_decide_eq_true h1
  have h2 := Nat.eq_of_beq_eq_true h2
  have h3 := Nat.eq_of_beq_eq_true h3
  have key : ∀ N, N < 2 ^ k → (pwm p a N k 1 : ZMod p) = (a : ZMod p) ^ N := by
    intro N hN
    refine pwm_eq p a N (by omega) k 1 (by omega) ?_
    rw [Nat.shiftRight_eq_div_pow, Nat.div_eq_of_lt hN, pow_zero, Nat.cast_one]
  refine lucas_primality p (a : ZMod p) ?_ ?_
  · rw [← key _ (by omega), h2, Nat.cast_one]
  · intro q hq hdvd
    rw [← h3] at hdvd
    rcases prime_dvd_foldl q hq qs hqs 1 hdvd with hm | hm
    · have h5 := h4 q hm
      rw [← key _ (lt_of_le_of_lt (Nat.div_le_self _ _) (by omega))]
      intro heq
      have heq := (ZMod.natCast_eq_natCast_iff' _ 1 p).mp (heq.trans Nat.cast_one.symm)
      rw [Nat.mod_eq_of_lt hp] at heq
      have h6 : Nat.beq (Nat.mod (pwm p a ((p - 1) / q) k 1) p) 1 = true := by
        show Nat.beq (pwm p a ((p - 1) / q) k 1 % p) 1 = true
        rw [heq]; rfl
      rw [h6] at h5
      contradiction
    · exact absurd (Nat.dvd_one.mp hm) hq.one_lt.ne'

end Crazy.Kron
