/-
The outputs of `LFG` at distances that are multiples of the odd part of its period: all the bits but the lowest two take all values.
-/
import Verif.Props.LfgExact
set_option exponentiation.threshold 400
namespace Crazy
open Polynomial Kron

/-- The odd part of the period. -/
def lfgOdd : Nat := (2 ^ 108 - 1) / 65 * (2 ^ 187 - 1)

namespace Kron

theorem lfg_odd_cert : Option.any (fun a => Nat.beq (Nat.land a (mask 1 144 335)) 1) (lfgC.pw lfgOdd 289 1) = true := by decide +kernel

/-- All the coefficients are even, but the constant one is odd. -/
theorem Cd.odd_one {R : Type} [CommRing R] {w D b a : Nat} {P : R[X]} (h : Cd w D b a P) (hb : b < 2 ^ w) (hw : 0 < w) (hD : 0 < D)
    (hm : a &&& mask 1 w D = 1) : ∃ U : R[X], P = 1 + 2 * U := by
  obtain ⟨Q, h1, h2, h3, h4⟩ := h
  have h5 : Cd (R := ZMod 2) w D b a (Q.map (Nat.castRingHom (ZMod 2))) := ⟨Q, h1, h2, h3, rfl⟩
  have h6 := Cd.land 1 (by decide) hw hb h5
  rw [hm] at h6
  have h7 : Q.map (Nat.castRingHom (ZMod 2)) = 1 := Cd.unique (Nat.one_lt_two_pow hw.ne') h6 (Cd.one (by decide) hD)
  have h8 : C (2 : R) ∣ P - 1 := by
    rw [C_dvd_iff_dvd_coeff]
    intro i
    have h9 := congrArg (fun p => coeff p i) h7
    simp only [coeff_map, eq_natCast, coeff_one] at h9
    rw [← h4, coeff_sub, coeff_map, coeff_one, eq_natCast]
    by_cases hi : 0 = i
    · subst hi
      simp only [if_true] at h9 ⊢
      rw [← Nat.cast_one, ZMod.natCast_eq_natCast_iff'] at h9
      refine ⟨((Q.coeff 0 / 2 : Nat) : R), ?_⟩
      have e : Q.coeff 0 = 1 + 2 * (Q.coeff 0 / 2) := by omega
      conv_lhs => rw [e]
      push_cast
      ring
    · simp only [if_neg (fun e => hi e.symm : ¬ i = 0)] at h9 ⊢
      rw [← Nat.cast_zero, ZMod.natCast_eq_natCast_iff'] at h9
      refine ⟨((Q.coeff i / 2 : Nat) : R), ?_⟩
      have e : Q.coeff i = 2 * (Q.coeff i / 2) := by omega
      conv_lhs => rw [e]
      push_cast
      ring
  obtain ⟨U, hU⟩ := h8
  refine ⟨U, ?_⟩
  rw [show C (2 : R) = 2 from map_ofNat C 2] at hU
  rw [← hU]
  ring

/-- Repeated squaring. -/
theorem lift_pow {R : Type} [CommRing R] {f U : R[X]} {N : Nat} (h : f ∣ X ^ N - (1 + 2 * U)) (i : Nat) :
    ∃ Z : R[X], f ∣ X ^ (N * 2 * 2 ^ i) - (1 + C (2 ^ (i + 2)) * (U + U ^ 2 + C 2 * Z)) := by
  induction i with
  | zero =>
    refine ⟨0, ?_⟩
    have h1 := h.trans (sub_dvd_pow_sub_pow (X ^ N) (1 + 2 * U) 2)
    have e : X ^ (N * 2 * 2 ^ 0) - (1 + C (2 ^ (0 + 2)) * (U + U ^ 2 + C 2 * 0)) = (X ^ N) ^ 2 - (1 + 2 * U) ^ 2 := by
      rw [map_pow, show C (2 : R) = 2 from map_ofNat C 2]
      ring
    rw [e]
    exact h1
  | succ i ih =>
    obtain ⟨Z, hZ⟩ := ih
    refine ⟨Z + C (2 ^ i) * (U + U ^ 2 + C 2 * Z) ^ 2, ?_⟩
    have h1 := hZ.trans (sub_dvd_pow_sub_pow _ _ 2)
    refine (congrArg (f ∣ ·) ?_).mpr h1
    rw [map_pow, map_pow, map_pow, show C (2 : R) = 2 from map_ofNat C 2]
    ring

theorem lift_one {R : Type} [CommRing R] {f U : R[X]} {N : Nat} (h : f ∣ X ^ N - (1 + 2 * U)) (V : R[X]) :
    f ∣ X ^ N * V - (V + C 2 * (U * V)) := by
  have e : X ^ N * V - (V + C 2 * (U * V)) = (X ^ N - (1 + 2 * U)) * V := by
    rw [show C (2 : R) = 2 from map_ofNat C 2]
    ring
  rw [e]
  exact h.mul_right _

theorem aeval_C_mul {R : Type} [CommRing R] (c : R) (W : R[X]) (s : ℕ → R) (n : Nat) :
    aeval (shift R) (C c * W) s n = c * aeval (shift R) W s n := by
  rw [map_mul, aeval_C, Module.End.mul_apply, Module.algebraMap_end_apply]
  rfl

end Kron

theorem par_two_mul (x : Z64) : par (2 * x) = 0 := by
  rw [map_mul, map_ofNat]
  exact (congrArg (· * _) (by decide : (2 : ZMod 2) = 0)).trans (zero_mul _)

theorem par_zero (x : Z64) (h : par x = 0) : ∃ y, x = 2 * y := by
  obtain ⟨n, rfl⟩ : ∃ n : Nat, (n : Z64) = x := ZMod.natCast_zmod_surjective x
  rw [map_natCast, ← Nat.cast_zero, ZMod.natCast_eq_natCast_iff'] at h
  refine ⟨((n / 2 : Nat) : Z64), ?_⟩
  have e : n = 2 * (n / 2) := by omega
  conv_lhs => rw [e]
  push_cast
  rfl

theorem par_cases (x : Z64) : par x = 0 ∨ par x = 1 := by
  generalize par x = y
  revert y; decide

theorem two_pow_64_zero : (2 : Z64) ^ 64 = 0 := by
  have := Z64.natCast_self
  rwa [Nat.cast_pow, Nat.cast_ofNat] at this

namespace LFG

/-- What `lfgOdd` more steps change, twice, four times, ... -/
theorem free (g : LFG) : ∃ v : ℕ → Z64, (∀ n, par (v (n + lfgOdd)) = par (v n)) ∧
    ∀ i n, ∃ y, g.zs (n + lfgOdd * 2 * 2 ^ i) = g.zs n + 2 ^ (i + 2) * (v n + 2 * y) := by
  have h := lfg_odd_cert
  rw [Option.any_eq_true] at h
  obtain ⟨a, h1, h2⟩ := h
  obtain ⟨P, h3, h4⟩ := lfgC_for.pow (by decide +kernel) h1
  have hb := lfgC_for.consts.2.2.2.2.2
  obtain ⟨U, rfl⟩ := Cd.odd_one h3 (by omega) (by decide) (by decide) (Nat.eq_of_beq_eq_true h2)
  refine ⟨aeval (shift Z64) (U + U ^ 2) g.zs, fun n => ?_, fun i n => ?_⟩
  · generalize U + U ^ 2 = V
    have h5 := lift_one h4 V
    have h6 := congrFun (act_of_dvd (zs_annih g) h5) n
    rw [map_mul, Module.End.mul_apply, aeval_X_pow_shift, map_add, LinearMap.add_apply, Pi.add_apply, aeval_C_mul] at h6
    rw [h6, map_add, par_two_mul, add_zero]
  · obtain ⟨Z, hZ⟩ := lift_pow h4 i
    refine ⟨aeval (shift Z64) Z g.zs n, ?_⟩
    have h6 := congrFun (act_of_dvd (zs_annih g) hZ) n
    rw [aeval_X_pow_shift, map_add, LinearMap.add_apply, Pi.add_apply, aeval_C_mul, map_one, Module.End.one_apply, map_add,
      LinearMap.add_apply, Pi.add_apply, aeval_C_mul] at h6
    exact h6

/-- The words at distances that are multiples of `2 * lfgOdd`. -/
theorem hit (z v : ℕ → Z64) (h1 : ∀ n, par (v (n + lfgOdd)) = par (v n))
    (h2 : ∀ i n, ∃ y, z (n + lfgOdd * 2 * 2 ^ i) = z n + 2 ^ (i + 2) * (v n + 2 * y)) (n : Nat) (hn : par (v n) = 1) (r : Z64) :
    ∃ c, z (n + lfgOdd * 2 * c) = z n + 4 * r := by
  have hv : ∀ c, par (v (n + lfgOdd * c)) = 1 := by
    intro c
    induction c with
    | zero => exact hn
    | succ c ih => rw [Nat.mul_succ, ← Nat.add_assoc, h1, ih]
  have key : ∀ i, ∃ c q, z n + 4 * r = z (n + lfgOdd * 2 * c) + 2 ^ (i + 2) * q := by
    intro i
    induction i with
    | zero => exact ⟨0, r, by rw [Nat.mul_zero, Nat.add_zero]; norm_num⟩
    | succ i ih =>
      obtain ⟨c, q, hq⟩ := ih
      rcases par_cases q with h | h
      · obtain ⟨q', rfl⟩ := par_zero q h
        exact ⟨c, q', by rw [hq]; ring⟩
      · obtain ⟨y, hy⟩ := h2 i (n + lfgOdd * 2 * c)
        have h3 : par (q - v (n + lfgOdd * 2 * c)) = 0 := by
          rw [map_sub, h, Nat.mul_assoc, hv, sub_self]
        obtain ⟨q', hq'⟩ := par_zero _ h3
        refine ⟨c + 2 ^ i, q' - y, ?_⟩
        rw [Nat.mul_add, ← Nat.add_assoc, hy, hq, sub_eq_iff_eq_add.mp hq']
        ring
  obtain ⟨c, q, hq⟩ := key 62
  refine ⟨c, ?_⟩
  rw [hq, two_pow_64_zero, zero_mul, add_zero]

theorem lfgOdd_odd : lfgOdd % 2 = 1 := by decide +kernel

/-- From any point on, every second output takes all values that leave some fixed remainder modulo 4. -/
theorem every_second (g : LFG) (hi : Inv g) (h : ¬ OutputPeriod uint64 g (lfgOdd * 2 ^ 62)) (n : Nat) :
    ∃ b < 4, ∀ x : U64, x.toNat % 4 = b → ∃ k, g.seq (607 + (n + 2 * k)) = x := by
  obtain ⟨v, h1, h2⟩ := free g
  have hex : ∃ k, par (v (335 + k)) = 1 := by
    by_contra hc
    refine h ((outputPeriod_iff g hi _).mpr fun k => ?_)
    obtain ⟨y, hy⟩ := h2 61 (335 + k)
    have h3 : par (v (335 + k)) = 0 := (par_cases _).resolve_right fun e => hc ⟨k, e⟩
    obtain ⟨w, hw⟩ := par_zero _ h3
    rw [show lfgOdd * 2 ^ 62 = lfgOdd * 2 * 2 ^ 61 by rw [Nat.mul_assoc]; norm_num, hy, hw]
    have e : (2 : Z64) ^ (61 + 2) * (2 * w + 2 * y) = 2 ^ 64 * (w + y) := by ring
    rw [e, two_pow_64_zero, zero_mul, add_zero]
  obtain ⟨k0, hk0⟩ := hex
  have hv : ∀ c, par (v (335 + k0 + lfgOdd * c)) = 1 := by
    intro c
    induction c with
    | zero => exact hk0
    | succ c ih => rw [Nat.mul_succ, ← Nat.add_assoc, h1, ih]
  obtain ⟨k, hk⟩ : ∃ k, par (v (335 + (n + 2 * k))) = 1 := by
    obtain ⟨q, hq⟩ : ∃ q, lfgOdd = 2 * q + 1 := ⟨lfgOdd / 2, by have := lfgOdd_odd; omega⟩
    have hc := hv (2 * n + (n + k0) % 2)
    refine ⟨(k0 + lfgOdd * (2 * n + (n + k0) % 2) - n) / 2, ?_⟩
    have e : n + 2 * ((k0 + lfgOdd * (2 * n + (n + k0) % 2) - n) / 2) = k0 + lfgOdd * (2 * n + (n + k0) % 2) := by
      rw [hq, Nat.add_mul, Nat.one_mul, Nat.mul_assoc]
      generalize q * (2 * n + (n + k0) % 2) = Q
      omega
    rw [e, ← Nat.add_assoc]
    exact hc
  refine ⟨(g.seq (607 + (n + 2 * k))).toNat % 4, Nat.mod_lt _ (by decide), fun x hx => ?_⟩
  obtain ⟨r, hr⟩ : ∃ r : Z64, toZ x = g.zs (335 + (n + 2 * k)) + 4 * r := by
    have e1 : g.zs (335 + (n + 2 * k)) = toZ (g.seq (607 + (n + 2 * k))) := by
      rw [zs, ← Nat.add_assoc]
    rw [e1]
    generalize g.seq (607 + (n + 2 * k)) = w at hx
    unfold toZ
    generalize x.toNat = a at *
    generalize w.toNat = b at *
    refine ⟨((a / 4 : Nat) : Z64) - ((b / 4 : Nat) : Z64), ?_⟩
    have ea : a = 4 * (a / 4) + a % 4 := by omega
    have eb : b = 4 * (b / 4) + a % 4 := by omega
    conv_lhs => rw [ea]
    conv_rhs => rw [eb]
    have e3 : (4 * (b / 4) + a % 4) / 4 = b / 4 := by omega
    rw [e3]
    push_cast
    ring
  obtain ⟨c, hc⟩ := hit g.zs v h1 h2 _ hk r
  refine ⟨k + lfgOdd * c, toZ_inj ?_⟩
  rw [hr, ← hc, zs]
  refine congrArg (fun i => toZ (g.seq i)) ?_
  have e : lfgOdd * 2 * c = 2 * (lfgOdd * c) := by ring
  rw [e]
  omega

end LFG
end Crazy
