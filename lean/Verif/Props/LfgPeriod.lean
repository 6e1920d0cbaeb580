/-
C54 (the documented recurrence), C55 (the documented period), C56 (the origin of the seed table), C66 (the relation to
math/rand) for LFG.
-/
import Verif.Proofs.LfgCert
import Verif.Props.LfgSeed
import Verif.Spec.Period
import Verif.Proofs.Cycle
import Mathlib.Tactic.ByContra
set_option exponentiation.threshold 400
namespace Crazy
open Polynomial Kron

/-- The integers modulo 2^64. -/
def Z64 := ZMod (2 ^ 64)

instance : CommRing Z64 := ZMod.commRing (2 ^ 64)

theorem Z64.natCast_self : ((2 ^ 64 : Nat) : Z64) = 0 := ZMod.natCast_self (2 ^ 64)

theorem Z64.natCast_mod (a : Nat) : ((a % 2 ^ 64 : Nat) : Z64) = a := ZMod.natCast_mod a (2 ^ 64)

theorem Z64.natCast_eq (a b : Nat) : (a : Z64) = b ↔ a % 2 ^ 64 = b % 2 ^ 64 := ZMod.natCast_eq_natCast_iff' a b (2 ^ 64)

/-- A word as an integer modulo 2^64. -/
def toZ (x : U64) : Z64 := (x.toNat : Z64)

theorem toZ_add (x y : U64) : toZ (x + y) = toZ x + toZ y := by
  unfold toZ
  rw [BitVec.toNat_add, Z64.natCast_mod, Nat.cast_add]

theorem toZ_inj {x y : U64} (h : toZ x = toZ y) : x = y := by
  have h1 := (Z64.natCast_eq _ _).mp h
  rw [Nat.mod_eq_of_lt x.isLt, Nat.mod_eq_of_lt y.isLt] at h1
  exact BitVec.eq_of_toNat_eq h1

theorem toZ_zero : toZ 0#64 = 0 := by simp [toZ]

/-- The polynomial of `s (k + n) = s (k + m) + s k`. -/
noncomputable def lagPoly (R : Type) [CommRing R] (n m : Nat) : R[X] := X ^ n - X ^ m - 1

/-- The polynomial of the recurrence the code computes. -/
noncomputable def lfgF : Z64[X] := lagPoly Z64 335 334

theorem coeff_nf (i B : Nat) : (C B * X ^ 335 + X ^ 334 + 1 : ℕ[X]).coeff i =
    if i = 335 then B else if i = 334 then 1 else if i = 0 then 1 else 0 := by
  rw [coeff_add, coeff_add, coeff_C_mul_X_pow, coeff_X_pow, coeff_one]
  by_cases h1 : i = 335
  · subst h1; simp
  · by_cases h2 : i = 334
    · subst h2; simp
    · by_cases h3 : i = 0
      · subst h3; simp
      · simp [h1, h2, h3]

theorem nf_map {R : Type} [CommRing R] (B n m : Nat) (h : (B : R) = -1) :
    (C B * X ^ n + X ^ m + 1 : ℕ[X]).map (Nat.castRingHom R) = -lagPoly R n m := by
  rw [lagPoly]
  rw [Polynomial.map_add, Polynomial.map_add, Polynomial.map_mul, map_C, Polynomial.map_pow, Polynomial.map_pow, map_X,
    Polynomial.map_one, eq_natCast, h, map_neg, map_one]
  ring

theorem tri_annih {R : Type} [CommRing R] (n m : Nat) (s : ℕ → R) (h : ∀ k, s (k + n) = s (k + m) + s k) :
    aeval (shift R) (lagPoly R n m) s = 0 := by
  rw [lagPoly]
  funext k
  rw [map_sub, map_sub, LinearMap.sub_apply, LinearMap.sub_apply, Pi.sub_apply, Pi.sub_apply,
    aeval_X_pow_shift, aeval_X_pow_shift, map_one, Module.End.one_apply, h]
  simp

theorem lfgC_for : lfgC.For lfgF where
  ok := lfgC_ok
  zero := Z64.natCast_self
  nf := by
    obtain ⟨B, hB⟩ : ∃ B : Nat, B = 18446744073709551615 := ⟨_, rfl⟩
    refine ⟨C B * X ^ 335 + X ^ 334 + 1, fun i hi => ?_, fun i => ?_, ?_, ?_⟩
    · have hi : 336 ≤ i := hi
      rw [coeff_nf, if_neg (by omega), if_neg (by omega), if_neg (by omega)]
    · show _ ≤ 2 ^ 64 - 1
      rw [coeff_nf]
      split
      · omega
      · split
        · omega
        · split <;> omega
    · rw [lfgC_nf]
      show eval (2 ^ 144) _ = _
      simp only [eval_add, eval_mul, eval_C, eval_pow, eval_X, eval_one, hB]
      norm_num
    · have e : (B : Z64) = -1 := by
        have h : ((B + 1 : Nat) : Z64) = 0 := by rw [hB]; exact Z64.natCast_self
        rw [Nat.cast_add, Nat.cast_one] at h
        exact eq_neg_of_add_eq_zero_left h
      have h := nf_map B 335 334 e
      unfold lfgF
      exact h

namespace LFG

/-- The words the recurrence runs on, from the oldest one still in use. -/
def zs (g : LFG) (k : Nat) : Z64 := toZ (g.seq (272 + k))

theorem zs_rec (g : LFG) (k : Nat) : g.zs (k + 335) = g.zs (k + 334) + g.zs k := by
  unfold zs
  rw [seq_ge (n := 272 + (k + 335)) g (by omega), show 272 + (k + 335) - 1 = 272 + (k + 334) by omega,
    show 272 + (k + 335) - 335 = 272 + k by omega, toZ_add]

theorem zs_annih (g : LFG) : aeval (shift Z64) lfgF g.zs = 0 := by
  exact tri_annih 335 334 _ (zs_rec g)

theorem leads_iff (g t : LFG) (hg : Inv g) (n : Nat) : Leads uint64 n g t ↔ nexts n g = t := by
  unfold Leads
  rw [draws_eq n g hg]
  constructor
  · rintro ⟨xs, h⟩
    injection h with h
    exact congrArg Prod.snd h
  · rintro rfl
    exact ⟨_, rfl⟩

theorem emits_iff (g : LFG) (hg : Inv g) (n : Nat) (x : U64) : Emits uint64 g n [x] ↔ g.seq (607 + n) = x := by
  unfold Emits
  constructor
  · rintro ⟨t, t', h1, h2⟩
    rw [leads_iff g t hg] at h1
    subst h1
    rw [draws_eq _ _ (inv_nexts n g hg)] at h2
    injection h2 with h2
    have h3 := congrArg Prod.fst h2
    simp only [List.length_cons, List.length_nil, Nat.zero_add, List.range_one, List.map_cons, List.map_nil, Nat.add_zero,
      seq_nexts, List.cons.injEq, and_true] at h3
    exact h3
  · intro h
    refine ⟨nexts n g, nexts 1 (nexts n g), (leads_iff g _ hg n).mpr rfl, ?_⟩
    rw [draws_eq _ _ (inv_nexts n g hg)]
    refine congrArg Except.ok (Prod.ext ?_ rfl)
    simp only [List.length_cons, List.length_nil, Nat.zero_add, List.range_one, List.map_cons, List.map_nil, Nat.add_zero,
      seq_nexts, h]

theorem emits_zero_of (g : LFG) (hg : Inv g) (h : g.zs = 0) (n : Nat) : Emits uint64 g n [0#64] := by
  rw [emits_iff g hg]
  have h1 := congrFun h (335 + n)
  refine toZ_inj ?_
  rw [toZ_zero]
  unfold zs at h1
  rw [show 607 + n = 272 + (335 + n) by omega]
  exact h1

/-- A sequence of outputs that is annihilated by a polynomial invertible modulo the recurrence is zero. -/
theorem zs_zero_of (g : LFG) (Q U : Z64[X]) (hU : lfgF ∣ U * Q - 1) (m : Nat)
    (h : ∀ k, aeval (shift Z64) Q g.zs (k + m) = 0) : ∀ k, g.zs (k + m) = 0 := by
  intro k
  have h1 := congrFun (act_of_dvd (zs_annih g) hU) (k + m)
  rw [map_one, Module.End.one_apply, map_mul, Module.End.mul_apply] at h1
  rw [← h1, ← aeval_X_pow_shift m (aeval (shift Z64) U (aeval (shift Z64) Q g.zs)) k, ← Module.End.mul_apply, ← map_mul, mul_comm, map_mul, Module.End.mul_apply]
  have h2 : aeval (shift Z64) (X ^ m : Z64[X]) (aeval (shift Z64) Q g.zs) = 0 := by
    funext k
    rw [aeval_X_pow_shift, h k]
    rfl
  rw [h2, map_zero]
  rfl

/-- If the words from some point on are zero then they all are. -/
theorem zs_zero_back (g : LFG) (m : Nat) (h : ∀ k, g.zs (k + m) = 0) : g.zs = 0 := by
  induction m with
  | zero => funext k; exact h k
  | succ m ih =>
    refine ih fun k => ?_
    have h1 := zs_rec g (k + m)
    have e1 : k + m + 335 = (k + 334) + (m + 1) := by omega
    have e2 : k + m + 334 = (k + 333) + (m + 1) := by omega
    rw [e1, e2, h, h, zero_add] at h1
    exact h1.symm

end LFG

theorem lfgC_d : 3 ≤ lfgC.d := by decide

/-! ### C54 -/

theorem LFG.doc_rec_zero (g : LFG) (hg : Reachable LFG.methods.api LFG.new g)
    (h : ∀ n a b c, Emits LFG.uint64 g (n + 607) [a] → Emits LFG.uint64 g (n + 607 - 273) [b] →
      Emits LFG.uint64 g (n + 607 - 607) [c] → a = b + c) :
    ∀ n, Emits LFG.uint64 g n [0#64] := by
  have hi := LFG.safe.reachable LFG.inv_new hg
  obtain ⟨U, hU⟩ := lfgC_for.invTri lfgC_d lfg_doc_rec_cert
  refine LFG.emits_zero_of g hi (LFG.zs_zero_back g 335 (LFG.zs_zero_of g _ U hU 335 fun k => ?_))
  have h1 := h k _ _ _ ((LFG.emits_iff g hi _ _).mpr rfl) ((LFG.emits_iff g hi _ _).mpr rfl) ((LFG.emits_iff g hi _ _).mpr rfl)
  rw [map_sub, map_sub, LinearMap.sub_apply, LinearMap.sub_apply, Pi.sub_apply, Pi.sub_apply,
    aeval_X_pow_shift, aeval_X_pow_shift, map_one, Module.End.one_apply]
  unfold LFG.zs
  rw [show 272 + (k + 335 + 607) = 607 + (k + 607) by omega, h1, toZ_add,
    show 607 + (k + 607 - 273) = 272 + (k + 335 + 334) by omega, show 607 + (k + 607 - 607) = 272 + (k + 335) by omega]
  ring

/-- C54: the documented recurrence `x[n] = x[n-273] + x[n-607]` fails for every generator that ever returns anything but
0. -/
theorem C54_LFG_documented_false (g : LFG) (hg : Reachable LFG.methods.api LFG.new g)
    (hne : ∃ n, ¬ Emits LFG.uint64 g n [0#64]) :
    ¬ ∀ n a b c, Emits LFG.uint64 g (n + 607) [a] → Emits LFG.uint64 g (n + 607 - 273) [b] →
      Emits LFG.uint64 g (n + 607 - 607) [c] → a = b + c := by
  intro h
  obtain ⟨n, hn⟩ := hne
  exact hn (LFG.doc_rec_zero g hg h n)

/-! ### C66 -/

theorem LFG.rev_rec_zero (g : LFG) (hg : Reachable LFG.methods.api LFG.new g)
    (h : ∀ n a b c, Emits LFG.uint64 g n [a] → Emits LFG.uint64 g (n + 273) [b] →
      Emits LFG.uint64 g (n + 607) [c] → a = b + c) :
    ∀ n, Emits LFG.uint64 g n [0#64] := by
  have hi := LFG.safe.reachable LFG.inv_new hg
  obtain ⟨U, hU⟩ := lfgC_for.invTri' lfgC_d lfg_rev_rec_cert
  refine LFG.emits_zero_of g hi (LFG.zs_zero_back g 335 (LFG.zs_zero_of g _ U hU 335 fun k => ?_))
  have h1 := h k _ _ _ ((LFG.emits_iff g hi _ _).mpr rfl) ((LFG.emits_iff g hi _ _).mpr rfl) ((LFG.emits_iff g hi _ _).mpr rfl)
  rw [map_sub, map_add, LinearMap.sub_apply, LinearMap.add_apply, Pi.sub_apply, Pi.add_apply,
    aeval_X_pow_shift, aeval_X_pow_shift, map_one, Module.End.one_apply]
  unfold LFG.zs
  rw [show 272 + (k + 335) = 607 + k by omega, h1, toZ_add,
    show 607 + (k + 273) = 272 + (k + 335 + 273) by omega, show 607 + (k + 607) = 272 + (k + 335 + 607) by omega]
  ring

/-- C66: the doc comment says LFG is math/rand's generator with a reversed output stream, and math/rand computes
`y[n] = y[n-273] + y[n-607]`; but the outputs of no LFG satisfy this backwards, unless they are all 0. -/
theorem C66_LFG_reversed_false (g : LFG) (hg : Reachable LFG.methods.api LFG.new g)
    (hne : ∃ n, ¬ Emits LFG.uint64 g n [0#64]) :
    ¬ ∀ n a b c, Emits LFG.uint64 g n [a] → Emits LFG.uint64 g (n + 273) [b] →
      Emits LFG.uint64 g (n + 607) [c] → a = b + c := by
  intro h
  obtain ⟨n, hn⟩ := hne
  exact hn (LFG.rev_rec_zero g hg h n)

/-! ### C55 -/

theorem LFG.outputPeriod_iff (g : LFG) (hi : LFG.Inv g) (p : Nat) :
    OutputPeriod LFG.uint64 g p ↔ ∀ k, g.zs (335 + k + p) = g.zs (335 + k) := by
  unfold OutputPeriod
  simp only [LFG.emits_iff g hi]
  unfold LFG.zs
  constructor
  · intro h k
    rw [show 272 + (335 + k + p) = 607 + (k + p) by omega, show 272 + (335 + k) = 607 + k by omega, (h k _).mp rfl]
  · intro h n x
    have h1 := toZ_inj (h n)
    rw [show 272 + (335 + n + p) = 607 + (n + p) by omega, show 272 + (335 + n) = 607 + n by omega] at h1
    rw [h1]

/-- C55, what is true: the outputs of every generator repeat after `(2^108 - 1) * (2^187 - 1) * 2^63` calls, a number
below 2^358. -/
theorem C55_LFG_period (g : LFG) (hg : Reachable LFG.methods.api LFG.new g) :
    OutputPeriod LFG.uint64 g ((2 ^ 108 - 1) * (2 ^ 187 - 1) * 2 ^ 63) := by
  have hi := LFG.safe.reachable LFG.inv_new hg
  rw [LFG.outputPeriod_iff g hi]
  intro k
  have hp : lfgC.pw ((2 ^ 108 - 1) * (2 ^ 187 - 1) * 2 ^ 63) 358 1 = some 1 := by
    have h := lfg_period_cert
    rw [Option.any_eq_true] at h
    obtain ⟨a, h1, h2⟩ := h
    rw [h1, ← Nat.eq_of_beq_eq_true h2]
  have h1 := act_of_dvd (LFG.zs_annih g) (lfgC_for.pow_one (by decide) hp)
  have h2 := congrFun h1 (335 + k)
  rw [aeval_X_pow_shift, map_one, Module.End.one_apply] at h2
  exact h2

/-- C55: the documented period, `2^670 - 2^63`, is no period of the outputs of any generator that ever returns anything but
0. -/
theorem C55_LFG_documented_false (g : LFG) (hg : Reachable LFG.methods.api LFG.new g)
    (hne : ∃ n, ¬ Emits LFG.uint64 g n [0#64]) :
    ¬ OutputPeriod LFG.uint64 g (2 ^ 670 - 2 ^ 63) := by
  intro h
  obtain ⟨n, hn⟩ := hne
  refine hn ?_
  have hi := LFG.safe.reachable LFG.inv_new hg
  rw [LFG.outputPeriod_iff g hi] at h
  obtain ⟨U, hU⟩ := lfgC_for.invE lfgC_d lfg_doc_period_cert
  refine LFG.emits_zero_of g hi (LFG.zs_zero_back g 335 (LFG.zs_zero_of g _ U hU 335 fun k => ?_)) n
  rw [map_sub, LinearMap.sub_apply, Pi.sub_apply, aeval_X_pow_shift, map_one, Module.End.one_apply, sub_eq_zero,
    Nat.add_comm k]
  exact h k

/-- `C55_LFG_period` in comparison with the documented figure. -/
theorem C55_LFG_much_shorter : ((2 : Nat) ^ 108 - 1) * (2 ^ 187 - 1) * 2 ^ 63 < 2 ^ 358 ∧
    (2 : Nat) ^ 358 * 2 ^ 311 < 2 ^ 670 - 2 ^ 63 := by decide +kernel

/-! ### C56 -/

/-- A generator whose state is the words 0, 1, ..., 606. -/
def LFG.counting : LFG := { LFG.new with s := Vector.ofFn fun i => BitVec.ofNat 64 i.val }

theorem LFG.counting_zs (k : Nat) (hk : k < 335) : LFG.counting.zs k = ((k : Nat) : Z64) := by
  have e : LFG.counting.seq (272 + k) = BitVec.ofNat 64 k := by
    rw [LFG.seq_lt _ (by omega)]
    unfold LFG.hist LFG.counting
    simp only [Vector.getElem_ofFn]
    refine congrArg _ ?_
    show (0 + 335 + (272 + k)) % 607 = k
    omega
  rw [LFG.zs, e, toZ, BitVec.toNat_ofNat, Z64.natCast_mod]

theorem LFG.inv_counting : LFG.Inv LFG.counting := ⟨by decide, by decide⟩

theorem LFG.counting_table (i : Nat) (hi : i < lfgRot.length) :
    LFG.counting.zs (2 ^ 34 - 272 + i) = ((lfgRot[i] : Nat) : Z64) := by
  have h := lfg_table_cert
  rw [Option.any_eq_true] at h
  obtain ⟨r, h1, h2⟩ := h
  obtain ⟨P, h3, h4⟩ := lfgC_for.pow (by decide +kernel) h1
  exact lfgC_for.walk (LFG.zs_annih _) LFG.counting_zs lfgRot r _ P h3.dbl h4 h2 i hi

theorem lget_congr (l : List Nat) {i j : Nat} (h : i = j) (hi : i < l.length) (hj : j < l.length) : l[i] = l[j] := by
  subst h; rfl

theorem rot_get (l : List Nat) (hl : l.length = 607) (i : Nat) (hi : i < 607) (h : i < (l.drop 114 ++ l.take 114).length) :
    (l.drop 114 ++ l.take 114)[i] = l[(i + 114) % 607]'(by rw [hl]; exact Nat.mod_lt _ (by decide)) := by
  by_cases hc : i < 493
  · rw [List.getElem_append_left (by rw [List.length_drop]; omega), List.getElem_drop]
    exact lget_congr _ (by omega) _ _
  · rw [List.getElem_append_right (by rw [List.length_drop]; omega), List.getElem_take]
    exact lget_congr _ (by rw [List.length_drop]; omega) _ _

theorem lfgRot_get (i : Nat) (hi : i < 607) (h : i < lfgRot.length) :
    lfgRot[i] = lfgS0Nat[(i + 114) % 607]'(by rw [lfgS0Nat_length]; exact Nat.mod_lt _ (by decide)) :=
  rot_get lfgS0Nat lfgS0Nat_length i hi h

theorem lfgRot_length : lfgRot.length = 607 := by
  rw [lfgRot, List.length_append, List.length_drop, List.length_take, lfgS0Nat_length]
  decide

theorem LFG.nexts_counting (n : Nat) (hn : n = 2 ^ 34) : (LFG.nexts n LFG.counting).s = lfgS0 := by
  have hi := LFG.inv_nexts n _ LFG.inv_counting
  have ht : (LFG.nexts n LFG.counting).t = 386 := by
    rw [LFG.nexts_t n _ LFG.inv_counting, hn]
    decide
  refine Vector.ext fun p hp => ?_
  have h1 : (LFG.nexts n LFG.counting).s[p] = (LFG.nexts n LFG.counting).hist ((p + 493) % 607) := by
    unfold LFG.hist
    exact vget_congr _ (by rw [ht]; omega) _ _
  rw [h1, ← LFG.seq_lt _ (Nat.mod_lt _ (by decide)), LFG.seq_nexts]
  have h2 := LFG.counting_table ((p + 493) % 607) (by rw [lfgRot_length]; exact Nat.mod_lt _ (by decide))
  rw [lfgRot_get _ (Nat.mod_lt _ (by decide)), ← hn] at h2
  have e : lfgS0Nat[((p + 493) % 607 + 114) % 607]'(by rw [lfgS0Nat_length]; exact Nat.mod_lt _ (by decide)) =
      lfgS0Nat[p]'(by rw [lfgS0Nat_length]; exact hp) := lget_congr _ (by omega) _ _
  rw [e, LFG.zs, show 272 + (n - 272 + (p + 493) % 607) = (p + 493) % 607 + n by omega] at h2
  refine toZ_inj ?_
  rw [h2, toZ, lfgS0_get p hp]

/-- C56: the table the seeding starts from is, as its comment says, the state array of a generator that began with the
words 0, 1, ..., 606 and has returned 2^34 words. -/
theorem C56_LFG_table : ∃ g, Leads LFG.uint64 (2 ^ 34) LFG.counting g ∧ g.s = lfgS0 := by
  obtain ⟨n, hn⟩ : ∃ n : Nat, n = 2 ^ 34 := ⟨_, rfl⟩
  rw [← hn]
  exact ⟨_, (LFG.leads_iff _ _ LFG.inv_counting n).mpr rfl, LFG.nexts_counting n hn⟩

/-- Non-vacuity of C54, C55 and C66: a reachable generator whose first output is not 0. -/
example : ∃ g, Reachable LFG.methods.api LFG.new g ∧ ∃ n, ¬ Emits LFG.uint64 g n [0#64] := by
  refine ⟨LFG.nexts 4856 (LFG.seedStart [5#8]), ⟨[.seedIV [5#8]],
    Api.after_ok [] (Methods.call_seedIV (m := LFG.methods) (LFG.seedIV_eq [5#8] LFG.new))⟩, ?_⟩
  by_contra hc
  have hc : ∀ n, Emits LFG.uint64 (LFG.nexts 4856 (LFG.seedStart [5#8])) n [0#64] := fun n =>
    Classical.byContradiction fun h => hc ⟨n, h⟩
  have h0 : (LFG.seedStart [5#8]).zs = 0 := by
    refine LFG.zs_zero_back _ (335 + 4856) fun k => ?_
    have h1 := (LFG.emits_iff _ (LFG.inv_nexts _ _ (LFG.inv_seedStart _)) _ _).mp (hc k)
    rw [LFG.seq_nexts] at h1
    rw [LFG.zs, show 272 + (k + (335 + 4856)) = 607 + k + 4856 by omega, h1, toZ_zero]
  have h2 := congrFun h0 0
  rw [LFG.zs, LFG.seq_lt _ (by decide), LFG.seedStart_hist _ _ (by decide) (by decide)] at h2
  have h3 : toZ (lfgS0[0] + LFG.contrib 0 [5#8] 0) = toZ 0#64 := h2.trans toZ_zero.symm
  have h4 := toZ_inj h3
  rw [LFG.contrib, LFG.contrib, if_neg (by decide)] at h4
  exact absurd h4 (by decide +kernel)

end Crazy
