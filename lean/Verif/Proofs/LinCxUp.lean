/-
Boolean polynomials in the bits of a Xoroshiro state: those of bounded degree form a small space that the state update maps to itself, and bit
`b` of the output is one of degree `b + 1`.
-/
import Verif.Proofs.LinCx
import Mathlib.LinearAlgebra.Charpoly.Basic
import Mathlib.LinearAlgebra.Dimension.Constructions
import Mathlib.LinearAlgebra.FreeModule.Finite.Basic
import Mathlib.LinearAlgebra.Charpoly.ToMatrix
import Mathlib.Data.Finset.Powerset
import Mathlib.FieldTheory.Finite.Basic
namespace Crazy
open Polynomial

namespace Xoroshiro

/-- Bit `i` of the state: the first 64 are those of the first word. -/
def crd (i : Fin 128) (g : Xoroshiro) : ZMod 2 := if i.1 < 64 then MT64.bit g.s0 i.1 else MT64.bit g.s1 (i.1 - 64)

/-- A product of bits. -/
def mon (A : Finset (Fin 128)) (g : Xoroshiro) : ZMod 2 := ∏ i ∈ A, crd i g

/-- The nonempty sets of at most `k` bits. -/
def small (k : Nat) : Finset (Finset (Fin 128)) := Finset.univ.filter fun A => 1 ≤ A.card ∧ A.card ≤ k

/-- Polynomials of degree at most `k` with no constant term. -/
def W (k : Nat) : Submodule (ZMod 2) (Xoroshiro → ZMod 2) := Submodule.span (ZMod 2) (mon '' (small k : Set (Finset (Fin 128))))

theorem small_card (k : Nat) : (small k).card = ∑ i ∈ Finset.range k, Nat.choose 128 (i + 1) := by
  induction k with
  | zero =>
    have : small 0 = ∅ := by
      ext A
      simp only [small, Finset.mem_filter, Finset.notMem_empty, iff_false, Finset.mem_univ, true_and]
      omega
    rw [this]
    rfl
  | succ k ih =>
    have h1 : small (k + 1) = small k ∪ Finset.powersetCard (k + 1) Finset.univ := by
      ext A
      simp only [small, Finset.mem_union, Finset.mem_filter, Finset.mem_univ, true_and, Finset.mem_powersetCard, Finset.subset_univ]
      omega
    have h2 : Disjoint (small k) (Finset.powersetCard (k + 1) Finset.univ) := by
      rw [Finset.disjoint_left]
      intro A hA hB
      simp only [small, Finset.mem_filter, Finset.mem_univ, true_and, Finset.mem_powersetCard, Finset.subset_univ] at hA hB
      omega
    rw [h1, Finset.card_union_of_disjoint h2, ih, Finset.card_powersetCard, Finset.card_univ, Fintype.card_fin, Finset.sum_range_succ]

theorem mon_mem {A : Finset (Fin 128)} {k : Nat} (h1 : 1 ≤ A.card) (h2 : A.card ≤ k) : mon A ∈ W k :=
  Submodule.subset_span ⟨A, Finset.mem_coe.mpr (Finset.mem_filter.mpr ⟨Finset.mem_univ _, h1, h2⟩), rfl⟩

theorem W_mono {k l : Nat} (h : k ≤ l) : W k ≤ W l := by
  refine Submodule.span_mono (Set.image_mono ?_)
  intro A hA
  simp only [small, Finset.coe_filter, Finset.mem_univ, true_and, Set.mem_ofPred_eq] at hA ⊢
  omega

theorem crd_mem (i : Fin 128) : crd i ∈ W 1 := by
  have : crd i = mon {i} := by funext g; rw [mon, Finset.prod_singleton]
  rw [this]
  exact mon_mem (by simp) (by simp)

theorem crd_mul {P : Xoroshiro → ZMod 2} {k : Nat} (i : Fin 128) (hP : P ∈ W k) : crd i * P ∈ W (k + 1) := by
  induction hP using Submodule.span_induction with
  | mem P hP =>
    obtain ⟨A, hA, rfl⟩ := hP
    simp only [small, Finset.coe_filter, Finset.mem_univ, true_and, Set.mem_ofPred_eq] at hA
    have e : crd i * mon A = mon (insert i A) := by
      funext g
      rw [Pi.mul_apply, mon, mon]
      by_cases hi : i ∈ A
      · rw [Finset.insert_eq_of_mem hi, ← Finset.mul_prod_erase A _ hi, ← mul_assoc]
        congr 1
        have h : ∀ z : ZMod 2, z * z = z := by decide
        exact h _
      · rw [Finset.prod_insert hi]
    rw [e]
    have := Finset.card_le_card (Finset.subset_insert i A)
    exact mon_mem (by omega) ((Finset.card_insert_le i A).trans (by omega))
  | zero => rw [mul_zero]; exact Submodule.zero_mem _
  | add P Q _ _ h1 h2 => rw [mul_add]; exact Submodule.add_mem _ h1 h2
  | smul c P _ h => rw [mul_smul_comm]; exact Submodule.smul_mem _ _ h

theorem lin_mul {P L : Xoroshiro → ZMod 2} {k : Nat} (hL : L ∈ W 1) (hP : P ∈ W k) : L * P ∈ W (k + 1) := by
  induction hL using Submodule.span_induction with
  | mem L hL =>
    obtain ⟨A, hA, rfl⟩ := hL
    simp only [small, Finset.coe_filter, Finset.mem_univ, true_and, Set.mem_ofPred_eq] at hA
    obtain ⟨i, rfl⟩ := Finset.card_eq_one.mp (show A.card = 1 by omega)
    have : mon {i} = crd i := by funext g; rw [mon, Finset.prod_singleton]
    rw [this]
    exact crd_mul i hP
  | zero => rw [zero_mul]; exact Submodule.zero_mem _
  | add P Q _ _ h1 h2 => rw [add_mul]; exact Submodule.add_mem _ h1 h2
  | smul c P _ h => rw [smul_mul_assoc]; exact Submodule.smul_mem _ _ h

theorem lin_prod (f : Fin 128 → Xoroshiro → ZMod 2) (hf : ∀ i, f i ∈ W 1) (A : Finset (Fin 128)) (hA : A.Nonempty) :
    (∏ i ∈ A, f i) ∈ W A.card := by
  induction hA using Finset.Nonempty.cons_induction with
  | singleton a => simpa using hf a
  | cons a s ha hs ih =>
    rw [Finset.prod_cons, Finset.card_cons]
    exact lin_mul (hf a) ih

theorem s0_mem (i : Nat) : (fun g : Xoroshiro => MT64.bit g.s0 i) ∈ W 1 := by
  by_cases h : i < 64
  · have e : (fun g : Xoroshiro => MT64.bit g.s0 i) = crd ⟨i, by omega⟩ := by funext g; rw [crd, if_pos h]
    rw [e]; exact crd_mem _
  · have e : (fun g : Xoroshiro => MT64.bit g.s0 i) = 0 := by
      funext g; unfold MT64.bit; rw [BitVec.getLsbD_of_ge _ _ (by omega)]; rfl
    rw [e]; exact Submodule.zero_mem _

theorem s1_mem (i : Nat) : (fun g : Xoroshiro => MT64.bit g.s1 i) ∈ W 1 := by
  by_cases h : i < 64
  · have e : (fun g : Xoroshiro => MT64.bit g.s1 i) = crd ⟨i + 64, by omega⟩ := by
      funext g; rw [crd, if_neg (by simp)]; simp
    rw [e]; exact crd_mem _
  · have e : (fun g : Xoroshiro => MT64.bit g.s1 i) = 0 := by
      funext g; unfold MT64.bit; rw [BitVec.getLsbD_of_ge _ _ (by omega)]; rfl
    rw [e]; exact Submodule.zero_mem _

theorem bit_shl_mem (F : Xoroshiro → U64) (hF : ∀ i, (fun g => MT64.bit (F g) i) ∈ W 1) (k i : Nat) : (fun g => MT64.bit (F g <<< k) i) ∈ W 1 := by
  by_cases h : i < 64 ∧ k ≤ i
  · have e : (fun g => MT64.bit (F g <<< k) i) = fun g => MT64.bit (F g) (i - k) := by
      funext g; unfold MT64.bit; rw [BitVec.getLsbD_shiftLeft, decide_eq_true h.1, decide_eq_false (by omega : ¬ i < k)]; rfl
    rw [e]; exact hF _
  · have e : (fun g => MT64.bit (F g <<< k) i) = 0 := by
      funext g; unfold MT64.bit; rw [BitVec.getLsbD_shiftLeft]
      rcases Nat.lt_or_ge i 64 with h1 | h1
      · rw [decide_eq_true (by omega : i < k)]; simp
      · rw [decide_eq_false (by omega : ¬ i < 64)]; simp
    rw [e]; exact Submodule.zero_mem _

theorem bit_rot_mem (F : Xoroshiro → U64) (hF : ∀ i, (fun g => MT64.bit (F g) i) ∈ W 1) (k : Nat) (h0 : 0 < k) (hk : k < 64) (i : Nat) :
    (fun g => MT64.bit (rotl64 (F g) k) i) ∈ W 1 := by
  rcases Nat.lt_or_ge i k with h | h
  · have e : (fun g => MT64.bit (rotl64 (F g) k) i) = fun g => MT64.bit (F g) (64 - k + i) := by
      funext g; unfold MT64.bit rotl64
      rw [Nat.mod_eq_of_lt hk, Nat.mod_eq_of_lt (by omega : 64 - k < 64), BitVec.getLsbD_or, BitVec.getLsbD_shiftLeft, BitVec.getLsbD_ushiftRight,
        decide_eq_true h]
      simp
    rw [e]; exact hF _
  · have e : (fun g => MT64.bit (rotl64 (F g) k) i) = fun g => MT64.bit (F g <<< k) i := by
      funext g; unfold MT64.bit rotl64
      rw [Nat.mod_eq_of_lt hk, Nat.mod_eq_of_lt (by omega : 64 - k < 64), BitVec.getLsbD_or, BitVec.getLsbD_ushiftRight,
        BitVec.getLsbD_of_ge _ (64 - k + i) (by omega)]
      simp
    rw [e]; exact bit_shl_mem F hF k i

theorem bit_xor_mem (F G : Xoroshiro → U64) (i : Nat) {k : Nat} (hF : (fun g => MT64.bit (F g) i) ∈ W k) (hG : (fun g => MT64.bit (G g) i) ∈ W k) :
    (fun g => MT64.bit (F g ^^^ G g) i) ∈ W k := by
  have e : (fun g => MT64.bit (F g ^^^ G g) i) = (fun g => MT64.bit (F g) i) + fun g => MT64.bit (G g) i := by
    funext g; rw [MT64.bit_xor]; rfl
  rw [e]; exact Submodule.add_mem _ hF hG

/-- Composition with the state update. -/
def pull : Module.End (ZMod 2) (Xoroshiro → ZMod 2) := LinearMap.funLeft (ZMod 2) (ZMod 2) step

/-- The sum of the two words. -/
def x1 (g : Xoroshiro) : U64 := g.s1 ^^^ g.s0

theorem crd_step (i : Fin 128) : pull (crd i) ∈ W 1 := by
  have hx : ∀ i, (fun g : Xoroshiro => MT64.bit (x1 g) i) ∈ W 1 := fun i => bit_xor_mem s1 s0 i (s1_mem i) (s0_mem i)
  have e : pull (crd i) = fun g => crd i (step g) := rfl
  rw [e]
  by_cases h : i.1 < 64
  · have e2 : (fun g => crd i (step g)) = fun g => MT64.bit (rotl64 g.s0 55 ^^^ x1 g ^^^ (x1 g <<< 14)) i.1 := by
      funext g; rw [crd, if_pos h]; rfl
    rw [e2]
    exact bit_xor_mem (fun g => rotl64 g.s0 55 ^^^ x1 g) (fun g => x1 g <<< 14) _ (bit_xor_mem (fun g => rotl64 g.s0 55) x1 _
      (bit_rot_mem s0 s0_mem 55 (by decide) (by decide) _) (hx _)) (bit_shl_mem x1 hx 14 _)
  · have e2 : (fun g => crd i (step g)) = fun g => MT64.bit (rotl64 (x1 g) 36) (i.1 - 64) := by
      funext g; rw [crd, if_neg h]; rfl
    rw [e2]
    exact bit_rot_mem x1 hx 36 (by decide) (by decide) _

theorem W_pull (k : Nat) : ∀ P ∈ W k, pull P ∈ W k := by
  intro P hP
  induction hP using Submodule.span_induction with
  | mem P hP =>
    obtain ⟨A, hA, rfl⟩ := hP
    simp only [small, Finset.coe_filter, Finset.mem_univ, true_and, Set.mem_ofPred_eq] at hA
    have e : pull (mon A) = ∏ i ∈ A, pull (crd i) := by
      funext g
      rw [Finset.prod_apply]
      rfl
    rw [e]
    exact W_mono hA.2 (lin_prod _ crd_step A (Finset.card_pos.mp hA.1))
  | zero => rw [map_zero]; exact Submodule.zero_mem _
  | add P Q _ _ h1 h2 => rw [map_add]; exact Submodule.add_mem _ h1 h2
  | smul c P _ h => rw [map_smul]; exact Submodule.smul_mem _ _ h

/-- The carries of an addition. -/
theorem carry_mem (b : Nat) : (fun g : Xoroshiro => if BitVec.carry b g.s0 g.s1 false then (1 : ZMod 2) else 0) ∈ W (b + 1) := by
  induction b with
  | zero =>
    have e : (fun g : Xoroshiro => if BitVec.carry 0 g.s0 g.s1 false then (1 : ZMod 2) else 0) = 0 := by
      funext g; rw [BitVec.carry_zero]; rfl
    rw [e]; exact Submodule.zero_mem _
  | succ b ih =>
    have e : (fun g : Xoroshiro => if BitVec.carry (b + 1) g.s0 g.s1 false then (1 : ZMod 2) else 0) =
        (fun g : Xoroshiro => MT64.bit g.s0 b) * (fun g : Xoroshiro => MT64.bit g.s1 b) +
        ((fun g : Xoroshiro => MT64.bit g.s0 b) * (fun g : Xoroshiro => if BitVec.carry b g.s0 g.s1 false then (1 : ZMod 2) else 0) +
        (fun g : Xoroshiro => MT64.bit g.s1 b) * (fun g : Xoroshiro => if BitVec.carry b g.s0 g.s1 false then (1 : ZMod 2) else 0)) := by
      funext g
      simp only [Pi.add_apply, Pi.mul_apply]
      unfold MT64.bit
      rw [BitVec.carry_succ]
      cases g.s0.getLsbD b <;> cases g.s1.getLsbD b <;> cases BitVec.carry b g.s0 g.s1 false <;> decide
    rw [e]
    exact Submodule.add_mem _ (W_mono (by omega) (lin_mul (s0_mem b) (s1_mem b))) (Submodule.add_mem _ (lin_mul (s0_mem b) ih) (lin_mul (s1_mem b) ih))

theorem out_mem (b : Nat) (hb : b < 64) : (fun g : Xoroshiro => MT64.bit (out g) b) ∈ W (b + 1) := by
  have e : (fun g : Xoroshiro => MT64.bit (out g) b) = (fun g : Xoroshiro => MT64.bit g.s0 b) + (fun g : Xoroshiro => MT64.bit g.s1 b) +
      (fun g : Xoroshiro => if BitVec.carry b g.s0 g.s1 false then (1 : ZMod 2) else 0) := by
    funext g
    simp only [Pi.add_apply]
    unfold MT64.bit out
    rw [BitVec.getLsbD_add hb]
    cases g.s0.getLsbD b <;> cases g.s1.getLsbD b <;> cases BitVec.carry b g.s0 g.s1 false <;> decide
  rw [e]
  exact Submodule.add_mem _ (Submodule.add_mem _ (W_mono (by omega) (s0_mem b)) (W_mono (by omega) (s1_mem b))) (carry_mem b)

theorem W_finrank (k : Nat) : Module.finrank (ZMod 2) (W k) ≤ ∑ i ∈ Finset.range k, Nat.choose 128 (i + 1) := by
  classical
  rw [← small_card]
  have h := finrank_span_finset_le_card (R := ZMod 2) ((small k).image mon)
  rw [Finset.coe_image] at h
  exact h.trans Finset.card_image_le

/-- A recurrence for bit `b`, the same from every state. -/
theorem bit_rec (b : Nat) (hb : b < 64) : ∃ c : Nat → ZMod 2, ∀ g n,
    MT64.bit (out (step^[n + ∑ i ∈ Finset.range (b + 1), Nat.choose 128 (i + 1)] g)) b =
      ∑ i ∈ Finset.range (∑ i ∈ Finset.range (b + 1), Nat.choose 128 (i + 1)), c i * MT64.bit (out (step^[n + i] g)) b := by
  have hW := W_finrank (b + 1)
  generalize (∑ i ∈ Finset.range (b + 1), Nat.choose 128 (i + 1)) = D at hW
  have : Module.Finite (ZMod 2) (W (b + 1)) := Module.Finite.span_of_finite _ ((Finset.finite_toSet _).image _)
  let T : Module.End (ZMod 2) (W (b + 1)) := pull.restrict (W_pull (b + 1))
  have hdeg : T.charpoly.natDegree = Module.finrank (ZMod 2) (W (b + 1)) := T.charpoly_natDegree
  have hmon := T.charpoly_monic
  obtain ⟨e, he⟩ : ∃ e, Module.finrank (ZMod 2) (W (b + 1)) + e = D := ⟨_, Nat.add_sub_of_le hW⟩
  have hm2 : (T.charpoly * X ^ e).Monic := hmon.mul (monic_X_pow e)
  have hd2 : (T.charpoly * X ^ e).natDegree = D := by rw [hmon.natDegree_mul (monic_X_pow e), natDegree_X_pow, hdeg, he]
  have hz : aeval T (T.charpoly * X ^ e) = 0 := by rw [map_mul, T.aeval_self_charpoly, zero_mul]
  refine ⟨fun i => (T.charpoly * X ^ e).coeff i, fun g n => ?_⟩
  let l : W (b + 1) →ₗ[ZMod 2] ZMod 2 := (LinearMap.proj g).comp (W (b + 1)).subtype
  have h1 := aeval_linear T l _ hz ⟨_, out_mem b hb⟩
  have hp : ∀ n (P : W (b + 1)) g, ((T ^ n) P).1 g = P.1 (step^[n] g) := by
    intro n
    induction n with
    | zero => intro P g; rfl
    | succ n ih =>
      intro P g
      rw [pow_succ', Module.End.mul_apply, Function.iterate_succ_apply]
      show ((T ^ n) P).1 (step g) = _
      rw [ih]
  have hl : (fun n => l ((T ^ n) ⟨_, out_mem b hb⟩)) = fun n => MT64.bit (out (step^[n] g)) b := by
    funext n
    exact hp n _ g
  rw [hl] at h1
  refine rec_of_aeval (d := D) (y := fun n => MT64.bit (out (step^[n] g)) b) ?_ hd2.le h1 n
  have h2 := hm2.coeff_natDegree
  rw [hd2] at h2
  exact h2

end Xoroshiro
end Crazy
