/-
Averages over all sequences of words, one word at a time.
-/
import Verif.Proofs.Moment
import Verif.Proofs.ZigProb
import Verif.Spec.Cost
namespace Crazy

theorem average_zero (X : List U64 → ℝ) : average 0 X = X [] := by
  have : Unique {t : List U64 // t.length = 0} := ⟨⟨⟨[], rfl⟩⟩, fun t => Subtype.ext (List.length_eq_zero_iff.mp t.2)⟩
  unfold average
  rw [finsum_unique, Nat.card_unique, Nat.cast_one, div_one]
  exact congrArg X (List.length_eq_zero_iff.mp (default : {t : List U64 // t.length = 0}).2)

theorem average_congr {k : Nat} {X Y : List U64 → ℝ} (h : ∀ t, t.length = k → X t = Y t) : average k X = average k Y := by
  unfold average
  exact congrArg (· / _) (finsum_congr fun t => h t.1 t.2)

theorem average_mono {k : Nat} {X Y : List U64 → ℝ} (h : ∀ t, t.length = k → X t ≤ Y t) : average k X ≤ average k Y := by
  classical
  have : Fintype {t : List U64 // t.length = k} := Fintype.ofFinite _
  unfold average
  rw [finsum_eq_sum_of_fintype, finsum_eq_sum_of_fintype]
  exact div_le_div_of_nonneg_right (Finset.sum_le_sum fun t _ => h t.1 t.2) (card_len_pos k).le

theorem average_const (k : Nat) (c : ℝ) : average k (fun _ => c) = c := by
  classical
  have : Fintype {t : List U64 // t.length = k} := Fintype.ofFinite _
  unfold average
  rw [finsum_eq_sum_of_fintype, Finset.sum_const, Finset.card_univ, ← Nat.card_eq_fintype_card, nsmul_eq_mul, mul_comm, mul_div_assoc,
    div_self (card_len_pos k).ne', mul_one]

theorem average_add (k : Nat) (X Y : List U64 → ℝ) : average k (fun t => X t + Y t) = average k X + average k Y := by
  classical
  have : Fintype {t : List U64 // t.length = k} := Fintype.ofFinite _
  unfold average
  rw [finsum_eq_sum_of_fintype, finsum_eq_sum_of_fintype, finsum_eq_sum_of_fintype, Finset.sum_add_distrib, add_div]

theorem average_mul (k : Nat) (c : ℝ) (X : List U64 → ℝ) : average k (fun t => c * X t) = c * average k X := by
  classical
  have : Fintype {t : List U64 // t.length = k} := Fintype.ofFinite _
  unfold average
  rw [finsum_eq_sum_of_fintype, finsum_eq_sum_of_fintype, ← Finset.mul_sum, mul_div_assoc]

/-- The first word and the others. -/
def consLen (k N : Nat) (hN : N = 2 ^ 64) : Fin N × {t : List U64 // t.length = k} ≃ {t : List U64 // t.length = k + 1} where
  toFun p := ⟨BitVec.ofNat 64 p.1.val :: p.2.1, by rw [List.length_cons, p.2.2]⟩
  invFun t := match t with
    | ⟨x :: t, h⟩ => (⟨x.toNat, hN ▸ x.isLt⟩, ⟨t, by simpa using h⟩)
  left_inv := by
    rintro ⟨x, t, h⟩
    refine Prod.ext (Fin.ext ?_) rfl
    show (BitVec.ofNat 64 x.val).toNat = x.val
    rw [BitVec.toNat_ofNat, Nat.mod_eq_of_lt (hN ▸ x.isLt)]
  right_inv := by
    rintro ⟨_ | ⟨x, t⟩, h⟩
    · cases h
    · refine Subtype.ext ?_
      show BitVec.ofNat 64 x.toNat :: t = x :: t
      rw [BitVec.ofNat_toNat, BitVec.setWidth_eq]

theorem average_succ (k : Nat) (X : List U64 → ℝ) :
    average (k + 1) X = avg (2 ^ 64) fun x => average k fun t => X (BitVec.ofNat 64 x :: t) := by
  classical
  obtain ⟨N, hN⟩ : ∃ N : Nat, N = 2 ^ 64 := ⟨_, rfl⟩
  rw [← hN]
  have i1 : Fintype {t : List U64 // t.length = k} := Fintype.ofFinite _
  have i2 : Fintype {t : List U64 // t.length = k + 1} := Fintype.ofFinite _
  unfold average avg
  rw [finsum_eq_sum_of_fintype, ← Nat.card_congr (consLen k N hN), Nat.card_prod, Nat.card_eq_fintype_card (α := Fin N), Fintype.card_fin,
    ← Equiv.sum_comp (consLen k N hN), Fintype.sum_prod_type, Finset.sum_range, Nat.cast_mul, mul_comm (N : ℝ), ← div_div, Finset.sum_div]
  refine congrArg (· / (N : ℝ)) (Finset.sum_congr rfl fun x _ => ?_)
  rw [finsum_eq_sum_of_fintype]
  rfl

end Crazy
