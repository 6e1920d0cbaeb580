/-
C125: ivs of more than 607 bytes for `LFG.SeedIV`.
-/
import Verif.Props.LfgSeed
namespace Crazy

theorem LFG.contrib_group (iv : List Byte) (i k : Nat) (hi : i % 607 = 0) (j : Nat) : LFG.contrib (j + i) iv k = LFG.contrib j iv k := by
  induction iv generalizing j with
  | nil => rfl
  | cons v iv ih =>
    rw [LFG.contrib, LFG.contrib, show j + i + 1 = j + 1 + i by omega, ih]
    have e1 : (j + i + 334) % 607 = (j + 334) % 607 := by omega
    have e2 : (v.toNat + 256 * (j + i)) % 607 = (v.toNat + 256 * j) % 607 := by omega
    simp only [e1, e2]

theorem LFG.seedIV_of_contrib (iv iv' : List Byte) (h : ∀ k, LFG.contrib 0 iv k = LFG.contrib 0 iv' k) (g g' : LFG) : g.seedIV iv = g'.seedIV iv' := by
  rw [LFG.seedIV_eq, LFG.seedIV_eq]
  refine congrArg Except.ok (LFG.nexts_congr _ _ (LFG.inv_seedStart iv) (LFG.inv_seedStart iv') rfl ?_ _ (by decide))
  intro i h1 h2
  rw [LFG.seedStart_hist iv i h1 h2, LFG.seedStart_hist iv' i h1 h2, h]

/-- C125: two bytes of an iv that stand a multiple of 607 places apart can be exchanged without any effect on the state. -/
theorem C125_swap (u v w : List Byte) (a b : Byte) (h607 : 607 ∣ v.length + 1) (g g' : LFG) :
    g.seedIV (u ++ a :: v ++ b :: w) = g'.seedIV (u ++ b :: v ++ a :: w) := by
  have key : ∀ k, LFG.contrib 0 (u ++ a :: v ++ b :: w) k = LFG.contrib 0 (u ++ b :: v ++ a :: w) k := fun k => by
    obtain ⟨m, hm⟩ := h607
    have e : ∀ (x y : Byte), LFG.contrib 0 (u ++ x :: v ++ y :: w) k =
        LFG.contrib 0 u k + (LFG.contrib u.length [x] k + LFG.contrib (u.length + 1) v k) +
          (LFG.contrib u.length [y] k + LFG.contrib (u.length + (v.length + 1) + 1) w k) := fun x y => by
      have h1 := LFG.contrib_group [y] (v.length + 1) k (by omega) u.length
      rw [LFG.contrib_append, LFG.contrib_append, List.length_append, List.length_cons, Nat.zero_add, Nat.zero_add]
      rw [LFG.contrib.eq_2 u.length, LFG.contrib.eq_2 (u.length + (v.length + 1)), ← h1]
      simp only [LFG.contrib, BitVec.add_zero]
    rw [e, e]
    generalize LFG.contrib u.length [a] k = x
    generalize LFG.contrib u.length [b] k = y
    bv_omega
  exact LFG.seedIV_of_contrib _ _ key g g'

/-- C125: so of the ivs of any one length over 607 bytes two that differ in used bytes seed the same state. -/
theorem C125_collision (L : Nat) (hL : 608 ≤ L) (g : LFG) : ∃ iv iv' : List Byte, iv.length = L ∧ iv'.length = L ∧
    (∃ i, LfgLive i ∧ iv[i]? ≠ iv'[i]?) ∧ g.seedIV iv = g.seedIV iv' := by
  refine ⟨[] ++ 0#8 :: List.replicate 606 0#8 ++ 1#8 :: List.replicate (L - 608) 0#8, [] ++ 1#8 :: List.replicate 606 0#8 ++ 0#8 :: List.replicate (L - 608) 0#8,
    ?_, ?_, ⟨0, Or.inl rfl, ?_⟩, C125_swap [] _ _ 0#8 1#8 (by rw [List.length_replicate]; exact ⟨1, rfl⟩) g g⟩
  · simp only [List.length_append, List.length_cons, List.length_replicate, List.length_nil]
    omega
  · simp only [List.length_append, List.length_cons, List.length_replicate, List.length_nil]
    omega
  · rw [List.nil_append, List.nil_append, List.cons_append, List.cons_append, List.getElem?_cons_zero, List.getElem?_cons_zero]
    decide

/-! ### Non-vacuity -/

/-- The first and the last byte of 1215 exchanged. -/
example (g : LFG) (v : List Byte) (hv : v.length = 1213) : g.seedIV (5#8 :: v ++ [9#8]) = g.seedIV (9#8 :: v ++ [5#8]) :=
  C125_swap [] v [] 5#8 9#8 (by rw [hv]; decide) g g

end Crazy
