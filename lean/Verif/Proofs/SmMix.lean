/-
SplitMix64's output function is a permutation of the 64-bit words fixing 0.
-/
import Verif.Proofs.XoSeed
import Verif.Proofs.XoStep
namespace Crazy

theorem xorshr_inj (k : Nat) (hk : 0 < k) (x y : U64) (h : x ^^^ (x >>> k) = y ^^^ (y >>> k)) : x = y := by
  have hb : ∀ n, ∀ i, 64 ≤ i + n → x.getLsbD i = y.getLsbD i := by
    intro n
    induction n with
    | zero => intro i hi; rw [BitVec.getLsbD_of_ge _ _ (by omega), BitVec.getLsbD_of_ge _ _ (by omega)]
    | succ n ih =>
      intro i hi
      have h1 := congrArg (fun v => v.getLsbD i) h
      simp only [BitVec.getLsbD_xor, BitVec.getLsbD_ushiftRight] at h1
      rw [ih (k + i) (by omega)] at h1
      revert h1
      cases x.getLsbD i <;> cases y.getLsbD i <;> cases y.getLsbD (k + i) <;> simp
  apply BitVec.eq_of_getLsbD_eq
  intro i hi
  exact hb 64 i (by omega)

theorem mul_inj (c d : U64) (hcd : c * d = 1#64) (x y : U64) (h : x * c = y * c) : x = y := by
  have := congrArg (· * d) h
  simpa [BitVec.mul_assoc, hcd] using this

theorem smMix_inj {x y : U64} (h : smMix x = smMix y) : x = y := by
  unfold smMix at h
  have h1 := xorshr_inj 31 (by decide) _ _ h
  have h2 := mul_inj _ 0x319642b2d24d8ec3#64 (by decide) _ _ h1
  have h3 := xorshr_inj 27 (by decide) _ _ h2
  have h4 := mul_inj _ 0x96de1b173f119089#64 (by decide) _ _ h3
  exact xorshr_inj 30 (by decide) _ _ h4

theorem smMix_zero : smMix 0#64 = 0#64 := by decide

theorem smMix_eq_zero {x : U64} : smMix x = 0#64 ↔ x = 0#64 := by
  constructor
  · intro h
    apply smMix_inj
    rw [h, smMix_zero]
  · intro h
    rw [h, smMix_zero]

theorem add_right_inj' {a b : U64} (c : U64) (h : a + c = b + c) : a = b := by
  have := congrArg (· - c) h
  simpa [BitVec.add_sub_cancel] using this

theorem xor_left_inj' {a b : U64} (c : U64) (h : c ^^^ a = c ^^^ b) : a = b := by
  have := congrArg (c ^^^ ·) h
  simpa [xor_cancel_left] using this

theorem xor_right_inj' {a b : U64} (c : U64) (h : a ^^^ c = b ^^^ c) : a = b := by
  rw [BitVec.xor_comm a, BitVec.xor_comm b] at h
  exact xor_left_inj' c h

/-- Blocks of the same length at most 8 that pad to the same word are equal. -/
theorem pad_inj {t t' : List Byte} (hl : t.length = t'.length) {p : U64}
    (h : t ++ zeros (8 - t.length) = le64 p) (h' : t' ++ zeros (8 - t'.length) = le64 p) : t = t' := by
  rw [← h'] at h
  exact (List.append_inj h hl).1

theorem whole_words (u : List Byte) (hu : 8 ∣ u.length) : ∃ ws, u = bytesOf ws := by
  obtain ⟨k, hk⟩ := hu
  obtain ⟨ws, -, h⟩ := exists_words u k (by omega)
  rw [List.drop_eq_nil_of_le (by omega), List.append_nil] at h
  exact ⟨ws, h⟩

theorem pad_full {m : List Byte} (h : m.length = 8) : ∃ x, m = le64 x := by
  obtain ⟨x, hx⟩ := pad_word m (by omega)
  refine ⟨x, ?_⟩
  rw [← hx, h]; simp [zeros]

namespace Xoroshiro

theorem smFold_init (ws : List U64) (s : U64) :
    ws.foldl (fun sm a => sm + (smGamma ^^^ a)) s = smAfter ws + s := by
  unfold smAfter
  induction ws generalizing s with
  | nil => simp
  | cons w ws ih =>
    rw [List.foldl_cons, ih, List.foldl_cons, ih (0#64 + (smGamma ^^^ w))]
    rw [BitVec.zero_add, BitVec.add_assoc, BitVec.add_comm s]

theorem smAfter_append (a b : List U64) : smAfter (a ++ b) = smAfter b + smAfter a := by
  rw [smAfter, List.foldl_append, smFold_init]; rfl

theorem smAfter_one (x : U64) : smAfter [x] = smGamma ^^^ x := by simp [smAfter]

theorem smAfter_mid {a b : List U64} {x y : U64} (h : smAfter (a ++ x :: b) = smAfter (a ++ y :: b)) : x = y := by
  rw [List.append_cons a x, List.append_cons a y, smAfter_append (a ++ [x]), smAfter_append (a ++ [y]), smAfter_append a [x],
    smAfter_append a [y], smAfter_one, smAfter_one] at h
  rw [BitVec.add_comm (smAfter b), BitVec.add_comm (smAfter b)] at h
  exact xor_left_inj' _ (add_right_inj' _ (add_right_inj' _ h))

end Xoroshiro
end Crazy
