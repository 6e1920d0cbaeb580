/-
C77: XorCompose and SelectCompose on ideal bytes.
-/
import Verif.Props.Compose
import Mathlib.SetTheory.Cardinal.Finite
import Mathlib.Data.Fintype.BigOperators
import Mathlib.SetTheory.Cardinal.NatCard
import Mathlib.Algebra.BigOperators.Ring.Finset
namespace Crazy

/-- The byte that `SelectCompose` makes. -/
def selB (c a b : Byte) : Byte := a ^^^ ((a ^^^ b) &&& c)

/-- The bytes that `SelectCompose` makes. -/
def selL : List Byte → List Byte → List Byte → List Byte
  | c :: cs, a :: as, b :: bs => selB c a b :: selL cs as bs
  | _, _, _ => []

theorem selB_back (c a b : Byte) : selB c (selB c a b) (selB c b a) = a := by
  unfold selB
  apply BitVec.eq_of_getLsbD_eq
  intro i _
  simp only [BitVec.getLsbD_xor, BitVec.getLsbD_and]
  cases c.getLsbD i <;> cases a.getLsbD i <;> cases b.getLsbD i <;> rfl

theorem selL_length (c a b : List Byte) (ha : a.length = c.length) (hb : b.length = c.length) :
    (selL c a b).length = c.length := by
  induction c generalizing a b with
  | nil => rfl
  | cons x c ih =>
    match a, b, ha, hb with
    | y :: a, z :: b, ha, hb => simp only [selL, List.length_cons, ih a b (by simpa using ha) (by simpa using hb)]

theorem selL_back (c a b : List Byte) (ha : a.length = c.length) (hb : b.length = c.length) :
    selL c (selL c a b) (selL c b a) = a := by
  induction c generalizing a b with
  | nil => exact (List.length_eq_zero_iff.mp ha).symm
  | cons x c ih =>
    match a, b, ha, hb with
    | y :: a, z :: b, ha, hb => simp only [selL, selB_back, ih a b (by simpa using ha) (by simpa using hb)]

theorem selL_get (c a b : List Byte) (i : Nat) (h : i < c.length) (ha : a.length = c.length) (hb : b.length = c.length) :
    (selL c a b)[i]? = some (selB c[i] a[i] b[i]) := by
  induction c generalizing a b i with
  | nil => simp at h
  | cons x c ih =>
    match a, b, ha, hb with
    | y :: a, z :: b, ha, hb =>
      cases i with
      | zero => rfl
      | succ i => exact ih a b i (by simpa using h) (by simpa using ha) (by simpa using hb)

theorem byteTape_reads (p u v : List Byte) (h : u.length = p.length) :
    byteTape.read p (u ++ v) = .ok (⟨u, p.length, none⟩, v) := by
  show (if _ then _ else _) = _
  rw [if_pos (by rw [List.length_append]; omega), List.take_left' h, List.drop_left' h]

/-- `SelectCompose` on a tape. -/
theorem selectCompose_tape (p c a b r : List Byte) (hc : c.length = p.length) (ha : a.length = p.length) (hb : b.length = p.length) :
    selectCompose byteTape byteTape byteTape p (c ++ (a ++ (b ++ r))) = .ok (⟨selL c a b, p.length, none⟩, r) := by
  obtain ⟨q, h1, h2, h3⟩ := (C20_selectCompose byteTape byteTape byteTape p (c ++ (a ++ (b ++ r)))).1 _ _ _ _ _ _
    (byteTape_reads _ c _ (by rw [List.length_replicate, hc])) (byteTape_reads _ a _ ha)
    (byteTape_reads _ b _ (by rw [List.length_replicate, hb]))
  rw [h1]
  have : q = selL c a b := by
    apply List.ext_getElem?
    intro i
    by_cases hi : i < p.length
    · obtain ⟨c', a', b', o, e1, e2, e3, e4, e5⟩ := h3 i hi
      rw [e4, selL_get c a b i (by omega) (by omega) (by omega)]
      have e1 : c[i]? = some c' := e1
      have e2 : a[i]? = some a' := e2
      have e3 : b[i]? = some b' := e3
      rw [List.getElem?_eq_getElem (by omega), Option.some_inj] at e1 e2 e3
      rw [e1, e2, e3]
      refine congrArg some (BitVec.eq_of_getLsbD_eq fun j hj => ?_)
      rw [e5 j hj]
      simp only [selB, BitVec.getLsbD_xor, BitVec.getLsbD_and]
      cases c'.getLsbD j <;> cases a'.getLsbD j <;> cases b'.getLsbD j <;> rfl
    · rw [List.getElem?_eq_none (by omega), List.getElem?_eq_none (by rw [selL_length _ _ _ (by omega) (by omega)]; omega)]
  rw [this]

theorem xorCompose_tape (p a b r : List Byte) (ha : a.length = p.length) (hb : b.length = p.length) :
    xorCompose byteTape byteTape p (a ++ (b ++ r)) = .ok (⟨List.zipWith (· ^^^ ·) a b, p.length, none⟩, r) :=
  xorCompose_ok (byteTape_reads _ a _ ha) (byteTape_reads _ b _ (by rw [zeros_length, hb]))

/-- The number of byte strings. -/
theorem card_bytes (n : Nat) : Nat.card {b : List Byte // b.length = n} = 256 ^ n := by
  rw [show {b : List Byte // b.length = n} = List.Vector Byte n from rfl, Nat.card_congr (Equiv.vectorEquivFin Byte n),
    Nat.card_fun, Nat.card_eq_fintype_card (α := Fin n), Fintype.card_fin,
    Nat.card_congr (show Byte ≃ Fin 256 from ⟨fun x => x.toFin, fun i => ⟨i⟩, fun _ => rfl, fun _ => rfl⟩), Nat.card_eq_fintype_card,
    Fintype.card_fin]

/-- Three pieces of `n` bytes. -/
theorem split3 (n : Nat) (t : List Byte) (h : t.length = 3 * n) : ∃ c a b, c.length = n ∧ a.length = n ∧ b.length = n ∧
    t = c ++ (a ++ (b ++ [])) := by
  refine ⟨t.take n, (t.drop n).take n, (t.drop n).drop n, ?_, ?_, ?_, ?_⟩
  · rw [List.length_take]; omega
  · rw [List.length_take, List.length_drop]; omega
  · rw [List.length_drop, List.length_drop]; omega
  · rw [List.append_nil, List.take_append_drop, List.take_append_drop]

theorem ok_buf_inj {a b : List Byte} {n : Int} {u : List Byte} :
    ((Except.ok (⟨a, n, none⟩, u) : Go (ReadRes × List Byte)) = .ok (⟨b, n, none⟩, [])) ↔ (a = b ∧ u = []) := by
  constructor
  · intro h
    injection h with h
    have h1 := congrArg (fun x => x.1.buf) h
    have h2 := congrArg Prod.snd h
    exact ⟨h1, h2⟩
  · rintro ⟨rfl, rfl⟩; rfl

/-- C77: whatever bytes `c` the selecting source delivers, if those of the two others are ideal so are those of SelectCompose: each
`out` of `n` bytes comes from 256^n of the 256^(2n) strings they can deliver. -/
theorem C77_selectCompose_given (n : Nat) (p c out : List Byte) (hp : p.length = n) (hc : c.length = n) (ho : out.length = n) :
    countBytes (2 * n) (fun t => selectCompose byteTape byteTape byteTape p (c ++ t) = .ok (⟨out, n, none⟩, [])) = 256 ^ n := by
  rw [← card_bytes n, countBytes]
  have key : ∀ a b : List Byte, a.length = n → b.length = n →
      (selectCompose byteTape byteTape byteTape p (c ++ (a ++ b)) = .ok (⟨out, n, none⟩, []) ↔ selL c a b = out) := by
    intro a b ha hb
    have := selectCompose_tape p c a b [] (by omega) (by omega) (by omega)
    rw [List.append_nil] at this
    rw [this, hp, ok_buf_inj]
    simp
  refine Nat.card_congr ⟨fun t => ⟨selL c (t.1.drop n) (t.1.take n), ?_⟩, fun o => ⟨selL c out o.1 ++ selL c o.1 out, ?_, ?_⟩, ?_, ?_⟩
  · rw [selL_length _ _ _ (by rw [List.length_drop, t.2.1]; omega) (by rw [List.length_take, t.2.1]; omega), hc]
  · rw [List.length_append, selL_length _ _ _ (by omega) (by rw [o.2]; omega), selL_length _ _ _ (by rw [o.2]; omega) (by omega)]
    omega
  · have h1 := selL_length c out o.1 (by omega) (by rw [o.2]; omega)
    have h2 := selL_length c o.1 out (by rw [o.2]; omega) (by omega)
    rw [key _ _ (by omega) (by omega)]
    exact selL_back c out o.1 (by omega) (by rw [o.2]; omega)
  · rintro ⟨t, h1, h2⟩
    have l1 : (t.take n).length = n := by rw [List.length_take]; omega
    have l2 : (t.drop n).length = n := by rw [List.length_drop]; omega
    rw [← List.take_append_drop n t, key _ _ l1 l2] at h2
    refine Subtype.ext ?_
    show selL c out (selL c (t.drop n) (t.take n)) ++ selL c (selL c (t.drop n) (t.take n)) out = t
    rw [← h2, selL_back c _ _ (by omega) (by omega), selL_back c _ _ (by omega) (by omega), List.take_append_drop]
  · rintro ⟨o, h⟩
    have h1 := selL_length c out o (by omega) (by omega)
    refine Subtype.ext ?_
    show selL c (List.drop n (selL c out o ++ selL c o out)) (List.take n (selL c out o ++ selL c o out)) = o
    rw [List.drop_left' (by omega), List.take_left' (by omega)]
    exact selL_back c o out (by omega) (by omega)

/-- C77: if the bytes of `A` and `B` are ideal so are those of XorCompose: each `out` of `n` bytes comes from 256^n of the 256^(2n)
strings they can deliver. -/
theorem C77_xorCompose (n : Nat) (p out : List Byte) (hp : p.length = n) (ho : out.length = n) :
    countBytes (2 * n) (fun t => xorCompose byteTape byteTape p t = .ok (⟨out, n, none⟩, [])) = 256 ^ n := by
  rw [← card_bytes n, countBytes]
  have key : ∀ a b : List Byte, a.length = n → b.length = n →
      (xorCompose byteTape byteTape p (a ++ b) = .ok (⟨out, n, none⟩, []) ↔ List.zipWith (· ^^^ ·) a b = out) := by
    intro a b ha hb
    have := xorCompose_tape p a b [] (by omega) (by omega)
    rw [List.append_nil] at this
    rw [this, hp, ok_buf_inj]
    simp
  have back : ∀ a b : List Byte, a.length = n → b.length = n → List.zipWith (· ^^^ ·) (List.zipWith (· ^^^ ·) a b) b = a := by
    intro a b ha hb
    apply List.ext_getElem
    · simp [ha, hb]
    · intro i h1 h2
      simp [BitVec.xor_assoc]
  refine Nat.card_congr ⟨fun t => ⟨t.1.drop n, ?_⟩, fun o => ⟨List.zipWith (· ^^^ ·) out o.1 ++ o.1, ?_, ?_⟩, ?_, ?_⟩
  · rw [List.length_drop, t.2.1]; omega
  · rw [List.length_append, List.length_zipWith, o.2]; omega
  · rw [key _ _ (by rw [List.length_zipWith, o.2]; omega) o.2]
    exact back _ _ ho o.2
  · rintro ⟨t, h1, h2⟩
    have l1 : (t.take n).length = n := by rw [List.length_take]; omega
    have l2 : (t.drop n).length = n := by rw [List.length_drop]; omega
    rw [← List.take_append_drop n t, key _ _ l1 l2] at h2
    refine Subtype.ext ?_
    show List.zipWith (· ^^^ ·) out (t.drop n) ++ t.drop n = t
    rw [← h2, back _ _ l1 l2, List.take_append_drop]
  · rintro ⟨o, h⟩
    refine Subtype.ext ?_
    show List.drop n _ = o
    rw [List.drop_left' (by rw [List.length_zipWith, h]; omega)]

/-- C77: the same when the selecting bytes come from the tape too. -/
theorem C77_selectCompose (n : Nat) (p out : List Byte) (hp : p.length = n) (ho : out.length = n) :
    countBytes (3 * n) (fun t => selectCompose byteTape byteTape byteTape p t = .ok (⟨out, n, none⟩, [])) = 256 ^ (2 * n) := by
  have h : ∀ c : {b : List Byte // b.length = n}, Nat.card {t : List Byte // t.length = 2 * n ∧
      selectCompose byteTape byteTape byteTape p (c.1 ++ t) = .ok (⟨out, n, none⟩, [])} = 256 ^ n :=
    fun c => C77_selectCompose_given n p c.1 out hp c.2 ho
  have fin : ∀ m, Finite {b : List Byte // b.length = m} := fun m => (Nat.finite_of_card_ne_zero (by
    rw [card_bytes]; exact (Nat.pow_pos (by decide)).ne'))
  have := fin n
  have := Fintype.ofFinite {b : List Byte // b.length = n}
  have hs : Nat.card (Σ c : {b : List Byte // b.length = n}, {t : List Byte // t.length = 2 * n ∧
      selectCompose byteTape byteTape byteTape p (c.1 ++ t) = .ok (⟨out, n, none⟩, [])}) = 256 ^ (2 * n) := by
    have f2 : ∀ c : {b : List Byte // b.length = n}, Finite {t : List Byte // t.length = 2 * n ∧
        selectCompose byteTape byteTape byteTape p (c.1 ++ t) = .ok (⟨out, n, none⟩, [])} := fun c =>
      Nat.finite_of_card_ne_zero (by rw [h c]; exact (Nat.pow_pos (by decide)).ne')
    rw [Nat.card_sigma, Finset.sum_congr rfl fun c _ => h c, Finset.sum_const, Finset.card_univ, ← Nat.card_eq_fintype_card,
      card_bytes, Nat.nsmul_eq_mul, ← Nat.pow_add, Nat.two_mul]
  rw [← hs, countBytes]
  refine Nat.card_congr ⟨fun t => ⟨⟨t.1.take n, ?_⟩, ⟨t.1.drop n, ?_, ?_⟩⟩, fun x => ⟨x.1.1 ++ x.2.1, ?_, ?_⟩, ?_, ?_⟩
  · rw [List.length_take, t.2.1]; omega
  · rw [List.length_drop, t.2.1]; omega
  · rw [List.take_append_drop]; exact t.2.2
  · rw [List.length_append, x.1.2, x.2.2.1]; omega
  · exact x.2.2.2
  · rintro ⟨t, h1, h2⟩
    exact Subtype.ext (List.take_append_drop n t)
  · rintro ⟨⟨c, hc⟩, ⟨t, h1, h2⟩⟩
    have e1 : (c ++ t).take n = c := List.take_left' hc
    have e2 : (c ++ t).drop n = t := List.drop_left' hc
    refine Sigma.ext (Subtype.ext e1) ?_
    refine (Subtype.heq_iff_coe_eq fun x => ?_).mpr e2
    show (_ ∧ selectCompose _ _ _ p (List.take n (c ++ t) ++ x) = _) ↔ _
    rw [e1]

/-- Non-vacuity of C77: such strings exist. -/
example : selectCompose byteTape byteTape byteTape [0#8] [0x0f#8, 0x12#8, 0x34#8] = .ok (⟨[0x14#8], 1, none⟩, []) := by decide

end Crazy
