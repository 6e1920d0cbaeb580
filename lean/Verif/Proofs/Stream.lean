import Verif.Spec.Stream
import Verif.Proofs.Bytes
import Verif.Model.Xoroshiro
namespace Crazy

theorem le64_eq (w : U64) :
    le64 w = (List.range 8).map fun k => BitVec.ofNat 8 (w.toNat / 256 ^ k) := by
  have h : ∀ k : Nat, (w >>> (8 * k)).setWidth 8 = BitVec.ofNat 8 (w.toNat / 256 ^ k) := by
    intro k
    apply BitVec.eq_of_toNat_eq
    simp [Nat.shiftRight_eq_div_pow, Nat.pow_mul]
  have h0 := h 0; have h1 := h 1; have h2 := h 2; have h3 := h 3
  have h4 := h 4; have h5 := h 5; have h6 := h 6; have h7 := h 7
  simp only [Nat.mul_zero, Nat.mul_one, Nat.reduceMul, BitVec.ushiftRight_zero] at h0 h1 h2 h3 h4 h5 h6 h7
  simp only [List.range, List.range.loop, List.map, le64]
  rw [h0, h1, h2, h3, h4, h5, h6, h7]

theorem bytesOf_cons (w : U64) (ws : List U64) : bytesOf (w :: ws) = le64 w ++ bytesOf ws := by
  simp only [bytesOf, List.flatMap_cons, le64_eq]

@[simp] theorem bytesOf_nil : bytesOf [] = [] := rfl

theorem bytesOf_append (a b : List U64) : bytesOf (a ++ b) = bytesOf a ++ bytesOf b := by
  simp [bytesOf]

theorem bytesOf_length (ws : List U64) : (bytesOf ws).length = 8 * ws.length := by
  induction ws with
  | nil => rfl
  | cons w ws ih => rw [bytesOf_cons]; simp [ih]; omega

theorem draws_length {σ} {next : σ → Go (U64 × σ)} {n s ws s'}
    (h : draws next n s = .ok (ws, s')) : ws.length = n := by
  induction n generalizing s ws s' with
  | zero => simp [draws] at h; simp [← h.1]
  | succ n ih =>
    simp only [draws, bind, Except.bind, pure, Except.pure] at h
    split at h <;> try contradiction
    split at h <;> try contradiction
    rename_i h2
    simp only [Except.ok.injEq, Prod.mk.injEq] at h
    rw [← h.1, List.length_cons, ih h2]

theorem draws_add {σ} (next : σ → Go (U64 × σ)) (m n : Nat) (s : σ) :
    draws next (m + n) s = (do
      let (xs, s) ← draws next m s
      let (ys, s) ← draws next n s
      return (xs ++ ys, s)) := by
  induction m generalizing s with
  | zero =>
    simp only [Nat.zero_add, draws, bind, Except.bind, pure, Except.pure, List.nil_append]
    cases draws next n s <;> rfl
  | succ m ih =>
    rw [show m + 1 + n = (m + n) + 1 by omega]
    simp only [draws, bind, Except.bind, pure, Except.pure]
    cases next s with
    | error e => rfl
    | ok r =>
      simp only [ih, bind, Except.bind, pure, Except.pure]
      cases draws next m r.2 with
      | error e => rfl
      | ok r2 =>
        dsimp only
        cases draws next n r2.2 <;> rfl

theorem draws_one {σ} (next : σ → Go (U64 × σ)) (s : σ) :
    draws next 1 s = (do let (x, s) ← next s; return ([x], s)) := by
  simp only [draws, bind, Except.bind, pure, Except.pure]

theorem copyInto_le64 (p : List Byte) (x : U64) (h : p.length ≤ 8) :
    copyInto p (le64 x) = (bytesOf [x]).take p.length := by
  simp only [copyInto, bytesOf_cons, bytesOf_nil, List.append_nil, le64_length]
  rw [List.drop_eq_nil_of_le h, List.append_nil]

/-- Words consumed by the `len(p) > 8` loop. -/
def wordsGt (n : Nat) : Nat := max 1 ((n + 7) / 8)

theorem readGt_eq {σ} (next : σ → Go (U64 × σ)) (p : List Byte) (s : σ) :
    readGt next p s = (do
      let (ws, s) ← draws next (wordsGt p.length) s
      return ((bytesOf ws).take p.length, s)) := by
  fun_induction readGt next p s with
  | case1 a b c d e f g h b8 p s ih =>
    have hw : wordsGt (a :: b :: c :: d :: e :: f :: g :: h :: b8 :: p).length
        = wordsGt (b8 :: p).length + 1 := by
      simp only [wordsGt, List.length_cons]; omega
    rw [hw]
    simp only [draws, bind, Except.bind, pure, Except.pure]
    cases next s with
    | error e => rfl
    | ok r =>
      simp only [ih, bind, Except.bind, pure, Except.pure]
      cases draws next _ r.2 with
      | error e => rfl
      | ok r2 =>
        simp only [bytesOf_cons, List.length_cons]
        congr 2
  | case2 p s hp =>
    have hlen : p.length ≤ 8 := by
      match p, hp with
      | [], _ => simp
      | [_], _ => simp
      | [_, _], _ => simp
      | [_, _, _], _ => simp
      | [_, _, _, _], _ => simp
      | [_, _, _, _, _], _ => simp
      | [_, _, _, _, _, _], _ => simp
      | [_, _, _, _, _, _, _], _ => simp
      | [_, _, _, _, _, _, _, _], _ => simp
      | a :: b :: c :: d :: e :: f :: g :: h :: b8 :: p, hp => exact (hp _ _ _ _ _ _ _ _ _ _ rfl).elim
    have hw : wordsGt p.length = 1 := by simp only [wordsGt]; omega
    rw [hw, draws_one]
    simp only [bind, Except.bind, pure, Except.pure]
    cases next s with
    | error e => rfl
    | ok r => simp only [copyInto_le64 _ _ hlen]

theorem xoroReadBytes_eq (p : List Byte) (g : Xoroshiro) :
    Xoroshiro.readBytes p g = (do
      let (ws, s) ← draws Xoroshiro.uint64 (p.length / 8 + 1) g
      return ((bytesOf ws).take p.length, s)) := by
  fun_induction Xoroshiro.readBytes p g with
  | case1 a b c d e f g h p s ih =>
    have hw : (a :: b :: c :: d :: e :: f :: g :: h :: p).length / 8 + 1
        = (p.length / 8 + 1) + 1 := by
      simp only [List.length_cons]; omega
    rw [hw, draws]
    simp only [bind, Except.bind, pure, Except.pure]
    cases Xoroshiro.uint64 s with
    | error e => rfl
    | ok r =>
      simp only [ih, bind, Except.bind, pure, Except.pure]
      cases draws _ _ r.2 with
      | error e => rfl
      | ok r2 =>
        simp only [bytesOf_cons, List.length_cons]
        congr 2
  | case2 p s hp =>
    have hlen : p.length < 8 := by
      match p, hp with
      | [], _ => simp
      | [_], _ => simp
      | [_, _], _ => simp
      | [_, _, _], _ => simp
      | [_, _, _, _], _ => simp
      | [_, _, _, _, _], _ => simp
      | [_, _, _, _, _, _], _ => simp
      | [_, _, _, _, _, _, _], _ => simp
      | a :: b :: c :: d :: e :: f :: g :: h :: p, hp => exact (hp _ _ _ _ _ _ _ _ _ rfl).elim
    have hw : p.length / 8 + 1 = 1 := by omega
    rw [hw, draws_one]
    simp only [bind, Except.bind, pure, Except.pure]
    cases Xoroshiro.uint64 s with
    | error e => rfl
    | ok r => simp only [copyInto_le64 _ _ (Nat.le_of_lt hlen)]

end Crazy
