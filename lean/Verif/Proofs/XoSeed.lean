/-
`SeedIV` of `Xoroshiro` and `Xoshiro` word by word.
-/
import Verif.Model.Xoshiro
import Verif.Proofs.Words
namespace Crazy

/-- `iv` ends with fewer than eight bytes: its last word, zero padded. -/
theorem copyInto_zeros8 (p : List Byte) (h : p.length ≤ 8) :
    copyInto (zeros 8) p = p ++ zeros (8 - p.length) := by
  simp only [copyInto, zeros, List.drop_replicate, List.length_replicate]
  rw [List.take_of_length_le h]

theorem u64le_total (p : List Byte) (h : 8 ≤ p.length) : ∃ x, u64le p = .ok x := by
  obtain ⟨x, hx, -⟩ := u64le_eq p h
  exact ⟨x, hx⟩

theorem bytesOf_one (a : U64) : bytesOf [a] = le64 a := by rw [bytesOf_cons]; simp

theorem sliceFrom_le64 (a : U64) (r : List Byte) : sliceFrom (le64 a ++ r) 8 = .ok r := by
  simp [sliceFrom, le64]

namespace Xoroshiro

theorem seedLoop_cons (a : U64) (b : Byte) (r : List Byte) (sm : U64) :
    seedLoop (le64 a ++ b :: r) sm = seedLoop (b :: r) (sm + (smGamma ^^^ a)) := by
  have h := u64le_le64 a []
  simp only [le64, List.append_nil, List.cons_append, List.nil_append] at h ⊢
  rw [seedLoop]
  have e : ∀ l : List Byte, copyInto (zeros 8) ((a.setWidth 8) :: ((a >>> 8).setWidth 8) ::
      ((a >>> 16).setWidth 8) :: ((a >>> 24).setWidth 8) :: ((a >>> 32).setWidth 8) ::
      ((a >>> 40).setWidth 8) :: ((a >>> 48).setWidth 8) :: ((a >>> 56).setWidth 8) :: l) = le64 a := by
    intro l
    simp [copyInto, le64, zeros]
  rw [e]
  simp only [le64]
  rw [h]
  rfl

theorem seedLoop_short (iv : List Byte) (sm : U64) (h : iv.length ≤ 8) :
    seedLoop iv sm = .ok (iv, sm) := by
  rw [seedLoop]
  intro _ _ _ _ _ _ _ _ _ _ e
  subst e
  simp at h

/-- The SplitMix64 state after the leading words `ws` of `iv`. -/
def smAfter (ws : List U64) : U64 := ws.foldl (fun sm a => sm + (smGamma ^^^ a)) 0#64

theorem seedLoop_words (ws : List U64) (t : List Byte) (h0 : t ≠ []) (h8 : t.length ≤ 8) (sm : U64) :
    seedLoop (bytesOf ws ++ t) sm = .ok (t, ws.foldl (fun sm a => sm + (smGamma ^^^ a)) sm) := by
  induction ws generalizing sm with
  | nil => exact seedLoop_short t sm h8
  | cons w ws ih =>
    rw [bytesOf_cons, List.append_assoc]
    have : ∃ b r, bytesOf ws ++ t = b :: r := by
      cases hl : bytesOf ws ++ t with
      | nil => simp [h0] at hl
      | cons b r => exact ⟨b, r, rfl⟩
    obtain ⟨b, r, hbr⟩ := this
    rw [hbr, seedLoop_cons, ← hbr, ih]
    rfl

/-- The last word `p` of `iv` (1 to 8 bytes, zero padded) and the words before it determine the state. -/
theorem seedIV_words (ws : List U64) (t : List Byte) (h0 : t ≠ []) (h8 : t.length ≤ 8) (p : U64)
    (hp : t ++ zeros (8 - t.length) = le64 p) (g : Xoroshiro) :
    g.seedIV (bytesOf ws ++ t) =
      .ok ⟨smMix (((smAfter ws + smGamma) ^^^ p) + smGamma), smMix (smAfter ws + smGamma)⟩ := by
  have hl : 0 < t.length := List.length_pos_iff.mpr h0
  have e1 : copyInto (zeros 8) t = le64 p := by rw [copyInto_zeros8 t h8, hp]
  have e2 : u64le (le64 p) = .ok p := by simpa using u64le_le64 p []
  have e3 : sliceFrom t (copyLen (zeros 8) t) = .ok (t.drop (copyLen (zeros 8) t)) := by
    rw [sliceFrom, if_pos (by simp only [copyLen]; omega)]
  unfold seedIV
  rw [if_neg (by simp only [List.length_append]; omega)]
  simp only [bind, Except.bind, pure, Except.pure]
  rw [seedLoop_words ws t h0 h8]
  simp only [if_pos hl]
  rw [e3, e1]
  simp only []
  rw [e2]
  rfl

theorem seedIV_nil (g : Xoroshiro) :
    g.seedIV [] = .ok ⟨smMix (0#64 + smGamma), smMix (0#64 + smGamma + smGamma)⟩ := rfl

end Xoroshiro

/-- Every non-empty `iv` is full words followed by a last word of 1 to 8 bytes. -/
theorem iv_split (iv : List Byte) (h : iv ≠ []) :
    ∃ ws t, iv = bytesOf ws ++ t ∧ t ≠ [] ∧ t.length ≤ 8 ∧ ws.length = (iv.length - 1) / 8 := by
  have hl : 0 < iv.length := List.length_pos_iff.mpr h
  obtain ⟨ws, h1, h2⟩ := exists_words iv ((iv.length - 1) / 8) (by omega)
  refine ⟨ws, _, h2, ?_, ?_, h1⟩
  · intro e
    have := congrArg List.length e
    rw [List.length_drop] at this
    simp at this
    omega
  · rw [List.length_drop]; omega

theorem pad_word (t : List Byte) (h : t.length ≤ 8) : ∃ p, t ++ zeros (8 - t.length) = le64 p := by
  obtain ⟨x, -, hx⟩ := u64le_eq (t ++ zeros (8 - t.length)) (by simp; omega)
  refine ⟨x, ?_⟩
  rw [hx, List.take_of_length_le]
  simp; omega

namespace Xoshiro

/-- xor four words into the state. -/
def xor4 (g : Xoshiro) (a b c d : U64) : Xoshiro := ⟨g.w ^^^ a, g.x ^^^ b, g.y ^^^ c, g.z ^^^ d⟩

theorem seedLoop_cons (a b c d : U64) (r : List Byte) (g : Xoshiro) (sm : U64) :
    seedLoop (bytesOf [a, b, c, d] ++ r) g sm =
      seedLoop r (smXor (g.step.step.step.step.xor4 a b c d) sm).1
        (smXor (g.step.step.step.step.xor4 a b c d) sm).2 := by
  have e : bytesOf [a, b, c, d] ++ r = le64 a ++ (le64 b ++ (le64 c ++ (le64 d ++ r))) := by
    simp only [bytesOf_cons, bytesOf_nil, List.append_nil, List.append_assoc]
  have hstep : seedLoop (le64 a ++ (le64 b ++ (le64 c ++ (le64 d ++ r)))) g sm = (do
    let iv := le64 a ++ (le64 b ++ (le64 c ++ (le64 d ++ r)))
    let g := g.step.step.step.step
    let g := { g with w := g.w ^^^ (← u64le iv) }
    let iv ← sliceFrom iv 8
    let g := { g with x := g.x ^^^ (← u64le iv) }
    let iv ← sliceFrom iv 8
    let g := { g with y := g.y ^^^ (← u64le iv) }
    let iv ← sliceFrom iv 8
    let g := { g with z := g.z ^^^ (← u64le iv) }
    let (g, sm) := smXor g sm
    seedLoop r g sm) := rfl
  rw [e, hstep]
  simp only [u64le_le64, sliceFrom_le64, bind, Except.bind]
  rfl

theorem seedLoop_short (iv : List Byte) (g : Xoshiro) (sm : U64) (h : iv.length < 32) :
    seedLoop iv g sm = .ok (iv, g, sm) := by
  unfold seedLoop
  split
  · exfalso
    simp only [List.length_cons] at h
    omega
  · rfl

/-- The four words of a 32-byte block. -/
abbrev Block := U64 × U64 × U64 × U64

/-- Absorbing one 32-byte block. -/
def absorb (g : Xoshiro) (sm : U64) (b : Block) : Xoshiro × U64 :=
  smXor (g.step.step.step.step.xor4 b.1 b.2.1 b.2.2.1 b.2.2.2) sm

/-- Absorbing the 32-byte blocks of `iv`. -/
def absorbAll (gs : Xoshiro × U64) (bs : List Block) : Xoshiro × U64 :=
  bs.foldl (fun gs b => absorb gs.1 gs.2 b) gs

/-- The bytes of a list of blocks. -/
def blockBytes (bs : List Block) : List Byte := bs.flatMap fun b => bytesOf [b.1, b.2.1, b.2.2.1, b.2.2.2]

theorem seedLoop_blocks (bs : List Block) (t : List Byte) (h : t.length < 32) (g : Xoshiro) (sm : U64) :
    seedLoop (blockBytes bs ++ t) g sm = .ok (t, absorbAll (g, sm) bs) := by
  induction bs generalizing g sm with
  | nil => exact seedLoop_short t g sm h
  | cons b bs ih =>
    have : blockBytes (b :: bs) ++ t = bytesOf [b.1, b.2.1, b.2.2.1, b.2.2.2] ++ (blockBytes bs ++ t) := by
      simp only [blockBytes, List.flatMap_cons, List.append_assoc]
    rw [this, seedLoop_cons, ih]
    rfl

/-- Absorbing the words left after the 32-byte blocks. -/
def absorbTail (g : Xoshiro) (sm : U64) : List U64 → Xoshiro
  | [a] => (smXor (g.step.xor4 a 0#64 0#64 0#64) sm).1
  | [a, b] => (smXor (g.step.step.xor4 a b 0#64 0#64) sm).1
  | [a, b, c] => (smXor (g.step.step.step.xor4 a b c 0#64) sm).1
  | [a, b, c, d] => (smXor (g.step.step.step.step.xor4 a b c d) sm).1
  | _ => g

theorem seedIV_blocks (bs : List Block) (g : Xoshiro) :
    g.seedIV (blockBytes bs) = .ok (absorbAll g.seedInit bs).1 := by
  have h := seedLoop_blocks bs [] (by simp) g.seedInit.1 g.seedInit.2
  rw [List.append_nil] at h
  unfold seedIV
  simp only [bind, Except.bind, pure, Except.pure]
  rw [h]
  simp

theorem seedIV_tail (bs : List Block) (ws : List U64) (t : List Byte) (h0 : t ≠ []) (h8 : t.length ≤ 8)
    (h32 : 8 * ws.length + t.length < 32) (p : U64) (hp : t ++ zeros (8 - t.length) = le64 p) (g : Xoshiro) :
    g.seedIV (blockBytes bs ++ (bytesOf ws ++ t)) =
      .ok (absorbTail (absorbAll g.seedInit bs).1 (absorbAll g.seedInit bs).2 (ws ++ [p])) := by
  have hl : 0 < t.length := List.length_pos_iff.mpr h0
  have e1 : copyInto (zeros 8) t = le64 p := by rw [copyInto_zeros8 t h8, hp]
  have e2 : u64le (le64 p) = .ok p := by simpa using u64le_le64 p []
  have h := seedLoop_blocks bs (bytesOf ws ++ t) (by rw [List.length_append, bytesOf_length]; exact h32)
    g.seedInit.1 g.seedInit.2
  unfold seedIV
  simp only [bind, Except.bind, pure, Except.pure]
  rw [h]
  simp only [List.length_append, bytesOf_length]
  match ws, h32 with
  | [], _ =>
    simp only [List.length_nil, Nat.mul_zero, Nat.zero_add, bytesOf_nil, List.nil_append]
    rw [if_neg (by omega), if_neg (by omega), if_neg (by omega), if_pos hl, e1]
    simp only [e2, absorbTail, xor4, BitVec.xor_zero]
  | [a], _ =>
    simp only [List.length_cons, List.length_nil, Nat.zero_add, Nat.mul_one, bytesOf_one]
    rw [if_neg (by omega), if_neg (by omega), if_pos (by omega)]
    simp only [u64le_le64, sliceFrom_le64, e1, e2, absorbTail, xor4, BitVec.xor_zero, List.cons_append,
      List.nil_append]
  | [a, b], _ =>
    simp only [List.length_cons, List.length_nil, Nat.zero_add, Nat.reduceAdd, Nat.reduceMul, bytesOf_cons,
      bytesOf_nil, List.append_nil, List.append_assoc]
    rw [if_neg (by omega), if_pos (by omega)]
    simp only [u64le_le64, sliceFrom_le64, e1, e2, absorbTail, xor4, BitVec.xor_zero, List.cons_append,
      List.nil_append]
  | [a, b, c], _ =>
    simp only [List.length_cons, List.length_nil, Nat.zero_add, Nat.reduceAdd, Nat.reduceMul, bytesOf_cons,
      bytesOf_nil, List.append_nil, List.append_assoc]
    rw [if_pos (by omega)]
    simp only [u64le_le64, sliceFrom_le64, e1, e2, absorbTail, xor4, List.cons_append,
      List.nil_append]
  | a :: b :: c :: d :: ws, h => simp only [List.length_cons] at h; omega

theorem words_blocks (n : Nat) (ws : List U64) (h : ws.length = 4 * n) :
    ∃ bs : List Block, bs.length = n ∧ bytesOf ws = blockBytes bs := by
  induction n generalizing ws with
  | zero => exact ⟨[], rfl, by rw [List.eq_nil_of_length_eq_zero (by omega : ws.length = 0)]; rfl⟩
  | succ n ih =>
    match ws, h with
    | a :: b :: c :: d :: ws, h =>
      obtain ⟨bs, h1, h2⟩ := ih ws (by simp only [List.length_cons] at h; omega)
      refine ⟨(a, b, c, d) :: bs, by simp [h1], ?_⟩
      simp only [blockBytes, List.flatMap_cons, bytesOf_cons, bytesOf_nil, List.append_nil, List.append_assoc]
      simp only [blockBytes, bytesOf_cons, bytesOf_nil, List.append_nil] at h2
      rw [h2]
    | [], h => simp at h
    | [_], h => simp at h; omega
    | [_, _], h => simp at h; omega
    | [_, _, _], h => simp at h; omega

/-- Every `iv` is 32-byte blocks, full words and (unless the blocks exhaust it) a last word of 1 to 8 bytes. -/
theorem iv_split (iv : List Byte) :
    (∃ bs, bs.length = iv.length / 32 ∧ iv = blockBytes bs) ∨
    (∃ bs ws t, bs.length = iv.length / 32 ∧ iv = blockBytes bs ++ (bytesOf ws ++ t) ∧ t ≠ [] ∧ t.length ≤ 8 ∧
      8 * ws.length + t.length < 32 ∧ ws.length = (iv.length % 32 - 1) / 8) := by
  obtain ⟨ws, h1, h2⟩ := exists_words iv (4 * (iv.length / 32)) (by omega)
  obtain ⟨bs, h3, h4⟩ := words_blocks _ ws h1
  by_cases h : iv.length % 32 = 0
  · left
    refine ⟨bs, h3, ?_⟩
    rw [List.drop_eq_nil_of_le (by omega), List.append_nil] at h2
    rw [← h4]; exact h2
  · right
    have hd : (iv.drop (8 * (4 * (iv.length / 32)))).length = iv.length % 32 := by
      rw [List.length_drop]; omega
    obtain ⟨ws', t, h5, h6, h7, h8⟩ := Crazy.iv_split (iv.drop (8 * (4 * (iv.length / 32)))) (by
      intro e; rw [e] at hd; simp at hd; omega)
    refine ⟨bs, ws', t, h3, ?_, h6, h7, ?_, by rw [h8, hd]⟩
    · rw [← h5, ← h4]; exact h2
    · have := congrArg List.length h5
      rw [List.length_append, bytesOf_length, hd] at this
      omega

theorem seedInit_const (g g' : Xoshiro) : g.seedInit = g'.seedInit := rfl

theorem seedIV_total (iv : List Byte) : ∃ s, ∀ g : Xoshiro, g.seedIV iv = .ok s := by
  rcases iv_split iv with ⟨bs, -, rfl⟩ | ⟨bs, ws, t, -, rfl, h0, h8, h32, -⟩
  · exact ⟨_, fun g => by rw [seedIV_blocks, seedInit_const g new]⟩
  · obtain ⟨p, hp⟩ := pad_word t h8
    exact ⟨_, fun g => by rw [seedIV_tail bs ws t h0 h8 h32 p hp, seedInit_const g new]⟩

end Xoshiro

theorem Xoroshiro.seedIV_total (iv : List Byte) : ∃ s, ∀ g : Xoroshiro, g.seedIV iv = .ok s := by
  by_cases h : iv = []
  · subst h; exact ⟨_, seedIV_nil⟩
  · obtain ⟨ws, t, rfl, h0, h8, -⟩ := iv_split iv h
    obtain ⟨p, hp⟩ := pad_word t h8
    exact ⟨_, seedIV_words ws t h0 h8 p hp⟩

end Crazy
