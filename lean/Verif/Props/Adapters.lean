/-
C22-C27: the adapters between crazy Seeders and math/rand Sources. (C08 for the AdaptCrazy wrapper is here too.)
-/
import Verif.Model.GenObjs
import Verif.Props.RngInts
import Verif.Props.Uintn
import Verif.Props.Big
namespace Crazy

variable {σ : Type}

/-! ### C22 -/

/-- Specification: the 64-bit words made of a list of `Int63` results: `x ^ y<<1` of each pair that is followed by
another result, and the bare last result. -/
def mathWords : List U64 → List U64
  | x :: y :: z :: r => (x ^^^ (y <<< 1)) :: mathWords (z :: r)
  | [x, y] => [x ^^^ (y <<< 1)]
  | [x] => [x]
  | [] => []

/-- The calls made by a read of `n` bytes: two for every eight bytes begun, but for the last of these only one. -/
def mathCalls (n : Nat) : Nat := 2 * max 1 ((n + 7) / 8) - 1

theorem readMath_eq (int63 : σ → Go (U64 × σ)) (p : List Byte) (s : σ) :
    readMath int63 p s = (do
      let (xs, s) ← draws int63 (mathCalls p.length) s
      return ((bytesOf (mathWords xs)).take p.length, s)) := by
  fun_induction readMath int63 p s with
  | case1 a b c d e f g h b8 p s ih =>
    obtain ⟨m, hm⟩ : ∃ m, mathCalls (b8 :: p).length = m + 1 := ⟨mathCalls (b8 :: p).length - 1, by
      simp only [mathCalls]; omega⟩
    have hw : mathCalls (a :: b :: c :: d :: e :: f :: g :: h :: b8 :: p).length
        = mathCalls (b8 :: p).length + 1 + 1 := by
      simp only [mathCalls, List.length_cons]; omega
    rw [hw]
    simp only [draws, bind, Except.bind, pure, Except.pure]
    cases int63 s with
    | error e => rfl
    | ok r =>
      simp only []
      cases int63 r.2 with
      | error e => rfl
      | ok r1 =>
        simp only [ih, bind, Except.bind, pure, Except.pure]
        cases hd : draws int63 (mathCalls (b8 :: p).length) r1.2 with
        | error e => rfl
        | ok r2 =>
          have hl := draws_length (show draws _ _ _ = .ok (r2.1, r2.2) from hd)
          rw [hm] at hl
          obtain ⟨xs, s2⟩ := r2
          match xs, hl with
          | z :: r', _ =>
            simp only [mathWords, bytesOf_cons, List.length_cons]
            congr 2
  | case2 p s hp =>
    have hlen : p.length ≤ 8 := by
      match p, hp with
      | [], _ => simp
      | [_], _ => simp
      | [_, _], _ => simp
      | [_, _, _], _ => simp
      | [_, _, _, _], _ => simp
      | [_, _, _, _, _], _ => simp
      | [_, _, _, _, _, _], _ => simp
      | [_, _, _, _, _, _, _], _ => simp
      | [_, _, _, _, _, _, _, _], _ => simp
      | a :: b :: c :: d :: e :: f :: g :: h :: b8 :: p, hp => exact (hp _ _ _ _ _ _ _ _ _ _ rfl).elim
    have hw : mathCalls p.length = 1 := by simp only [mathCalls]; omega
    rw [hw, draws_one]
    simp only [bind, Except.bind, pure, Except.pure]
    cases int63 s with
    | error e => rfl
    | ok r => simp only [copyInto_le64 _ _ hlen, mathWords]

/-- The argument is a `math/rand.Source`, and neither a `Seeder` nor a `Source64`. -/
def PlainSource (src : Obj σ) : Prop := src.IsSource ∧ ¬ src.IsSeeder ∧ ¬ src.IsSource64

theorem adaptRand_plain {src : Obj σ} (h : PlainSource src) : adaptRand src = math2crazy src := by
  unfold adaptRand; rw [if_neg h.2.1, if_neg h.2.2]

/-- C22: `AdaptRand(src).Read(p)` makes exactly `2⌈n/8⌉ - 1` calls of `Int63` (one for the empty buffer) and writes the
little-endian bytes of the words made of their results; it returns `len(p), nil`. -/
theorem C22_read (src : Obj σ) (h : PlainSource src) (p : List Byte) (s : σ) :
    (adaptRand src).read p s = (do
      let (xs, s) ← draws src.int63 (2 * max 1 ((p.length + 7) / 8) - 1) s
      return (⟨(bytesOf (mathWords xs)).take p.length, p.length, none⟩, s)) := by
  rw [adaptRand_plain h]
  show (do let (q, s) ← readMath src.int63 p s; return (ReadRes.mk q p.length none, s)) = _
  rw [readMath_eq]
  simp only [mathCalls, bind, Except.bind, pure, Except.pure]
  cases draws src.int63 (2 * max 1 ((p.length + 7) / 8) - 1) s <;> rfl

/-- The number of calls the documentation promises: two per eight bytes of output, one fewer if the length is not
divisible by eight. -/
def documentedCalls (n : Nat) : Nat := 2 * ((n + 7) / 8) - if n % 8 = 0 then 0 else 1

/-- C22: the documentation is right about the number of calls exactly when the length is not a multiple of eight (for a
positive multiple there is one call fewer than documented). -/
theorem C22_documented (n : Nat) :
    (2 * max 1 ((n + 7) / 8) - 1 = documentedCalls n ↔ n % 8 ≠ 0) ∧
    (0 < n → n % 8 = 0 → 2 * max 1 ((n + 7) / 8) - 1 + 1 = documentedCalls n) := by
  unfold documentedCalls
  by_cases h : n % 8 = 0
  · rw [if_pos h]; omega
  · rw [if_neg h]; omega

/-- `Int63` never returns a negative number (as its documentation demands of every `math/rand.Source`). -/
def Int63NonNeg (src : Obj σ) : Prop := ∀ s x s', src.int63 s = .ok (x, s') → 0 ≤ x.toInt

theorem nonneg_iff (x : U64) : 0 ≤ x.toInt ↔ x.toNat < 2 ^ 63 := by
  have := x.isLt
  rw [BitVec.toInt_eq_toNat_cond]
  split <;> omega

/-- C22, no full distribution: eight-byte reads of the adapter, and so `RNG{AdaptRand(src)}.Uint64`, never reach the
upper half of the 64-bit range. -/
theorem C22_uint64_half (src : Obj σ) (h : PlainSource src) (hn : Int63NonNeg src) (s s' : σ) (x : U64)
    (hx : RNG.uint64 (adaptRand src).toSource s = .ok (x, s')) : x.toNat < 2 ^ 63 := by
  rw [RNG.uint64_eq] at hx
  have hr : (adaptRand src).toSource.read (zeros 8) s = (adaptRand src).read (zeros 8) s := rfl
  rw [hr, C22_read src h, zeros_length] at hx
  simp only [show 2 * max 1 ((8 + 7) / 8) - 1 = 1 from rfl, draws_one, bind, Except.bind, pure, Except.pure] at hx
  cases hi : src.int63 s with
  | error e => rw [hi] at hx; contradiction
  | ok v =>
    rw [hi] at hx
    simp only [mathWords, bytesOf_cons, bytesOf_nil, List.append_nil, Except.map, Except.ok.injEq, Prod.mk.injEq] at hx
    rw [List.take_of_length_le (by simp), leNat_le64, BitVec.ofNat_toNat, BitVec.setWidth_eq] at hx
    rw [← hx.1]
    exact (nonneg_iff _).mp (hn s v.1 v.2 hi)

/-- The last word of `mathWords` of an odd number of results is the last result itself. -/
theorem mathWords_odd (k : Nat) : ∀ xs : List U64, xs.length = 2 * k + 1 →
    ∃ ws x, x ∈ xs ∧ mathWords xs = ws ++ [x] ∧ ws.length = k := by
  induction k with
  | zero =>
    intro xs h
    match xs, h with
    | [x], _ => exact ⟨[], x, by simp, rfl, rfl⟩
  | succ k ih =>
    intro xs h
    match xs, h with
    | x :: y :: z :: r, h =>
      obtain ⟨ws, v, hv, he, hl⟩ := ih (z :: r) (by simp only [List.length_cons] at h ⊢; omega)
      refine ⟨(x ^^^ (y <<< 1)) :: ws, v, ?_, ?_, by simp [hl]⟩
      · exact List.mem_cons_of_mem _ (List.mem_cons_of_mem _ hv)
      · rw [mathWords, he]; rfl

theorem draws_mem {next : σ → Go (U64 × σ)} {P : U64 → Prop} (hP : ∀ s x s', next s = .ok (x, s') → P x) {n : Nat} :
    ∀ {s xs s'}, draws next n s = .ok (xs, s') → ∀ x ∈ xs, P x := by
  induction n with
  | zero =>
    intro s xs s' h x hx
    simp only [draws, Except.ok.injEq, Prod.mk.injEq] at h
    rw [← h.1] at hx; simp at hx
  | succ n ih =>
    intro s xs s' h x hx
    simp only [draws, bind, Except.bind, pure, Except.pure] at h
    split at h
    · contradiction
    rename_i v hv
    split at h
    · contradiction
    rename_i w hw
    simp only [Except.ok.injEq, Prod.mk.injEq] at h
    rw [← h.1] at hx
    rcases List.mem_cons.mp hx with rfl | hx
    · exact hP s v.1 v.2 hv
    · exact ih (show draws next n v.2 = .ok (w.1, w.2) from hw) x hx

/-- C22, no full distribution: when the length is a positive multiple of eight, the top bit of the last byte read is
always 0. -/
theorem C22_last_bit (src : Obj σ) (h : PlainSource src) (hn : Int63NonNeg src) (p : List Byte) (k : Nat)
    (hp : p.length = 8 * (k + 1)) (s s' : σ) (r : ReadRes) (hr : (adaptRand src).read p s = .ok (r, s')) :
    ∃ b, r.buf[p.length - 1]? = some b ∧ b.toNat < 128 := by
  rw [C22_read src h] at hr
  simp only [bind, Except.bind, pure, Except.pure] at hr
  split at hr
  · contradiction
  rename_i v hv
  obtain ⟨xs, s1⟩ := v
  have hl := draws_length hv
  have hmem := draws_mem (P := fun x => 0 ≤ x.toInt) hn hv
  rw [hp] at hl
  obtain ⟨ws, x, hx, he, hw⟩ := mathWords_odd k xs (by omega)
  have hx0 := (nonneg_iff x).mp (hmem x hx)
  simp only [Except.ok.injEq, Prod.mk.injEq] at hr
  refine ⟨(x >>> 56).setWidth 8, ?_, ?_⟩
  · rw [← hr.1, he, bytesOf_append, bytesOf_cons, bytesOf_nil, List.append_nil]
    have hlen : (bytesOf ws).length = 8 * k := by rw [bytesOf_length, hw]
    show (List.take p.length _)[p.length - 1]? = _
    rw [List.take_of_length_le (by simp [hlen]; omega), List.getElem?_append_right (by omega), hlen, hp]
    rw [show 8 * (k + 1) - 1 - 8 * k = 7 by omega]
    rfl
  · rw [BitVec.toNat_setWidth, BitVec.toNat_ushiftRight, Nat.shiftRight_eq_div_pow]
    omega

/-- C22, where the words are full: every 64-bit value is `x ^ y<<1` for exactly 2^62 of the 2^126 pairs of non-negative
`int64`s. -/
theorem C22_word_uniform (w : U64) :
    Nat.card {xy : U64 × U64 // xy.1.toNat < 2 ^ 63 ∧ xy.2.toNat < 2 ^ 63 ∧ xy.1 ^^^ (xy.2 <<< 1) = w} = 2 ^ 62 := by
  have hmsb : ∀ x : U64, x.toNat < 2 ^ 63 ↔ x.getLsbD 63 = false := by
    intro x
    have := BitVec.msb_eq_decide x
    rw [BitVec.msb_eq_getLsbD_last] at this
    rw [show (64 - 1 : Nat) = 63 from rfl] at this
    rw [this]
    simp
  rw [show (2 : Nat) ^ 62 = Nat.card (BitVec 62) by
    rw [Nat.card_congr (⟨BitVec.toFin, BitVec.ofFin, fun _ => rfl, fun _ => rfl⟩ : BitVec 62 ≃ Fin (2 ^ 62)),
      Nat.card_eq_fintype_card, Fintype.card_fin]]
  let Y : BitVec 62 → U64 := fun b => (b.setWidth 64) ||| (if w.getLsbD 63 then 1#64 <<< 62 else 0#64)
  have hY : ∀ b i, i < 64 → (Y b).getLsbD i = if i < 62 then b.getLsbD i else if i = 62 then w.getLsbD 63 else false := by
    intro b i hi
    simp only [Y, BitVec.getLsbD_or, BitVec.getLsbD_setWidth, hi, decide_true, Bool.true_and]
    by_cases h1 : i < 62
    · rw [if_pos h1]
      split
      · rw [BitVec.getLsbD_shiftLeft, show decide (i < 62) = true by simp [h1]]; simp
      · simp
    · rw [if_neg h1, BitVec.getLsbD_of_ge b i (by omega)]
      by_cases h2 : i = 62
      · subst h2; split <;> simp_all
      · rw [if_neg h2]
        have : i = 63 := by omega
        subst this
        split <;> simp
  refine Nat.card_congr ⟨fun v => v.1.2.setWidth 62, fun b => ⟨(w ^^^ (Y b <<< 1), Y b), ?_, ?_, ?_⟩, ?_, ?_⟩
  · rw [hmsb, BitVec.getLsbD_xor, BitVec.getLsbD_shiftLeft, hY _ _ (by omega)]
    simp
  · rw [hmsb, hY _ _ (by omega)]; simp
  · rw [BitVec.xor_assoc, BitVec.xor_self, BitVec.xor_zero]
  · rintro ⟨⟨x, y⟩, h1, h2, h3⟩
    have hy : Y (y.setWidth 62) = y := by
      apply BitVec.eq_of_getLsbD_eq
      intro i hi
      rw [hY _ _ hi]
      by_cases hi1 : i < 62
      · rw [if_pos hi1, BitVec.getLsbD_setWidth]; simp [hi1]
      · rw [if_neg hi1]
        by_cases hi2 : i = 62
        · rw [if_pos hi2, ← h3, BitVec.getLsbD_xor, (hmsb x).mp h1, BitVec.getLsbD_shiftLeft, hi2]; simp
        · rw [if_neg hi2, show i = 63 by omega]; exact ((hmsb y).mp h2).symm
    apply Subtype.ext
    show ((w ^^^ (Y (y.setWidth 62) <<< 1), Y (y.setWidth 62)) : U64 × U64) = (x, y)
    rw [hy, ← h3]
    show (x ^^^ (y <<< 1) ^^^ (y <<< 1), y) = (x, y)
    rw [BitVec.xor_assoc, BitVec.xor_self, BitVec.xor_zero]
  · intro b
    apply BitVec.eq_of_getLsbD_eq
    intro i hi
    show ((Y b).setWidth 62).getLsbD i = _
    rw [BitVec.getLsbD_setWidth, hY _ _ (by omega), if_pos hi]
    simp [hi]

/-- C22, where the last word is not full (`k < 8` bytes of it are used), nothing is missing: every value of the `k`
bytes comes from the same number of the 2^63 non-negative `int64`s. -/
theorem C22_tail_uniform (k : Nat) (hk : k < 8) (v : Nat) (hv : v < 256 ^ k) :
    countWords (fun x => x.toNat < 2 ^ 63 ∧ leNat ((le64 x).take k) = v) = 2 ^ (63 - 8 * k) := by
  have e : (fun x : U64 => x.toNat < 2 ^ 63 ∧ leNat ((le64 x).take k) = v)
      = fun x : U64 => x.toNat ≤ 2 ^ 63 - 1 ∧ x.toNat % 256 ^ k = v := by
    funext x
    rw [leNat_take_le64 x k (by omega)]
    exact propext ⟨fun ⟨a, b⟩ => ⟨by omega, b⟩, fun ⟨a, b⟩ => ⟨by omega, b⟩⟩
  obtain ⟨N, hN⟩ : ∃ N, N = 2 ^ 64 := ⟨_, rfl⟩
  rw [e, countWords_eq N hN (fun n => n ≤ 2 ^ 63 - 1 ∧ n % 256 ^ k = v), count_le_and _ _ _ (by omega)]
  have h2 : 2 ^ 63 - 1 + 1 = 256 ^ k * 2 ^ (63 - 8 * k) := by
    rw [show (256 : Nat) = 2 ^ 8 from rfl, ← Nat.pow_mul, ← Nat.pow_add, show 8 * k + (63 - 8 * k) = 63 by omega]
    rfl
  rw [h2]
  exact count_mod _ _ _ hv

/-- A `math/rand.Source` with nothing but `Int63` and `Seed`: a counter. -/
def counterSource : Obj U64 where
  read? := none
  seedIV? := none
  int63? := some fun s => .ok (s >>> 1, s + 2#64)
  uint64? := none
  seed? := some fun x _ => .ok x
  len_buf f hf := by contradiction

/-- Non-vacuity of C22: a plain source meets the hypotheses, and a 20-byte read makes five calls. -/
example : PlainSource counterSource ∧ Int63NonNeg counterSource ∧
    ((adaptRand counterSource).read (zeros 20) 0x102#64).map (·.2) = .ok 0x10c#64 := by
  refine ⟨⟨by decide, by decide, by decide⟩, ?_, by rfl⟩
  intro s x s' h
  simp only [Obj.int63, counterSource, Except.ok.injEq, Prod.mk.injEq] at h
  rw [← h.1]
  exact (twoToOne_shift.1 s).1

/-! ### C23 -/

/-- The argument is a `math/rand.Source64` and not a `Seeder`. -/
def PlainSource64 (src : Obj σ) : Prop := src.IsSource64 ∧ ¬ src.IsSeeder

theorem adaptRand_plain64 {src : Obj σ} (h : PlainSource64 src) : adaptRand src = math642crazy src := by
  unfold adaptRand; rw [if_neg h.2, if_pos h.1]
theorem adaptRand64_plain64 {src : Obj σ} (h : PlainSource64 src) : adaptRand64 src = math642crazy src := by
  unfold adaptRand64; rw [if_neg h.2]

/-- C23: the `Source64` adapters' `Read(p)` calls `Uint64` exactly `max 1 ⌈n/8⌉` times, fills `p` with the
little-endian bytes of the results and returns `len(p), nil`. -/
theorem C23_read64 (src : Obj σ) (h : PlainSource64 src) (p : List Byte) (s : σ) :
    (adaptRand src).read p s = (do
      let (ws, s) ← draws src.uint64 (max 1 ((p.length + 7) / 8)) s
      return (⟨(bytesOf ws).take p.length, p.length, none⟩, s)) ∧
    (adaptRand64 src).read p s = (adaptRand src).read p s := by
  rw [adaptRand_plain64 h, adaptRand64_plain64 h]
  refine ⟨?_, rfl⟩
  show (do let (q, s) ← readGt src.uint64 p s; return (ReadRes.mk q p.length none, s)) = _
  rw [readGt_eq]
  simp only [wordsGt, bind, Except.bind, pure, Except.pure]
  cases draws src.uint64 (max 1 ((p.length + 7) / 8)) s <;> rfl

/-- C23: every read of an adapter that returns has filled all of `p` with its own bytes, and reports `len(p), nil`: the
result does not depend on what was in `p`. -/
theorem C23_contract (src : Obj σ) (h : PlainSource src ∨ PlainSource64 src) (p : List Byte) (s s' : σ) (r : ReadRes)
    (hr : (adaptRand src).read p s = .ok (r, s')) :
    r.n = p.length ∧ r.err = none ∧ r.buf.length = p.length ∧
      ∀ p' : List Byte, p'.length = p.length → (adaptRand src).read p' s = .ok (r, s') := by
  have hl : r.buf.length = p.length := (adaptRand src).toSource.len_buf p s r s' hr
  rcases h with h | h
  · have hr0 := hr
    rw [C22_read src h] at hr
    simp only [bind, Except.bind, pure, Except.pure] at hr
    split at hr
    · contradiction
    rename_i v hv
    simp only [Except.ok.injEq, Prod.mk.injEq] at hr
    refine ⟨by rw [← hr.1], by rw [← hr.1], hl, fun p' hp' => ?_⟩
    rw [← hr0, C22_read src h, C22_read src h, hp']
  · have hr0 := hr
    rw [(C23_read64 src h p s).1] at hr
    simp only [bind, Except.bind, pure, Except.pure] at hr
    split at hr
    · contradiction
    rename_i v hv
    simp only [Except.ok.injEq, Prod.mk.injEq] at hr
    refine ⟨by rw [← hr.1], by rw [← hr.1], hl, fun p' hp' => ?_⟩
    rw [← hr0, (C23_read64 src h p s).1, (C23_read64 src h p' s).1, hp']

/-- A `math/rand.Source64` that is not a `Seeder`: a counter. -/
def counterSource64 : Obj U64 := { counterSource with uint64? := some fun s => .ok (s, s + 1#64) }

/-- Non-vacuity of C23. -/
example : PlainSource64 counterSource64 ∧
    ((adaptRand counterSource64).read (zeros 9) 0x102#64) =
      .ok (⟨[2, 1, 0, 0, 0, 0, 0, 0, 3], 9, none⟩, 0x104#64) := ⟨⟨by decide, by decide⟩, by rfl⟩

/-! ### C24 -/

/-- C24: `SeedIV(iv)` of the adapters is one `Seed` call with the little-endian number of the first eight bytes of `iv`
(missing bytes count as zero). -/
theorem C24_seedIV (src : Obj σ) (h : PlainSource src ∨ PlainSource64 src) (iv : List Byte) (s : σ) :
    (adaptRand src).seedIV iv s = src.seed (BitVec.ofNat 64 (leNat (iv.take 8))) s := by
  have key : mathSeedIV src.seed iv s = src.seed (BitVec.ofNat 64 (leNat (iv.take 8))) s := by
    have e : copyInto (zeros 8) iv = iv.take 8 ++ zeros (8 - iv.length) := by
      rw [copyInto, zeros_length, zeros, List.drop_replicate]; rfl
    have hl : (copyInto (zeros 8) iv).length = 8 := by rw [copyInto_length]; rfl
    simp only [mathSeedIV, u64le_leNat _ hl, bind, Except.bind]
    rw [e, leNat_append, leNat_zeros, Nat.mul_zero, Nat.add_zero]
  rcases h with h | h
  · rw [adaptRand_plain h]; exact key
  · rw [adaptRand_plain64 h]; exact key

/-- C24: ivs that agree in the first eight bytes seed alike. -/
theorem C24_prefix (src : Obj σ) (h : PlainSource src ∨ PlainSource64 src) (iv iv' : List Byte)
    (he : iv.take 8 = iv'.take 8) (s : σ) : (adaptRand src).seedIV iv s = (adaptRand src).seedIV iv' s := by
  rw [C24_seedIV src h, C24_seedIV src h, he]

/-- C24: `SeedInt64` on an adapter seeds the underlying source with that very `int64`. -/
theorem C24_seedInt64 (src : Obj σ) (h : PlainSource src ∨ PlainSource64 src) (x : U64) (s : σ) :
    seedInt64 (adaptRand src) x s = src.seed x s := by
  have : putU64 (zeros 8) x = .ok (le64 x) := by simp [putU64, zeros]
  simp only [seedInt64, this, bind, Except.bind]
  rw [C24_seedIV src h, List.take_of_length_le (by simp), leNat_le64, BitVec.ofNat_toNat, BitVec.setWidth_eq]

/-- C24: `AdaptRand64` seeds the same way. -/
theorem C24_adaptRand64 (src : Obj σ) (h : PlainSource64 src) : (adaptRand64 src).seedIV = (adaptRand src).seedIV := by
  rw [adaptRand_plain64 h, adaptRand64_plain64 h]

example : (adaptRand counterSource).seedIV [1, 2, 3, 0, 0, 0, 0, 0, 9, 9] 0#64 = .ok 0x30201#64 := by rfl

/-! ### C25 -/

/-- C25: an argument that has the wanted methods already is returned itself. -/
theorem C25_returned (src : Obj σ) :
    (src.IsSeeder → adaptRand src = src ∧ adaptRand64 src = src) ∧ (src.IsSource64 → adaptCrazy src = src) := by
  refine ⟨fun h => ⟨?_, ?_⟩, fun h => ?_⟩
  · unfold adaptRand; rw [if_pos h]
  · unfold adaptRand64; rw [if_pos h]
  · unfold adaptCrazy; rw [if_pos h]

/-- C25: the results implement the interface that is promised. -/
theorem C25_interfaces (src : Obj σ) :
    (src.IsSource → (adaptRand src).IsSeeder) ∧ (src.IsSource64 → (adaptRand64 src).IsSeeder) ∧
    (src.IsSeeder → (adaptCrazy src).IsSource64) := by
  refine ⟨fun h => ?_, fun h => ?_, fun h => ?_⟩
  · unfold adaptRand
    split
    · assumption
    · split
      · exact ⟨rfl, rfl⟩
      · exact ⟨rfl, rfl⟩
  · unfold adaptRand64
    split
    · assumption
    · exact ⟨rfl, rfl⟩
  · unfold adaptCrazy
    split
    · assumption
    · exact ⟨⟨rfl, rfl⟩, rfl⟩

/-- C25: a `Source64` made a `Seeder` and back has exactly its own `Int63`, `Uint64` and `Seed`. -/
theorem C25_source64_roundtrip (src : Obj σ) (h : src.IsSource64) :
    (adaptCrazy (adaptRand64 src)).int63? = src.int63? ∧ (adaptCrazy (adaptRand64 src)).uint64? = src.uint64? ∧
    (adaptCrazy (adaptRand64 src)).seed? = src.seed? := by
  obtain ⟨⟨h1, h2⟩, h3⟩ := h
  by_cases hs : src.IsSeeder
  · rw [((C25_returned src).1 hs).2, (C25_returned src).2 ⟨⟨h1, h2⟩, h3⟩]; exact ⟨rfl, rfl, rfl⟩
  · have e : adaptCrazy (adaptRand64 src) = math642crazy src := by
      rw [adaptRand64_plain64 ⟨⟨⟨h1, h2⟩, h3⟩, hs⟩]
      exact (C25_returned _).2 ⟨⟨rfl, rfl⟩, rfl⟩
    obtain ⟨f1, e1⟩ := Option.isSome_iff_exists.mp h1
    obtain ⟨f2, e2⟩ := Option.isSome_iff_exists.mp h2
    obtain ⟨f3, e3⟩ := Option.isSome_iff_exists.mp h3
    rw [e, e1, e2, e3]
    refine ⟨?_, ?_, ?_⟩
    · show some src.int63 = some f1
      refine congrArg some (funext fun s => ?_); rw [Obj.int63, e1]
    · show some src.uint64 = some f3
      refine congrArg some (funext fun s => ?_); rw [Obj.uint64, e3]
    · show some src.seed = some f2
      refine congrArg some (funext fun s => funext fun t => ?_); rw [Obj.seed, e2]

/-- C25: a `Seeder` made a `Source64` and back has exactly its own `Read` and `SeedIV`. -/
theorem C25_seeder_roundtrip (src : Obj σ) (h : src.IsSeeder) :
    (adaptRand (adaptCrazy src)).read? = src.read? ∧ (adaptRand (adaptCrazy src)).seedIV? = src.seedIV? ∧
    (adaptRand64 (adaptCrazy src)).read? = src.read? ∧ (adaptRand64 (adaptCrazy src)).seedIV? = src.seedIV? := by
  obtain ⟨h1, h2⟩ := h
  by_cases hs : src.IsSource64
  · rw [(C25_returned src).2 hs, ((C25_returned src).1 ⟨h1, h2⟩).1, ((C25_returned src).1 ⟨h1, h2⟩).2]
    exact ⟨rfl, rfl, rfl, rfl⟩
  · have e : adaptCrazy src = crazy2math src := by unfold adaptCrazy; rw [if_neg hs]
    have hc : (crazy2math src).IsSeeder := ⟨rfl, rfl⟩
    obtain ⟨f1, e1⟩ := Option.isSome_iff_exists.mp h1
    obtain ⟨f2, e2⟩ := Option.isSome_iff_exists.mp h2
    rw [e, ((C25_returned _).1 hc).1, ((C25_returned _).1 hc).2, e1, e2]
    have r1 : (crazy2math src).read? = some f1 := by
      show some src.read = some f1
      refine congrArg some (funext fun s => funext fun t => ?_); rw [Obj.read, e1]
    have r2 : (crazy2math src).seedIV? = some f2 := by
      show some src.seedIV = some f2
      refine congrArg some (funext fun s => funext fun t => ?_); rw [Obj.seedIV, e2]
    exact ⟨r1, r2, r1, r2⟩

/-- C25, what is lost on a plain `math/rand.Source`: `AdaptRand` makes it a Seeder with its own `Int63` and `Seed` and no
`Uint64`, hence no `Source64`, so that `AdaptCrazy` wraps it again: the `Uint64` of the result is one `Int63` of the original, and
its `Int63` is half of that. -/
theorem C25_plain_roundtrip (src : Obj σ) (h : PlainSource src) (s : σ) :
    (adaptRand src).int63 s = src.int63 s ∧ (∀ x, (adaptRand src).seed x s = src.seed x s) ∧ ¬ (adaptRand src).IsSource64 ∧
    (adaptCrazy (adaptRand src)).uint64 s = src.int63 s ∧
    (adaptCrazy (adaptRand src)).int63 s = (src.int63 s).map (fun r => (BitVec.ofNat 64 (r.1.toNat / 2), r.2)) := by
  have hn : ¬ (adaptRand src).IsSource64 := by
    rw [adaptRand_plain h]; rintro ⟨-, h'⟩; cases h'
  have e : adaptCrazy (adaptRand src) = crazy2math (adaptRand src) := by unfold adaptCrazy; rw [if_neg hn]
  have hu : RNG.uint64 (adaptRand src).toSource s = src.int63 s := by
    rw [RNG.uint64_eq]
    have hr : (adaptRand src).toSource.read (zeros 8) s = (adaptRand src).read (zeros 8) s := rfl
    rw [hr, C22_read src h, zeros_length]
    simp only [show 2 * max 1 ((8 + 7) / 8) - 1 = 1 from rfl, draws_one, bind, Except.bind, pure, Except.pure]
    cases hi : src.int63 s with
    | error e => rfl
    | ok v =>
      simp only [mathWords, bytesOf_cons, bytesOf_nil, List.append_nil, Except.map]
      rw [List.take_of_length_le (by simp), leNat_le64, BitVec.ofNat_toNat, BitVec.setWidth_eq]
  refine ⟨by rw [adaptRand_plain h]; rfl, fun x => by rw [adaptRand_plain h]; rfl, hn, ?_, ?_⟩
  · rw [e]; exact hu
  · rw [e]
    show (do let (x, s) ← RNG.uint64 (adaptRand src).toSource s; return (x >>> 1, s)) = _
    rw [hu]
    simp only [bind, Except.bind, pure, Except.pure]
    cases src.int63 s with
    | error e => rfl
    | ok v =>
      simp only [Except.map]
      refine congrArg Except.ok (Prod.ext ?_ rfl)
      apply BitVec.eq_of_toNat_eq
      rw [BitVec.toNat_ushiftRight, BitVec.toNat_ofNat, Nat.shiftRight_eq_div_pow]
      have := v.1.isLt
      omega

example : PlainSource counterSource := by unfold PlainSource; decide

/-- Non-vacuity of C25: both kinds of argument, wrapped and not. -/
example : counterSource64.IsSource64 ∧ ¬ counterSource64.IsSeeder ∧ Xoshiro.obj.IsSeeder ∧ ¬ Xoshiro.obj.IsSource64 ∧
    LFG.obj.IsSeeder ∧ LFG.obj.IsSource64 := by decide

/-! ### C26 -/

/-- C26: LFG, MT64, Xoroshiro and Rexoroshiro are `math/rand.Source64`s (and Seeders), so no adapter wraps them. -/
theorem C26_source64 :
    (LFG.obj.IsSource64 ∧ LFG.obj.IsSeeder ∧ adaptCrazy LFG.obj = LFG.obj ∧ adaptRand LFG.obj = LFG.obj) ∧
    (MT64.obj.IsSource64 ∧ MT64.obj.IsSeeder ∧ adaptCrazy MT64.obj = MT64.obj ∧ adaptRand MT64.obj = MT64.obj) ∧
    (Xoroshiro.obj.IsSource64 ∧ Xoroshiro.obj.IsSeeder ∧ adaptCrazy Xoroshiro.obj = Xoroshiro.obj ∧
      adaptRand Xoroshiro.obj = Xoroshiro.obj) ∧
    (Rexoroshiro.obj.IsSource64 ∧ Rexoroshiro.obj.IsSeeder ∧ adaptCrazy Rexoroshiro.obj = Rexoroshiro.obj ∧
      adaptRand Rexoroshiro.obj = Rexoroshiro.obj) := by
  have key : ∀ {τ : Type} (o : Obj τ), o.IsSource64 → o.IsSeeder →
      (o.IsSource64 ∧ o.IsSeeder ∧ adaptCrazy o = o ∧ adaptRand o = o) :=
    fun o h1 h2 => ⟨h1, h2, (C25_returned o).2 h1, ((C25_returned o).1 h2).1⟩
  exact ⟨key _ (by decide) (by decide), key _ (by decide) (by decide), key _ (by decide) (by decide),
    key _ (by decide) (by decide)⟩

/-- C26: Xoshiro, a Seeder, is no `math/rand.Source` at all (it has no `Int63`); `AdaptCrazy` wraps it. -/
theorem C26_Xoshiro : Xoshiro.obj.IsSeeder ∧ ¬ Xoshiro.obj.IsSource ∧ ¬ Xoshiro.obj.IsSource64 ∧
    adaptCrazy Xoshiro.obj = crazy2math Xoshiro.obj ∧ adaptCrazy Xoshiro.obj ≠ Xoshiro.obj := by
  have e : adaptCrazy Xoshiro.obj = crazy2math Xoshiro.obj := by
    unfold adaptCrazy; rw [if_neg (by decide)]
  refine ⟨by decide, by decide, by decide, e, fun h => ?_⟩
  rw [e] at h
  have := congrArg (fun o : Obj Xoshiro => o.int63?.isSome) h
  simp [crazy2math, Xoshiro.obj] at this

/-! ### C27 -/

/-- C27: for a Seeder that is no `Source64`, `AdaptCrazy(g)`'s `Uint64` is the little-endian number of eight bytes read
into a zeroed buffer, `Int63` is that number halved, and `Seed(x)` is one `SeedIV` with the eight little-endian bytes
of `x`. -/
theorem C27_adaptCrazy (g : Obj σ) (h : ¬ g.IsSource64) (s : σ) :
    (adaptCrazy g).uint64 s =
      (g.read (List.replicate 8 0#8) s).map (fun r => (BitVec.ofNat 64 (leNat r.1.buf), r.2)) ∧
    (adaptCrazy g).int63 s =
      ((adaptCrazy g).uint64 s).map (fun r => (BitVec.ofNat 64 (r.1.toNat / 2), r.2)) ∧
    ∀ x, (adaptCrazy g).seed x s = g.seedIV (le64 x) s := by
  have e : adaptCrazy g = crazy2math g := by unfold adaptCrazy; rw [if_neg h]
  rw [e]
  refine ⟨?_, ?_, fun x => ?_⟩
  · exact RNG.uint64_eq g.toSource s
  · show (do let (x, s) ← RNG.uint64 g.toSource s; return (x >>> 1, s)) = (RNG.uint64 g.toSource s).map _
    cases RNG.uint64 g.toSource s with
    | error e => rfl
    | ok r =>
      refine congrArg (fun v => Except.ok (v, r.2)) ?_
      apply BitVec.eq_of_toNat_eq
      have := r.1.isLt
      rw [BitVec.toNat_ushiftRight, Nat.shiftRight_eq_div_pow, BitVec.toNat_ofNat, Nat.mod_eq_of_lt (by omega)]
  · show seedInt64 g x s = _
    have : putU64 (zeros 8) x = .ok (le64 x) := by simp [putU64, zeros]
    simp only [seedInt64, this, bind, Except.bind]

/-- C27: `AdaptCrazy(xoshiro)` gives Xoshiro's own output stream; its `Int63` stream is the top 63 bits of it. -/
theorem C27_Xoshiro (n : Nat) (g : Xoshiro) :
    draws (adaptCrazy Xoshiro.obj).uint64 n g = draws Xoshiro.uint64 n g ∧
    (adaptCrazy Xoshiro.obj).int63 g = (Xoshiro.uint64 g).map (fun r => (BitVec.ofNat 64 (r.1.toNat / 2), r.2)) ∧
    ∀ x, (adaptCrazy Xoshiro.obj).seed x g = Xoshiro.seed x g := by
  have h1 : (adaptCrazy Xoshiro.obj).uint64 = RNG.uint64 Xoshiro.source := by
    funext s
    rw [(C27_adaptCrazy Xoshiro.obj (by decide) s).1, RNG.uint64_eq]
    rfl
  have h2 : RNG.uint64 Xoshiro.source g = Xoshiro.uint64 g := by
    have := (C06_Xoshiro g).1 1
    rw [draws_one, draws_one] at this
    cases h : RNG.uint64 Xoshiro.source g with
    | error e => rw [h] at this; simp [bind, Except.bind, Xoshiro.uint64, pure, Except.pure] at this
    | ok r =>
      rw [h] at this
      simp only [bind, Except.bind, Xoshiro.uint64, pure, Except.pure, Except.ok.injEq, Prod.mk.injEq,
        List.cons.injEq, and_true] at this
      rw [Xoshiro.uint64, ← this.1, ← this.2]
  refine ⟨?_, ?_, fun x => ?_⟩
  · rw [h1]; exact (C06_Xoshiro g).1 n
  · rw [(C27_adaptCrazy Xoshiro.obj (by decide) g).2.1, h1, h2]
  · rw [(C27_adaptCrazy Xoshiro.obj (by decide) g).2.2 x]; rfl

/-- C08 for the wrapper made by `AdaptCrazy`: `Int63` is the top 63 bits of its `Uint64`. -/
theorem C08_AdaptCrazy (g : Obj σ) (h : ¬ g.IsSource64) :
    Int63Is (fun x => x >>> 1) (adaptCrazy g).uint64 (adaptCrazy g).int63 ∧ TwoToOne63 (fun x => x >>> 1) := by
  have e : adaptCrazy g = crazy2math g := by unfold adaptCrazy; rw [if_neg h]
  rw [e]
  exact ⟨fun s => by rw [map_def]; rfl, twoToOne_shift⟩

end Crazy
