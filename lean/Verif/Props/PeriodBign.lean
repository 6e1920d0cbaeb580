/-
C116: big random numbers over a whole period.
-/
import Verif.Spec.PeriodBign
import Verif.Props.PeriodDist
import Verif.Props.BignLaw
import Verif.Proofs.Fuel
namespace Crazy

section
variable {σ : Type}

/-- What a source's reads are in terms of its words, when every read begins a new word. -/
def ReadsWords (src : Source σ) : Prop := ∀ (p : List Byte) (t : σ), p ≠ [] →
  src.read p t = (draws (RNG.uint64 src) ((p.length + 7) / 8) t).map fun q => (⟨(bytesOf q.1).take p.length, p.length, none⟩, q.2)

/-- The bytes that `T` reads of `len` bytes get from words, `m` for each. -/
def firstBytes (m len : Nat) : Nat → List U64 → List Byte
  | 0, _ => []
  | T + 1, ws => (bytesOf (ws.take m)).take len ++ firstBytes m len T (ws.drop m)

theorem firstBytes_length (m len : Nat) (hm : len ≤ 8 * m) (T : Nat) (ws : List U64) (h : ws.length = T * m) : (firstBytes m len T ws).length = T * len := by
  induction T generalizing ws with
  | zero => simp [firstBytes]
  | succ T ih =>
    rw [Nat.succ_mul] at h
    rw [firstBytes, List.length_append, ih _ (by rw [List.length_drop]; omega), List.length_take, bytesOf_length, List.length_take,
      Nat.min_eq_left (by omega : m ≤ ws.length), Nat.min_eq_left hm, Nat.succ_mul, Nat.add_comm]

theorem card_block (m len : Nat) (hm : len ≤ 8 * m) (q : List Byte) (hq : q.length = len) :
    Nat.card {w : List U64 // w.length = m ∧ (bytesOf w).take len = q} = 2 ^ (64 * m - 8 * len) := by
  rw [← card_read m len hm q hq]
  exact Nat.card_congr ⟨fun w => ⟨fun i => w.1[i.val]'(by rw [w.2.1]; exact i.2), by
      have : List.ofFn (fun i : Fin m => w.1[i.val]'(by rw [w.2.1]; exact i.2)) = w.1 :=
        List.ext_getElem (by simp [w.2.1]) fun i h1 h2 => by simp
      rw [this]; exact w.2.2⟩, fun f => ⟨List.ofFn f.1, by simp, f.2⟩, fun w => Subtype.ext (List.ext_getElem (by simp [w.2.1]) fun i h1 h2 => by simp),
    fun f => Subtype.ext (by simp)⟩

theorem card_fibre (m len : Nat) (hm : len ≤ 8 * m) (T : Nat) (q : List Byte) (hq : q.length = T * len) :
    Nat.card {ws : List U64 // ws.length = T * m ∧ firstBytes m len T ws = q} = (2 ^ (64 * m - 8 * len)) ^ T := by
  induction T generalizing q with
  | zero =>
    rw [Nat.zero_mul] at hq
    obtain rfl := List.length_eq_zero_iff.1 hq
    rw [pow_zero, Nat.card_eq_one_iff_unique]
    refine ⟨⟨fun a b => Subtype.ext ?_⟩, ⟨⟨[], by simp [firstBytes]⟩⟩⟩
    rw [List.length_eq_zero_iff.1 (a.2.1.trans (Nat.zero_mul m)), List.length_eq_zero_iff.1 (b.2.1.trans (Nat.zero_mul m))]
  | succ T ih =>
    rw [Nat.succ_mul] at hq
    have c1 := card_block m len hm (q.take len) (by rw [List.length_take]; omega)
    have c2 := ih (q.drop len) (by rw [List.length_drop]; omega)
    rw [pow_succ, ← c2, Nat.mul_comm (Nat.card _), ← c1, ← Nat.card_prod]
    refine Nat.card_congr ⟨fun w => (⟨w.1.take m, ?_, ?_⟩, ⟨w.1.drop m, ?_, ?_⟩), fun x => ⟨x.1.1 ++ x.2.1, ?_, ?_⟩, ?_, ?_⟩
    · have := w.2.1.trans (Nat.succ_mul T m); rw [List.length_take]; omega
    · have h1 := w.2.1.trans (Nat.succ_mul T m)
      have h2 := w.2.2
      rw [firstBytes] at h2
      refine Eq.trans (List.take_left' ?_).symm (congrArg (List.take len) h2)
      rw [List.length_take, bytesOf_length, List.length_take, Nat.min_eq_left (by omega : m ≤ w.1.length), Nat.min_eq_left hm]
    · have := w.2.1.trans (Nat.succ_mul T m); rw [List.length_drop]; omega
    · have h1 := w.2.1.trans (Nat.succ_mul T m)
      have h2 := w.2.2
      rw [firstBytes] at h2
      refine Eq.trans (List.drop_left' ?_).symm (congrArg (List.drop len) h2)
      rw [List.length_take, bytesOf_length, List.length_take, Nat.min_eq_left (by omega : m ≤ w.1.length), Nat.min_eq_left hm]
    · rw [List.length_append, x.1.2.1, x.2.2.1, Nat.succ_mul, Nat.add_comm]
    · rw [firstBytes, List.take_left' x.1.2.1, List.drop_left' x.1.2.1, x.1.2.2, x.2.2.2, List.take_append_drop]
    · intro w
      exact Subtype.ext (List.take_append_drop m w.1)
    · intro x
      exact Prod.ext (Subtype.ext (List.take_left' x.1.2.1)) (Subtype.ext (List.drop_left' x.1.2.1))

/-- Counting words by the bytes used. -/
theorem card_firstBytes (m len : Nat) (hm : len ≤ 8 * m) (T : Nat) (A : List Byte → Prop) :
    Nat.card {ws : List U64 // ws.length = T * m ∧ A (firstBytes m len T ws)} = countBytes (T * len) A * (2 ^ (64 * m - 8 * len)) ^ T := by
  classical
  have fin := finite_bytes (T * len) A
  have : Fintype {b : List Byte // b.length = T * len ∧ A b} := Fintype.ofFinite _
  have e : {ws : List U64 // ws.length = T * m ∧ A (firstBytes m len T ws)} ≃
      (Σ b : {b : List Byte // b.length = T * len ∧ A b}, {ws : List U64 // ws.length = T * m ∧ firstBytes m len T ws = b.1}) :=
    ⟨fun w => ⟨⟨firstBytes m len T w.1, firstBytes_length m len hm T _ w.2.1, w.2.2⟩, ⟨w.1, w.2.1, rfl⟩⟩,
      fun x => ⟨x.2.1, x.2.2.1, by rw [x.2.2.2]; exact x.1.2.2⟩, fun _ => rfl, by
        rintro ⟨⟨v, h1, h2⟩, ⟨w, h3, h4⟩⟩
        obtain rfl : firstBytes m len T w = v := h4
        rfl⟩
  have : ∀ b : {b : List Byte // b.length = T * len ∧ A b}, Finite {ws : List U64 // ws.length = T * m ∧ firstBytes m len T ws = b.1} := fun b =>
    have : Finite U64 := Finite.of_injective (fun b : U64 => b.toFin) fun _ _ h => BitVec.eq_of_toFin_eq h
    Set.Finite.subset (List.finite_length_eq U64 (T * m)) fun _ h => h.1
  rw [Nat.card_congr e, Nat.card_sigma, Finset.sum_congr rfl fun b _ => card_fibre m len hm T b.1 b.2.1, Finset.sum_const, Finset.card_univ,
    ← Nat.card_eq_fintype_card]
  rfl

/-- One draw of `Bign`, from any source. -/
theorem bign_draw (src : Source σ) (n max : Nat) (hmax : 0 < max) (X : Nat) (t t' : σ)
    (hX : RNG.big src ((RNG.bitLen max + 1 : Nat) : Int) t = .ok ((X : Int), t')) :
    (X ≤ max * ((2 ^ (RNG.bitLen max + 1) - 1) / max) → RNG.bign src n max t = .ok (((X % max : Nat) : Int), t')) ∧
    (¬ X ≤ max * ((2 ^ (RNG.bitLen max + 1) - 1) / max) → ∀ m, n = m + 1 → RNG.bign src n max t = RNG.bign src m max t') := by
  have hk : ((2 : Int) ^ (RNG.bitLen max + 1) - 1 - ((2 : Int) ^ (RNG.bitLen max + 1) - 1).tmod max) =
      ((max * ((2 ^ (RNG.bitLen max + 1) - 1) / max) : Nat) : Int) := by
    have e : (2 : Int) ^ (RNG.bitLen max + 1) - 1 = ((2 ^ (RNG.bitLen max + 1) - 1 : Nat) : Int) := by
      rw [Int.natCast_sub (Nat.one_le_two_pow)]; push_cast; rfl
    rw [e]
    generalize 2 ^ (RNG.bitLen max + 1) - 1 = Y
    rw [Int.tmod_eq_emod_of_nonneg (Int.natCast_nonneg _)]
    have := Nat.div_add_mod Y max
    push_cast
    have h2 : ((Y : Int) = max * (Y / max) + Y % max) := by exact_mod_cast this.symm
    omega
  have hb : ∀ m u, RNG.bign src m max u = (RNG.big src ((RNG.bitLen max + 1 : Nat) : Int) u >>= fun p =>
      RNG.bignLoop src max ((max * ((2 ^ (RNG.bitLen max + 1) - 1) / max) : Nat) : Int) (RNG.bitLen max + 1) m p.1 p.2) := by
    intro m u
    unfold RNG.bign
    simp only [if_neg (show ¬ (max : Int) ≤ 0 by omega), bind, Except.bind, Int.natAbs_natCast, hk]
  rw [hb, hX]
  simp only [bind, Except.bind]
  rw [RNG.bignLoop.eq_def]
  generalize max * ((2 ^ (RNG.bitLen max + 1) - 1) / max) = K at hb
  constructor
  · intro h
    simp only
    rw [if_neg (by omega), Int.tmod_eq_emod_of_nonneg (Int.natCast_nonneg _)]
    push_cast
    rfl
  · intro h
    simp only
    rw [if_pos (by omega)]
    rintro m rfl
    simp only
    rw [hb]

/-- `Bign` on a generator does what it does on the bytes it reads. -/
theorem bign_words (src : Source σ) (hr : ReadsWords src) (max : Nat) (hmax : 0 < max) (len m : Nat) (hl : len = (RNG.bitLen max + 8) / 8)
    (ha : len ≤ RNG.maxAlloc) (hm : m = (len + 7) / 8) (n : Nat) (t t1 : σ) (ws : List U64)
    (hd : draws (RNG.uint64 src) ((n + 1) * m) t = .ok (ws, t1)) (r : Int) (rest : List Byte)
    (h : RNG.bign byteTape n max (firstBytes m len (n + 1) ws) = .ok (r, rest)) : ∃ t', RNG.bign src n max t = .ok (r, t') := by
  induction n generalizing t ws with
  | zero => ?_
  | succ n ih => ?_
  all_goals
    rw [show ∀ a, (a + 1) * m = m + a * m from fun a => by rw [Nat.succ_mul, Nat.add_comm], draws_add] at hd
    rcases h1 : draws (RNG.uint64 src) m t with e | ⟨xs, t2⟩
    · rw [h1] at hd; cases hd
    rw [h1] at hd
    simp only [bind, Except.bind] at hd
    have hx : xs.length = m := draws_length h1
    have hbig : RNG.big src ((RNG.bitLen max + 1 : Nat) : Int) t =
        .ok (((RNG.setBytes ((bytesOf xs).take len) % 2 ^ RNG.bigBits (RNG.bitLen max + 1) : Nat) : Int), t2) := by
      rw [RNG.big_eq src _ (by omega) (by rw [hl] at ha; exact ha), show (RNG.bitLen max + 1 + 7) / 8 = len from hl.symm, hr _ _ (by
        intro hz
        have := congrArg List.length hz
        rw [zeros_length, List.length_nil] at this
        omega), zeros_length, ← hm, h1]
      rfl
    have hdl : ((bytesOf xs).take len).length = len := by rw [List.length_take, bytesOf_length, hx]; omega
    rw [firstBytes] at h
  · rw [Nat.zero_mul] at hd
    simp only [draws, pure, Except.pure, Except.ok.injEq, Prod.mk.injEq, List.append_nil] at hd
    obtain ⟨rfl, rfl⟩ := hd
    rw [List.take_of_length_le (by omega : xs.length ≤ m)] at h
    have hA := bign_append 0 max hmax len hl ha ((bytesOf xs).take len) (firstBytes m len 0 (xs.drop m)) hdl
    have hB := bign_draw src 0 max hmax _ t t2 hbig
    by_cases hk : RNG.setBytes ((bytesOf xs).take len) % 2 ^ RNG.bigBits (RNG.bitLen max + 1) ≤ max * ((2 ^ (RNG.bitLen max + 1) - 1) / max)
    · rw [hA.1 hk, Except.ok.injEq, Prod.mk.injEq] at h
      exact ⟨t2, by rw [← h.1]; exact hB.1 hk⟩
    · rw [(hA.2 hk).1 rfl] at h; cases h
  · rcases h2 : draws (RNG.uint64 src) ((n + 1) * m) t2 with e | ⟨ys, t3⟩
    · rw [h2] at hd; cases hd
    rw [h2] at hd
    simp only [pure, Except.pure, Except.ok.injEq, Prod.mk.injEq] at hd
    obtain ⟨rfl, rfl⟩ := hd
    rw [List.take_left' hx, List.drop_left' hx] at h
    have hA := bign_append (n + 1) max hmax len hl ha ((bytesOf xs).take len) (firstBytes m len (n + 1) ys) hdl
    have hB := bign_draw src (n + 1) max hmax _ t t2 hbig
    by_cases hk : RNG.setBytes ((bytesOf xs).take len) % 2 ^ RNG.bigBits (RNG.bitLen max + 1) ≤ max * ((2 ^ (RNG.bitLen max + 1) - 1) / max)
    · rw [hA.1 hk, Except.ok.injEq, Prod.mk.injEq] at h
      exact ⟨t2, by rw [← h.1]; exact hB.1 hk⟩
    · rw [(hA.2 hk).2 n rfl] at h
      rw [hB.2 hk n rfl]
      exact ih t2 ys h2 h

/-- The states from which the words decide in favour of `S`. -/
theorem bign_count {next : σ → Go (U64 × σ)} {src : Source σ} {s : σ} {N D : Nat} (h : EvenReads next src s N D) (hr : ReadsWords src) (h64 : 64 * D ≤ N)
    (max : Nat) (hmax : 0 < max) (len m : Nat) (hl : len = (RNG.bitLen max + 8) / 8) (ha : len ≤ RNG.maxAlloc) (hm : m = (len + 7) / 8) (n : Nat)
    (hD : (n + 1) * m ≤ D) (S : Nat → Prop) :
    (2 : ℝ) ^ N * probBytes ((n + 1) * len) (BignIn n max S) - 1 ≤
      (places next s (2 ^ N - 1) (ReturnsSome (fun retries => RNG.bign src retries (max : Int)) fun r => S r.toNat) : ℝ) := by
  classical
  have e := h.words ((n + 1) * m) hD (fun ws => BignIn n max S (firstBytes m len (n + 1) ws))
  rw [card_firstBytes m len (by omega) (n + 1)] at e
  have hmono : places next s (2 ^ N - 1) (fun t => ∃ ws t', draws (RNG.uint64 src) ((n + 1) * m) t = .ok (ws, t') ∧ BignIn n max S (firstBytes m len (n + 1) ws)) ≤
      places next s (2 ^ N - 1) (ReturnsSome (fun retries => RNG.bign src retries (max : Int)) fun r => S r.toNat) := by
    refine places_mono next s (2 ^ N - 1) ?_
    rintro t ⟨ws, t1, h1, r, rest, h2, h3⟩
    obtain ⟨t', h4⟩ := bign_words src hr max hmax len m hl ha hm n t t1 ws h1 r rest h2
    exact ⟨n, r, t', h4, h3⟩
  have h1 : (if BignIn n max S (firstBytes m len (n + 1) (List.replicate ((n + 1) * m) 0#64)) then 1 else 0) ≤ 1 := by split <;> omega
  have h2 : (2 : ℝ) ^ N * probBytes ((n + 1) * len) (BignIn n max S) =
      ((2 ^ (N - 64 * ((n + 1) * m)) * (countBytes ((n + 1) * len) (BignIn n max S) * (2 ^ (64 * m - 8 * len)) ^ (n + 1)) : Nat) : ℝ) := by
    unfold probBytes
    push_cast
    have hE : N = (N - 64 * ((n + 1) * m)) + (64 * m - 8 * len) * (n + 1) + 8 * ((n + 1) * len) := by
      have e1 : (64 * m - 8 * len) * (n + 1) + 8 * ((n + 1) * len) = 64 * ((n + 1) * m) := by
        obtain ⟨d, hd⟩ := Nat.exists_eq_add_of_le (show 8 * len ≤ 64 * m by omega)
        rw [show 64 * ((n + 1) * m) = (64 * m) * (n + 1) by ring, hd, Nat.add_sub_cancel_left]
        ring
      have e2 : 64 * ((n + 1) * m) ≤ N := (Nat.mul_le_mul_left 64 hD).trans h64
      omega
    have hP : (2 : ℝ) ^ N = 2 ^ (N - 64 * ((n + 1) * m)) * (2 ^ (64 * m - 8 * len)) ^ (n + 1) * 256 ^ ((n + 1) * len) := by
      rw [← pow_mul, show (256 : ℝ) = 2 ^ 8 by norm_num, ← pow_mul, ← pow_add, ← pow_add, ← hE]
    rw [hP]
    have hne : (256 : ℝ) ^ ((n + 1) * len) ≠ 0 := by positivity
    generalize (256 : ℝ) ^ ((n + 1) * len) = c at *
    field_simp
  rw [h2, ← e]
  have h3 := Nat.add_le_add hmono h1
  have h4 := Nat.cast_le (α := ℝ).mpr h3
  push_cast at h4 ⊢
  linarith

/-- Both sides together. -/
theorem bign_share {next : σ → Go (U64 × σ)} {src : Source σ} {s : σ} {N D : Nat} (h : EvenReads next src s N D) (hr : ReadsWords src) (h64 : 64 * D ≤ N)
    (hN : 0 < N) (max : Nat) (hmax : 0 < max) (len m : Nat) (hl : len = (RNG.bitLen max + 8) / 8) (ha : len ≤ RNG.maxAlloc) (hm : m = (len + 7) / 8) (n : Nat)
    (hD : (n + 1) * m ≤ D) (S : Nat → Prop) (Φ ε : ℝ) (h1 : Φ - ε ≤ probBytes ((n + 1) * len) (BignIn n max S))
    (h2 : 1 - Φ - ε ≤ probBytes ((n + 1) * len) (BignIn n max fun r => ¬ S r)) (h0 : 0 ≤ probBytes ((n + 1) * len) (BignIn n max S))
    (h0' : 0 ≤ probBytes ((n + 1) * len) (BignIn n max fun r => ¬ S r)) :
    |shareOf next s (2 ^ N - 1) (ReturnsSome (fun retries => RNG.bign src retries (max : Int)) fun r => S r.toNat) - Φ| ≤
      ε + 1 / ((2 ^ N - 1 : Nat) : ℝ) := by
  have hlow := bign_count h hr h64 max hmax len m hl ha hm n hD S
  have hhigh := bign_count h hr h64 max hmax len m hl ha hm n hD fun r => ¬ S r
  have hdis := places_disjoint next s (2 ^ N - 1) (A := ReturnsSome (fun retries => RNG.bign src retries (max : Int)) fun r => S r.toNat)
    (B := ReturnsSome (fun retries => RNG.bign src retries (max : Int)) fun r => ¬ S r.toNat) (by
    rintro t ⟨a, r, t1, h1, h2⟩ ⟨b, r', t2, h3, h4⟩
    rcases Nat.le_total a b with hn | hn
    · have h5 := grows_bign src max t a b hn _ h1
      dsimp only at h3 h5
      rw [h3, Except.ok.injEq, Prod.mk.injEq] at h5
      exact h4 (h5.1 ▸ h2)
    · have h5 := grows_bign src max t b a hn _ h3
      dsimp only at h1 h5
      rw [h1, Except.ok.injEq, Prod.mk.injEq] at h5
      exact h4 (h5.1 ▸ h2))
  have hM : (1 : ℝ) ≤ ((2 ^ N - 1 : Nat) : ℝ) := by
    have := Nat.one_lt_two_pow hN.ne'
    exact_mod_cast (by omega : 1 ≤ 2 ^ N - 1)
  have hE : (2 : ℝ) ^ N = ((2 ^ N - 1 : Nat) : ℝ) + 1 := by
    have := Nat.one_le_two_pow (n := N)
    rw [← Nat.cast_one (R := ℝ), ← Nat.cast_add, Nat.sub_add_cancel this]
    push_cast
    rfl
  have hdis' := Nat.cast_le (α := ℝ).mpr hdis
  rw [Nat.cast_add] at hdis'
  rw [hE] at hlow hhigh
  unfold shareOf
  generalize ((2 ^ N - 1 : Nat) : ℝ) = M at *
  generalize (places next s (2 ^ N - 1) (ReturnsSome (fun retries => RNG.bign src retries (max : Int)) fun r => S r.toNat) : ℝ) = a at *
  generalize (places next s (2 ^ N - 1) (ReturnsSome (fun retries => RNG.bign src retries (max : Int)) fun r => ¬ S r.toNat) : ℝ) = b at *
  generalize probBytes ((n + 1) * len) (BignIn n max S) = p at *
  generalize probBytes ((n + 1) * len) (BignIn n max fun r => ¬ S r) = q at *
  have hM0 : 0 < M := by linarith
  have u1 : M * p - 1 ≤ a := by nlinarith
  have u2 : a ≤ M - (M * q - 1) := by nlinarith
  have u3 : M * (Φ - ε) ≤ M * p := mul_le_mul_of_nonneg_left h1 hM0.le
  have u4 : M * (1 - Φ - ε) ≤ M * q := mul_le_mul_of_nonneg_left h2 hM0.le
  rw [abs_le]
  constructor
  · rw [neg_le_sub_iff_le_add, ← sub_le_iff_le_add, le_div_iff₀ hM0]
    have : (Φ - (ε + 1 / M)) * M = M * (Φ - ε) - 1 := by field_simp; ring
    linarith
  · rw [sub_le_iff_le_add, div_le_iff₀ hM0]
    have : (ε + 1 / M + Φ) * M = M * (Φ + ε) + 1 := by field_simp; ring
    nlinarith

theorem bign_over {next : σ → Go (U64 × σ)} {src : Source σ} {s : σ} {N D : Nat} (h : EvenReads next src s N D) (hr : ReadsWords src) (h64 : 64 * D ≤ N)
    (hN : 0 < N) (hD : D < 2 ^ 40) : BignOver next src s N D where
  near max k T hmax hk h7 hT hTD S := by
    classical
    obtain ⟨n, rfl⟩ : ∃ n, T = n + 1 := ⟨T - 1, by omega⟩
    have hm1 : ((k + 8) / 8 + 7) / 8 ≤ D := (Nat.le_mul_of_pos_left _ (by omega)).trans hTD
    have hma : RNG.maxAlloc = 2 ^ 48 := rfl
    have hlen : (k + 8) / 8 ≤ RNG.maxAlloc := by rw [hma]; omega
    have n1 := C89_near n max k _ hmax hk h7 rfl hlen S
    have n2 := C89_near n max k _ hmax hk h7 rfl hlen (fun r => ¬ S r)
    have hc : (((Finset.range max).filter fun r => ¬ S r).card : ℝ) = max - ((Finset.range max).filter S).card := by
      have := Finset.card_filter_add_card_filter_not (s := Finset.range max) S
      rw [Finset.card_range] at this
      have h' := congrArg (Nat.cast (R := ℝ)) this
      rw [Nat.cast_add] at h'
      linarith
    have hp : (0 : ℝ) < max := by exact_mod_cast hmax
    have hΦ : (((Finset.range max).filter fun r => ¬ S r).card : ℝ) / max = 1 - ((Finset.range max).filter S).card / max := by
      rw [hc, sub_div, div_self hp.ne']
    rw [hΦ] at n2
    refine bign_share h hr h64 hN max hmax ((k + 8) / 8) _ (by rw [(needsBits_iff max k).mp hk]) hlen rfl n hTD S _ _ ?_ ?_ ?_ ?_
    · have := (abs_le.mp n1).1
      unfold BignIn
      linarith
    · have := (abs_le.mp n2).1
      unfold BignIn
      linarith
    · unfold probBytes; positivity
    · unfold probBytes; positivity
  small max k hmax hk h7 hTD S := by
    classical
    have hma : RNG.maxAlloc = 2 ^ 48 := rfl
    have hlen : (k + 8) / 8 ≤ RNG.maxAlloc := by rw [hma]; omega
    have n1 := C89_small 0 max k _ hmax hk h7 rfl hlen S
    have n2 := C89_small 0 max k _ hmax hk h7 rfl hlen (fun r => ¬ S r)
    refine ⟨?_, n1.2⟩
    have hp : (0 : ℝ) < 2 ^ (k - 7) := by positivity
    have hc : (((Finset.range (2 ^ (k - 7))).filter fun r => ¬ S r).card : ℝ) = 2 ^ (k - 7) - ((Finset.range (2 ^ (k - 7))).filter S).card := by
      have := Finset.card_filter_add_card_filter_not (s := Finset.range (2 ^ (k - 7))) S
      rw [Finset.card_range] at this
      have h' := congrArg (Nat.cast (R := ℝ)) this
      push_cast at h'
      linarith
    have n2' := n2.1
    rw [hc, sub_div, div_self hp.ne'] at n2'
    have := bign_share h hr h64 hN max hmax ((k + 8) / 8) _ (by rw [(needsBits_iff max k).mp hk]) hlen rfl 0 (by omega) S
      (((Finset.range (2 ^ (k - 7))).filter S).card / 2 ^ (k - 7)) 0 ?_ ?_ ?_ ?_
    · rw [zero_add] at this
      exact this
    · rw [sub_zero]; exact n1.1.ge
    · rw [sub_zero]; exact n2'.ge
    · unfold probBytes; positivity
    · unfold probBytes; positivity

end

/-- C116 for MT64: 311 words. -/
theorem C116_MT64 (g : MT64) (hg : g.Alive) (hi : g.Begun) : BignOver MT64.uint64 MT64.source g 19937 311 :=
  bign_over (C108_MT64 g hg hi) (fun p t hp => by
    have hu : RNG.uint64 MT64.source = MT64.uint64 := funext fun s => by
      rw [rng_uint64_of _ _ _ (MT64.readsOut 8 (by decide)), MT64.uint64_eq]
    have : MT64.source.read p t = (do let (q, g) ← readGt MT64.uint64 p t; return (⟨q, p.length, none⟩, g)) := rfl
    have hw : wordsGt p.length = (p.length + 7) / 8 := by
      have := List.length_pos_iff.mpr hp
      unfold wordsGt
      omega
    rw [this, readGt_eq, hw, hu]
    cases draws MT64.uint64 ((p.length + 7) / 8) t <;> rfl) (by decide) (by decide) (by decide)

/-- C116 for Xoshiro: four words. -/
theorem C116_Xoshiro (g : Xoshiro) (hg : g ≠ ⟨0#64, 0#64, 0#64, 0#64⟩) : BignOver Xoshiro.uint64 Xoshiro.source g 256 4 :=
  bign_over (C108_Xoshiro g hg) (fun p t hp => by
    have hu : RNG.uint64 Xoshiro.source = Xoshiro.uint64 := funext fun s => by
      rw [rng_uint64_of _ _ _ (Xoshiro.readsOut 8 (by decide)), Xoshiro.uint64_pure]
    have : Xoshiro.source.read p t = (do let (q, g) ← readGt Xoshiro.uint64 p t; return (⟨q, p.length, none⟩, g)) := rfl
    have hw : wordsGt p.length = (p.length + 7) / 8 := by
      have := List.length_pos_iff.mpr hp
      unfold wordsGt
      omega
    rw [this, readGt_eq, hw, hu]
    cases draws Xoshiro.uint64 ((p.length + 7) / 8) t <;> rfl) (by decide) (by decide) (by decide)

/-- Of the states in the period of a seeded Xoshiro, the share from which `Bign(100)` returns 0 is 1 up to one state: a number of seven bits is
asked for, and the results are all below one. -/
example (x : U64) (g : Xoshiro) : ∃ s, g.seed x = .ok s ∧ |shareOf Xoshiro.uint64 s (2 ^ 256 - 1)
    (ReturnsSome (fun retries => RNG.bign Xoshiro.source retries ((100 : Nat) : Int)) fun r => r.toNat = 0) - 1| ≤ 1 / ((2 ^ 256 - 1 : Nat) : ℝ) := by
  classical
  obtain ⟨s, h1, h2⟩ := C51_Xoshiro_Seed_alive x g
  refine ⟨s, h1, ?_⟩
  have h := ((C116_Xoshiro s h2).small 100 7 (by decide) ⟨by decide, fun j hj => by
    by_contra hlt
    have : 2 ^ j ≤ 2 ^ 6 := Nat.pow_le_pow_right (by decide) (by omega)
    omega⟩ (by decide) (by decide) (fun r => r = 0)).1
  have e : ∀ inst : DecidablePred fun r : Nat => r = 0, (@Finset.filter Nat (fun r => r = 0) inst (Finset.range (2 ^ (7 - 7)))).card = 1 := fun inst => by
    rw [Finset.card_eq_one]
    exact ⟨0, by ext r; simp⟩
  rw [e, Nat.cast_one, show (1 : ℝ) / 2 ^ (7 - 7) = 1 by norm_num] at h
  exact h

/-- And the share of the states of a seeded MT64 from which `Bign(2^255)` returns an odd number is 1/2, but for less than `2^-98`. -/
example (x : U64) (g : MT64) : ∃ s, g.seed x = .ok s ∧ |shareOf MT64.uint64 s (2 ^ 19937 - 1)
    (ReturnsSome (fun retries => RNG.bign MT64.source retries ((2 ^ 255 : Nat) : Int)) fun r => r.toNat % 2 = 1) - 1 / 2| ≤
      1 / 2 ^ 256 + 1 / 3 ^ 62 + 1 / ((2 ^ 19937 - 1 : Nat) : ℝ) := by
  classical
  obtain ⟨s, h1, h2, h3⟩ := C61_MT64_Seed_alive x g
  refine ⟨s, h1, ?_⟩
  have h := (C116_MT64 s h2 h3).near (2 ^ 255) 256 62 (by decide) ⟨by decide, fun j hj => by
    by_contra hlt
    have : 2 ^ j ≤ 2 ^ 255 := Nat.pow_le_pow_right (by decide) (by omega)
    omega⟩ (by decide) (by decide) (by decide) (fun r => r % 2 = 1)
  have e : ∀ (inst : DecidablePred fun r : Nat => r % 2 = 1) (m : Nat), (@Finset.filter Nat (fun r => r % 2 = 1) inst (Finset.range (2 * m))).card = m :=
    fun inst m => by
    induction m with
    | zero => rfl
    | succ m ih =>
      rw [Nat.mul_succ, Finset.range_add_one, Finset.filter_insert, if_pos (by omega), Finset.card_insert_of_notMem (by simp), Finset.range_add_one,
        Finset.filter_insert, if_neg (by omega), ih]
  have e2 : ∀ inst : DecidablePred fun r : Nat => r % 2 = 1, (@Finset.filter Nat (fun r => r % 2 = 1) inst (Finset.range (2 ^ 255))).card = 2 ^ 254 :=
    fun inst => by
      have := e inst (2 ^ 254)
      rw [← Nat.pow_succ'] at this
      exact this
  rw [e2, show ((2 ^ 254 : Nat) : ℝ) / ((2 ^ 255 : Nat) : ℝ) = 1 / 2 by push_cast; norm_num] at h
  exact h

end Crazy
