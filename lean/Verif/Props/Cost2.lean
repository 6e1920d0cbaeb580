/-
C101 continued: how many words several draws, shuffles and random strings cost.
-/
import Verif.Props.Cost
import Verif.Props.IdealUintn
namespace Crazy

/-- One `Uintn` with at most `a` retries and then `m` with at most `n`. -/
def thenDraws (a n : Nat) (max : U64) (m : Nat) (w : List U64) : Go (List U64 × List U64) := do
  let (x, w) ← RNG.uintn tape a max w
  let (xs, w) ← draws (RNG.uintn tape n max) m w
  return (x :: xs, w)

theorem draws_thenDraws (n : Nat) (max : U64) (m : Nat) (w : List U64) : draws (RNG.uintn tape n max) (m + 1) w = thenDraws n n max m w := rfl

theorem thenDraws_cost (max : U64) (h0 : max ≠ 0#64) (B : Nat) (hB : LargestMultiple max.toNat B) (a n m x : Nat) (hx : x < 2 ^ 64) (t : List U64) :
    (x < B + 1 → wordsRead (thenDraws a n max m) (BitVec.ofNat 64 x :: t) = 1 + wordsRead (draws (RNG.uintn tape n max) m) t) ∧
    (¬ x < B + 1 → wordsRead (thenDraws (a + 1) n max m) (BitVec.ofNat 64 x :: t) = 1 + wordsRead (thenDraws a n max m) t) := by
  have hx' : (BitVec.ofNat 64 x).toNat = x := by rw [BitVec.toNat_ofNat, Nat.mod_eq_of_lt hx]
  constructor
  · intro hxB
    unfold wordsRead thenDraws
    rw [(uintn_cons a max h0 B hB _ t).1 (by omega)]
    simp only [bind, Except.bind]
    cases hu : draws (RNG.uintn tape n max) m t with
    | error e => simp; omega
    | ok q =>
      obtain ⟨r, rest⟩ := q
      have hle : rest.length ≤ t.length := (reads_draws _ _ (reads_uintn n max) m).rest_le hu
      simp only [List.length_cons, pure, Except.pure]
      omega
  · intro hxB
    unfold wordsRead thenDraws
    rw [(uintn_cons a max h0 B hB _ t).2.2 (by omega)]
    cases hv : RNG.uintn tape a max t with
    | error e => simp [bind, Except.bind]; omega
    | ok p =>
      obtain ⟨y, t'⟩ := p
      have hle' : t'.length ≤ t.length := (reads_uintn a max).rest_le hv
      simp only [bind, Except.bind]
      cases hu : draws (RNG.uintn tape n max) m t' with
      | error e => simp; omega
      | ok q =>
        obtain ⟨r, rest⟩ := q
        have hle : rest.length ≤ t'.length := (reads_draws _ _ (reads_uintn n max) m).rest_le hu
        simp only [List.length_cons, pure, Except.pure]
        omega

theorem draws_zero_cost (next : List U64 → Go (U64 × List U64)) (w : List U64) : wordsRead (draws next 0) w = 0 := by
  simp [wordsRead, draws]

/-- The recurrence of the averages. -/
theorem cost_rec (max : U64) (h0 : max ≠ 0#64) (B : Nat) (hB : LargestMultiple max.toNat B) (a n m k : Nat) :
    average (k + 1) (fun w => (wordsRead (thenDraws (a + 1) n max m) w : ℝ)) =
      1 + (B + 1) / 2 ^ 64 * average k (fun w => (wordsRead (draws (RNG.uintn tape n max) m) w : ℝ)) +
        (1 - (B + 1) / 2 ^ 64) * average k fun w => (wordsRead (thenDraws a n max m) w : ℝ) := by
  have hlt : B + 1 ≤ 2 ^ 64 := hB.2.1
  have key : ∀ x < 2 ^ 64, average k (fun t => (wordsRead (thenDraws (a + 1) n max m) (BitVec.ofNat 64 x :: t) : ℝ)) =
      if x < B + 1 then 1 + average k (fun w => (wordsRead (draws (RNG.uintn tape n max) m) w : ℝ)) else
        1 + average k fun w => (wordsRead (thenDraws a n max m) w : ℝ) := by
    intro x hx
    split
    · next hxB =>
      rw [← average_const k 1, ← average_add]
      exact average_congr fun t _ => by rw [(thenDraws_cost max h0 B hB (a + 1) n m x hx t).1 hxB, Nat.cast_add, Nat.cast_one]
    · next hxB =>
      rw [← average_const k 1, ← average_add]
      exact average_congr fun t _ => by rw [(thenDraws_cost max h0 B hB a n m x hx t).2 hxB, Nat.cast_add, Nat.cast_one]
  rw [average_succ, avg_congr key, avg_below _ _ hlt]
  push_cast
  field_simp
  ring

theorem cost_bounds (max : U64) (h0 : max ≠ 0#64) (B : Nat) (hB : LargestMultiple max.toNat B) (n k m : Nat) :
    (k ≤ n → average k (fun w => (wordsRead (draws (RNG.uintn tape n max) m) w : ℝ)) ≤ m * (2 ^ 64 / (B + 1)) ∧
      m * (2 ^ 64 / (B + 1)) * (1 - 2 ^ m * (1 - (B + 1) / 2 ^ 65) ^ k) ≤
        average k (fun w => (wordsRead (draws (RNG.uintn tape n max) m) w : ℝ))) ∧
    ∀ a, k ≤ a → k ≤ n → average k (fun w => (wordsRead (thenDraws a n max m) w : ℝ)) ≤ (m + 1) * (2 ^ 64 / (B + 1)) ∧
      (m + 1) * (2 ^ 64 / (B + 1)) * (1 - 2 ^ (m + 1) * (1 - (B + 1) / 2 ^ 65) ^ k) ≤ average k (fun w => (wordsRead (thenDraws a n max m) w : ℝ)) := by
  have hp : (0 : ℝ) < B + 1 := by positivity
  have hb' : (B : ℝ) + 1 ≤ 2 ^ 64 := by exact_mod_cast hB.2.1
  have hz : ∀ {α : Type} (c : List U64 → Go (α × List U64)), average 0 (fun w => (wordsRead c w : ℝ)) = 0 := fun c => by
    rw [average_zero]
    unfold wordsRead
    split <;> simp
  obtain ⟨q, hq⟩ : ∃ q : ℝ, q = (B + 1) / 2 ^ 64 := ⟨_, rfl⟩
  have hq1 : (2 : ℝ) ^ 64 / (B + 1) = 1 / q := by rw [hq, one_div_div]
  have hq2 : ((B : ℝ) + 1) / 2 ^ 65 = q / 2 := by rw [hq]; ring
  have hq0 : 0 < q := by rw [hq]; positivity
  have hqle : q ≤ 1 := by rw [hq, div_le_one (by positivity)]; exact hb'
  rw [hq1, hq2]
  induction k generalizing m with
  | zero =>
    have e1 : ∀ M : Nat, (M : ℝ) * (1 / q) * (1 - 2 ^ M * (1 - q / 2) ^ 0) ≤ 0 := fun M => by
      have h2 : (1 : ℝ) ≤ 2 ^ M := one_le_pow₀ (by norm_num)
      have h3 : (0 : ℝ) ≤ M * (1 / q) := by positivity
      rw [pow_zero, mul_one]
      nlinarith
    refine ⟨fun _ => ?_, fun a _ _ => ?_⟩
    · rw [hz]; exact ⟨by positivity, e1 m⟩
    · have := e1 (m + 1)
      push_cast at this
      rw [hz]; exact ⟨by positivity, this⟩
  | succ k ih =>
    have main : ∀ m a, k + 1 ≤ a → k + 1 ≤ n → average (k + 1) (fun w => (wordsRead (thenDraws a n max m) w : ℝ)) ≤ (m + 1) * (1 / q) ∧
        (m + 1) * (1 / q) * (1 - 2 ^ (m + 1) * (1 - q / 2) ^ (k + 1)) ≤ average (k + 1) (fun w => (wordsRead (thenDraws a n max m) w : ℝ)) := by
      intro m a ha hn
      obtain ⟨a, rfl⟩ : ∃ b, a = b + 1 := ⟨a - 1, by omega⟩
      rw [cost_rec max h0 B hB a n m k, ← hq]
      obtain ⟨u1, l1⟩ := (ih m).1 (by omega)
      obtain ⟨u2, l2⟩ := (ih m).2 a (by omega) (by omega)
      generalize average k (fun w => (wordsRead (draws (RNG.uintn tape n max) m) w : ℝ)) = x at *
      generalize average k (fun w => (wordsRead (thenDraws a n max m) w : ℝ)) = y at *
      have hρ : (0 : ℝ) ≤ (1 - q / 2) ^ k := pow_nonneg (by linarith) k
      have h2 : (0 : ℝ) ≤ 2 ^ m := by positivity
      generalize hM : (m : ℝ) = M at *
      have hM0 : 0 ≤ M := by rw [← hM]; positivity
      rw [pow_succ (1 - q / 2), pow_succ (2 : ℝ)] at *
      generalize (1 - q / 2) ^ k = ρ at *
      generalize (2 : ℝ) ^ m = τ at *
      have ex1 : q * (M * (1 / q)) = M := by field_simp
      have ex2 : q * ((M + 1) * (1 / q)) = M + 1 := by field_simp
      constructor
      · have i1 := mul_le_mul_of_nonneg_left u1 hq0.le
        have i2 := mul_le_mul_of_nonneg_left u2 (by linarith : 0 ≤ 1 - q)
        have : (1 - q) * ((M + 1) * (1 / q)) = (M + 1) * (1 / q) - (M + 1) := by rw [sub_mul, one_mul, ex2]
        linarith
      · have i1 := mul_le_mul_of_nonneg_left l1 hq0.le
        have i2 := mul_le_mul_of_nonneg_left l2 (by linarith : 0 ≤ 1 - q)
        have j1 : q * (M * (1 / q) * (1 - τ * ρ)) = M * (1 - τ * ρ) := by rw [← mul_assoc, ex1]
        have j2 : (1 - q) * ((M + 1) * (1 / q) * (1 - τ * 2 * ρ)) = ((M + 1) * (1 / q) - (M + 1)) * (1 - τ * 2 * ρ) := by
          rw [← mul_assoc, sub_mul, one_mul, ex2]
        have j3 : (M + 1) * (1 / q) * (1 - τ * 2 * (ρ * (1 - q / 2))) =
            (M + 1) * (1 / q) * (1 - τ * 2 * ρ) + (M + 1) * τ * ρ := by
          have : (M + 1) * (1 / q) * (τ * 2 * ρ * (q / 2)) = (M + 1) * τ * ρ := by field_simp
          linarith
        rw [j1] at i1
        rw [j2] at i2
        rw [j3]
        have : 0 ≤ τ * ρ := mul_nonneg h2 hρ
        nlinarith
    refine ⟨fun hn => ?_, main m⟩
    cases m with
    | zero =>
      simp only [draws_zero_cost, Nat.cast_zero, zero_mul, average_const, le_refl, and_self]
    | succ m =>
      have := main m n hn hn
      push_cast
      exact this

/-- C101: `m` calls of `Uintn(max)` read `m` times `2^64/(B+1)` words on average: never more, and as the source is longer, with `k` words, less by
at most the factor `1 - 2^m (1 - (B+1)/2^65)^k`, which tends to one. -/
theorem C101_draws (max : U64) (h0 : max ≠ 0#64) (B : Nat) (hB : LargestMultiple max.toNat B) (m n k : Nat) (h : k ≤ n) :
    average k (fun w => (wordsRead (draws (RNG.uintn tape n max) m) w : ℝ)) ≤ m * (2 ^ 64 / (B + 1)) ∧
      m * (2 ^ 64 / (B + 1)) * (1 - 2 ^ m * (1 - (B + 1) / 2 ^ 65) ^ k) ≤
        average k (fun w => (wordsRead (draws (RNG.uintn tape n max) m) w : ℝ)) :=
  (cost_bounds max h0 B hB n k m).1 h

theorem wordsRead_shuffle {α : Type} (n : Nat) (data : List α) (hn : data.length < 2 ^ 63) (w : List U64) :
    wordsRead (shuffleSlice tape n data) w = wordsRead (draws (RNG.uintn tape n (BitVec.ofNat 64 data.length)) data.length) w := by
  have hc := C29_slice tape n data hn w
  unfold wordsRead
  cases hd : draws (RNG.uintn tape n (BitVec.ofNat 64 data.length)) data.length w with
  | error e => rw [hc.2 e hd]
  | ok r =>
    obtain ⟨j, -, hs⟩ := hc.1 r.1 r.2 hd
    rw [hs]

theorem wordsRead_randString (n : Nat) (alphabet : List Byte) (ha : alphabet.length < 2 ^ 63) (m : Nat) (hm : m ≤ 2 ^ 46) (w : List U64) :
    wordsRead (randString tape n alphabet m) w = wordsRead (draws (RNG.uintn tape n (BitVec.ofNat 64 (runes alphabet).length)) m) w := by
  have hc := C28_randString tape n alphabet ha m hm w
  unfold wordsRead
  cases hd : draws (RNG.uintn tape n (BitVec.ofNat 64 (runes alphabet).length)) m w with
  | error e => rw [hc.2 e hd]
  | ok r =>
    obtain ⟨str, hs, -⟩ := hc.1 r.1 r.2 hd
    rw [hs]

theorem big_multiple (N : Nat) (h0 : 0 < N) (hN : N < 2 ^ 63) (B : Nat) (hB : LargestMultiple N B) : (2 : ℝ) ^ 64 / (B + 1) < 1 + (N + 1) / 2 ^ 63 := by
  have h1 : 2 ^ 64 ≤ B + N := by
    by_contra h
    have := hB.2.2 (B + N) (hB.1.add (dvd_refl N)) (by omega)
    omega
  have h2 : (2 : ℝ) ^ 64 ≤ B + N := by exact_mod_cast h1
  have h3 : (1 : ℝ) ≤ N := by exact_mod_cast h0
  have h4 : (N : ℝ) < 2 ^ 63 := by exact_mod_cast hN
  rw [div_lt_iff₀ (by positivity)]
  have e : (1 + ((N : ℝ) + 1) / 2 ^ 63) * (B + 1) = B + 1 + (N + 1) * ((B + 1) / 2 ^ 63) := by ring
  have h5 : (1 : ℝ) ≤ (B + 1) / 2 ^ 63 := by
    rw [le_div_iff₀ (by positivity)]
    have : (2 : ℝ) ^ 64 = 2 * 2 ^ 63 := by norm_num
    linarith
  rw [e]
  nlinarith

/-- C101: a shuffle of `N` elements reads less than `N (1 + (N+1)/2^63)` words on average, whatever the elements. -/
theorem C101_shuffle {α : Type} (data : List α) (hd : data ≠ []) (hN : data.length < 2 ^ 63) (n k : Nat) (h : k ≤ n) :
    average k (fun w => (wordsRead (shuffleSlice tape n data) w : ℝ)) < data.length * (1 + (data.length + 1) / 2 ^ 63) := by
  have hpos : 0 < data.length := List.length_pos_iff.mpr hd
  have hof : (BitVec.ofNat 64 data.length).toNat = data.length := by rw [BitVec.toNat_ofNat]; omega
  have hne : BitVec.ofNat 64 data.length ≠ 0#64 := fun h => by
    have := congrArg BitVec.toNat h
    rw [hof] at this
    have : data.length = 0 := this
    omega
  obtain ⟨B, hB⟩ := C10_B_exists _ hne
  have h1 := (C101_draws _ hne B hB data.length n k h).1
  rw [hof] at hB
  have h2 := big_multiple _ hpos hN B hB
  have e : average k (fun w => (wordsRead (shuffleSlice tape n data) w : ℝ)) =
      average k (fun w => (wordsRead (draws (RNG.uintn tape n (BitVec.ofNat 64 data.length)) data.length) w : ℝ)) :=
    average_congr fun w _ => by rw [wordsRead_shuffle n data hN w]
  rw [e]
  exact h1.trans_lt (mul_lt_mul_of_pos_left h2 (by exact_mod_cast hpos))

/-- C101: a random string of `m` letters from an alphabet of `a` reads less than `m (1 + (a+1)/2^63)` words on average. -/
theorem C101_randString (alphabet : List Byte) (hal : alphabet ≠ []) (ha : alphabet.length < 2 ^ 63) (m : Nat) (hm0 : 0 < m) (hm : m ≤ 2 ^ 46) (n k : Nat)
    (h : k ≤ n) :
    average k (fun w => (wordsRead (randString tape n alphabet m) w : ℝ)) < m * (1 + ((runes alphabet).length + 1) / 2 ^ 63) := by
  have hle := runes_length_le alphabet
  have hpos : 0 < (runes alphabet).length := List.length_pos_iff.mpr (mt (runes_eq_nil alphabet).mp hal)
  have hof : (BitVec.ofNat 64 (runes alphabet).length).toNat = (runes alphabet).length := by rw [BitVec.toNat_ofNat]; omega
  have hne : BitVec.ofNat 64 (runes alphabet).length ≠ 0#64 := fun h => by
    have := congrArg BitVec.toNat h
    rw [hof] at this
    have : (runes alphabet).length = 0 := this
    omega
  obtain ⟨B, hB⟩ := C10_B_exists _ hne
  have h1 := (C101_draws _ hne B hB m n k h).1
  rw [hof] at hB
  have h2 := big_multiple _ hpos (by omega) B hB
  have e : average k (fun w => (wordsRead (randString tape n alphabet m) w : ℝ)) =
      average k (fun w => (wordsRead (draws (RNG.uintn tape n (BitVec.ofNat 64 (runes alphabet).length)) m) w : ℝ)) :=
    average_congr fun w _ => by rw [wordsRead_randString n alphabet ha m hm w]
  rw [e]
  exact h1.trans_lt (mul_lt_mul_of_pos_left h2 (by exact_mod_cast hm0))

/-- Non-vacuity: a pack of 52 cards. -/
example : average 100 (fun w => (wordsRead (shuffleSlice tape 100 (List.range 52)) w : ℝ)) < 52 * (1 + (52 + 1) / 2 ^ 63) := by
  have := C101_shuffle (List.range 52) (by decide) (by rw [List.length_range]; decide) 100 100 le_rfl
  simpa only [List.length_range, Nat.cast_ofNat] using this

end Crazy
