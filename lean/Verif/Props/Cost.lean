/-
C101: how many words of the source a draw costs.
-/
import Verif.Proofs.Average
import Verif.Proofs.UintnLaw
import Verif.Proofs.NormTail4
import Verif.Props.ZigTerm
import Mathlib.Tactic.Ring
import Mathlib.Tactic.Linarith
import Mathlib.Tactic.NormNum
set_option exponentiation.threshold 2200
namespace Crazy

/-! ### Uintn -/

theorem avg_below (N M : Nat) (h : M ≤ N) (a b : ℝ) : avg N (fun x => if x < M then a else b) = (M * a + (N - M) * b) / N := by
  unfold avg
  refine congrArg (· / (N : ℝ)) ?_
  obtain ⟨d, rfl⟩ := Nat.exists_eq_add_of_le h
  rw [Finset.sum_range_add, Finset.sum_congr rfl fun x hx => if_pos (Finset.mem_range.mp hx),
    Finset.sum_congr rfl fun x _ => if_neg (by omega : ¬ M + x < M), Finset.sum_const, Finset.sum_const, Finset.card_range, Finset.card_range,
    nsmul_eq_mul, nsmul_eq_mul]
  push_cast
  ring

theorem Reads.rest_le {α : Type} {m : Nat} {f : List U64 → Go (α × List U64)} (h : Reads m f) {w rest : List U64} {r : α}
    (e : f w = .ok (r, rest)) : rest.length ≤ w.length := by
  obtain ⟨p, -, hp, -⟩ := h.cut w r rest e
  rw [hp, List.length_append]
  omega

/-- C101: `Uintn(max)` reads `2^64/(B+1)` words on average, where `B` is the largest multiple of `max` below `2^64`: exactly this times
`1 - (1 - (B+1)/2^64)^k` if the source ends after `k` words. -/
theorem C101_uintn (max : U64) (h0 : max ≠ 0#64) (B : Nat) (hB : LargestMultiple max.toNat B) (n k : Nat) (h : k ≤ n) :
    average k (fun w => (wordsRead (RNG.uintn tape n max) w : ℝ)) = 2 ^ 64 / (B + 1) * (1 - (1 - (B + 1) / 2 ^ 64) ^ k) := by
  have hp : (0 : ℝ) < B + 1 := by positivity
  induction k generalizing n with
  | zero =>
    rw [average_zero, pow_zero, sub_self, mul_zero]
    unfold wordsRead
    split <;> simp
  | succ k ih =>
    obtain ⟨n, rfl⟩ : ∃ m, n = m + 1 := ⟨n - 1, by omega⟩
    have hlt : B + 1 ≤ 2 ^ 64 := hB.2.1
    have key : ∀ x < 2 ^ 64, average k (fun t => (wordsRead (RNG.uintn tape (n + 1) max) (BitVec.ofNat 64 x :: t) : ℝ)) =
        if x < B + 1 then 1 else 1 + average k fun w => (wordsRead (RNG.uintn tape n max) w : ℝ) := by
      intro x hx
      have hx' : (BitVec.ofNat 64 x).toNat = x := by rw [BitVec.toNat_ofNat, Nat.mod_eq_of_lt hx]
      split
      · next hxB =>
        rw [← average_const k 1]
        refine average_congr fun t _ => ?_
        unfold wordsRead
        rw [(uintn_cons (n + 1) max h0 B hB _ t).1 (by omega)]
        simp
      · next hxB =>
        rw [← average_const k 1, ← average_add]
        refine average_congr fun t _ => ?_
        unfold wordsRead
        rw [(uintn_cons n max h0 B hB _ t).2.2 (by omega)]
        cases hu : RNG.uintn tape n max t with
        | error e => simp; ring
        | ok q =>
          obtain ⟨r, rest⟩ := q
          have hle : rest.length ≤ t.length := (reads_uintn n max).rest_le hu
          simp only [List.length_cons]
          rw [show t.length + 1 - rest.length = 1 + (t.length - rest.length) by omega]
          push_cast
          ring
    rw [average_succ, avg_congr key, avg_below _ _ hlt, ih n (by omega)]
    push_cast
    field_simp
    ring

/-- C101: that is less than two words. -/
theorem C101_uintn_two (max : U64) (h0 : max ≠ 0#64) (n k : Nat) (h : k ≤ n) :
    average k (fun w => (wordsRead (RNG.uintn tape n max) w : ℝ)) < 2 := by
  obtain ⟨B, hB⟩ := C10_B_exists max h0
  have hmax : max.toNat < 2 ^ 64 := max.isLt
  have hm : 0 < max.toNat := by
    rcases Nat.eq_zero_or_pos max.toNat with h | h
    · exact absurd (BitVec.eq_of_toNat_eq h) h0
    · exact h
  have hBig : 2 ^ 63 ≤ B := by
    obtain ⟨q, hq⟩ := hB.1
    by_contra hc
    rcases Nat.lt_or_ge max.toNat (2 ^ 63 + 1) with h1 | h1
    · have := hB.2.2 (B + max.toNat) (Dvd.dvd.add hB.1 (dvd_refl _)) (by omega)
      omega
    · have := hB.2.2 max.toNat (dvd_refl _) hmax
      omega
  rw [C101_uintn max h0 B hB n k h]
  have hb : (2 : ℝ) ^ 63 ≤ B := by exact_mod_cast hBig
  have hb' : (B : ℝ) + 1 ≤ 2 ^ 64 := by exact_mod_cast hB.2.1
  have h1 : (2 : ℝ) ^ 64 / (B + 1) < 2 := by
    rw [div_lt_iff₀ (by positivity)]
    linarith [show (2 : ℝ) ^ 64 = 2 * 2 ^ 63 by norm_num]
  have h2 : 0 ≤ (1 - ((B : ℝ) + 1) / 2 ^ 64) ^ k := pow_nonneg (by rw [sub_nonneg, div_le_one (by positivity)]; exact hb') k
  have h3 : (0 : ℝ) ≤ 2 ^ 64 / (B + 1) := by positivity
  nlinarith

/-! ### One round of the ziggurat -/

theorem not_fast {z : Ziggurat (List U64)} {w : U64} (h : ¬ Fast z w) :
    ¬ (zoffset z.mirrored w).natAbs < (z.K[zlayer w]'(zlayer_lt w)).toNat := h

theorem cost_fast (z : Ziggurat (List U64)) (fused : Bool) (n : Nat) (w : U64) (t : List U64) (h : Fast z w) :
    wordsRead (z.genNext fused tape (n + 1)) (w :: t) = 1 := by
  unfold wordsRead
  rw [genNext_fast z fused tape n _ _ w (RNG_uint64_tape w t) h]
  simp

theorem cost_wedge (z : Ziggurat (List U64)) (hz : ∀ n, Reads (2 * n + 1) (z.tail tape n)) (fused : Bool) (n : Nat) (w : U64) (y : Nat)
    (hy : y < 2 ^ 64) (t : List U64) (h : ¬ Fast z w) (h0 : zlayer w ≠ 0) :
    2 ≤ wordsRead (z.genNext fused tape (n + 1)) (w :: BitVec.ofNat 64 y :: t) ∧
    wordsRead (z.genNext fused tape (n + 1)) (w :: BitVec.ofNat 64 y :: t) ≤ 2 + wordsRead (z.genNext fused tape n) t := by
  unfold wordsRead
  rw [genNext_wedge z fused tape n _ _ w (RNG_uint64_tape w _) (not_fast h) h0, uniform01_ofNat y hy t]
  simp only
  split
  · next r rest e =>
    split at e
    · rw [Except.ok.injEq, Prod.mk.injEq] at e
      rw [← e.2]
      simp only [List.length_cons]
      omega
    · have := (reads_genNext z hz fused n).rest_le e
      rw [e]
      simp only [List.length_cons]
      omega
  · next e' e =>
    split at e
    · cases e
    · rw [e]
      simp only [List.length_cons]
      omega

theorem cost_tail (z : Ziggurat (List U64)) (hz : ∀ n, Reads (2 * n + 1) (z.tail tape n)) (fused : Bool) (n : Nat) (w : U64)
    (t : List U64) (h : ¬ Fast z w) (h0 : zlayer w = 0) :
    wordsRead (z.genNext fused tape (n + 1)) (w :: t) = 1 + wordsRead (z.tail tape n) t := by
  unfold wordsRead
  rw [genNext_tail z fused tape n _ _ w (RNG_uint64_tape w _) (not_fast h) h0]
  cases e : z.tail tape n t with
  | error p => simp only [List.length_cons]; omega
  | ok q =>
    have := (hz n).rest_le (w := t) (r := q.1) (rest := q.2) e
    simp only [List.length_cons]
    omega

theorem wordsRead_le {α : Type} (call : List U64 → Go (α × List U64)) (w : List U64) : wordsRead call w ≤ w.length := by
  unfold wordsRead
  split
  · exact Nat.sub_le _ _
  · exact Nat.le_refl _

/-- The share of the words that the ziggurat accepts at once. -/
noncomputable def fastShare (z : Ziggurat (List U64)) : ℝ := avg (2 ^ 64) fun x => ind (Fast z (BitVec.ofNat 64 x))

theorem cost_bound (z : Ziggurat (List U64)) (hz : ∀ n, Reads (2 * n + 1) (z.tail tape n)) (fused : Bool) (C M : ℝ) (h1 : 1 ≤ C) (hCM : C ≤ M)
    (hT : ∀ n k, k ≤ n → average k (fun w => (wordsRead (z.tail tape n) w : ℝ)) ≤ 1 + M)
    (hf : fastShare z + (1 - fastShare z) * (2 + M) ≤ C) (m : Nat) :
    ∀ k, k < m → ∀ n, k ≤ n → average k (fun w => (wordsRead (z.genNext fused tape n) w : ℝ)) ≤ C := by
  induction m with
  | zero => intro k hk; omega
  | succ m ih =>
    intro k hk n hn
    rcases Nat.lt_or_ge k 2 with h2 | h2
    · have : average k (fun w => (wordsRead (z.genNext fused tape n) w : ℝ)) ≤ average k fun _ => 1 :=
        average_mono fun t ht => by
          have := wordsRead_le (z.genNext fused tape n) t
          exact_mod_cast (by omega : wordsRead (z.genNext fused tape n) t ≤ 1)
      rw [average_const] at this
      exact this.trans h1
    · obtain ⟨k, rfl⟩ : ∃ j, k = j + 1 + 1 := ⟨k - 2, by omega⟩
      obtain ⟨n, rfl⟩ : ∃ j, n = j + 1 := ⟨n - 1, by omega⟩
      have hM : 0 ≤ M := by linarith
      have key : ∀ x < 2 ^ 64, average (k + 1) (fun t => (wordsRead (z.genNext fused tape (n + 1)) (BitVec.ofNat 64 x :: t) : ℝ)) ≤
          ind (Fast z (BitVec.ofNat 64 x)) * (1 - (2 + M)) + (2 + M) := by
        intro x hx
        by_cases hF : Fast z (BitVec.ofNat 64 x)
        · rw [ind_true hF, one_mul, sub_add_cancel]
          refine le_of_eq ((average_congr fun t _ => ?_).trans (average_const (k + 1) 1))
          rw [cost_fast z fused n _ t hF, Nat.cast_one]
        · rw [ind_false hF, zero_mul, zero_add]
          by_cases h0 : zlayer (BitVec.ofNat 64 x) = 0
          · have e : average (k + 1) (fun t => (wordsRead (z.genNext fused tape (n + 1)) (BitVec.ofNat 64 x :: t) : ℝ)) =
                average (k + 1) (fun t => 1 + (wordsRead (z.tail tape n) t : ℝ)) :=
              average_congr fun t _ => by rw [cost_tail z hz fused n _ t hF h0]; push_cast; ring
            rw [e, average_add (k + 1) (fun _ => 1), average_const]
            linarith [hT n (k + 1) (by omega)]
          · rw [average_succ, ← avg_const (N := 2 ^ 64) (by positivity) (2 + M)]
            refine avg_mono fun y hy => ?_
            have e : average k (fun t => (wordsRead (z.genNext fused tape (n + 1)) (BitVec.ofNat 64 x :: BitVec.ofNat 64 y :: t) : ℝ)) ≤
                average k (fun t => 2 + (wordsRead (z.genNext fused tape n) t : ℝ)) :=
              average_mono fun t _ => by exact_mod_cast (cost_wedge z hz fused n _ y hy t hF h0).2
            rw [average_add k (fun _ => 2), average_const] at e
            linarith [ih k (by omega) n (by omega)]
      rw [average_succ]
      refine (avg_mono key).trans ?_
      rw [avg_add, avg_mul_right, avg_const (by positivity)]
      unfold fastShare at hf
      linarith

/-! ### The share of the words that are accepted at once -/

theorem avg_plain (G : Nat → Int → ℝ) :
    avg (2 ^ 64) (fun x => G (zlayer (BitVec.ofNat 64 x)) (zoffset false (BitVec.ofNat 64 x))) =
      avg 1024 fun i => avg (2 ^ 53) fun j => G i j := by
  have h : ∀ x < 2 ^ 64, G (zlayer (BitVec.ofNat 64 x)) (zoffset false (BitVec.ofNat 64 x)) =
      G (x / 2 ^ 54) ((x % 2 ^ 54 % 2 ^ 53 : Nat) : Int) := by
    intro x hx
    unfold zlayer zoffset
    rw [BitVec.toNat_ofNat, Nat.mod_eq_of_lt hx, if_neg Bool.false_ne_true]
    refine congrArg (G _) (congrArg Nat.cast ?_)
    omega
  rw [avg_congr h, avg_word fun i o => G i ((o % 2 ^ 53 : Nat) : Int)]
  refine avg_congr fun i _ => ?_
  have := avg_mod 2 (2 ^ 53) (by decide) fun j => G i (j : Int)
  rw [show 2 * 2 ^ 53 = (2 : Nat) ^ 54 by decide] at this
  exact this

theorem avg_mirrored (G : Nat → Int → ℝ) :
    avg (2 ^ 64) (fun x => G (zlayer (BitVec.ofNat 64 x)) (zoffset true (BitVec.ofNat 64 x))) =
      avg 1024 fun i => ((avg (2 ^ 53) fun l => G i l) + avg (2 ^ 53) fun l => G i (-((l + 1 : Nat) : Int))) / 2 := by
  have h : ∀ x < 2 ^ 64, G (zlayer (BitVec.ofNat 64 x)) (zoffset true (BitVec.ofNat 64 x)) =
      G (x / 2 ^ 54) (Int.bmod ((x % 2 ^ 54 : Nat) : Int) (2 ^ 54)) := by
    intro x hx
    unfold zlayer zoffset
    rw [BitVec.toNat_ofNat, Nat.mod_eq_of_lt hx, if_pos rfl]
    refine congrArg (G _) ?_
    rw [Int.bmod_def, Int.bmod_def]
    push_cast
    omega
  rw [avg_congr h, avg_word fun i o => G i (Int.bmod ((o : Nat) : Int) (2 ^ 54))]
  refine avg_congr fun i _ => ?_
  rw [show (2 : Nat) ^ 54 = 2 ^ 53 + 2 ^ 53 by decide]
  unfold avg
  rw [Finset.sum_range_add]
  have e1 : ∑ o ∈ Finset.range (2 ^ 53), G i (Int.bmod ((o : Nat) : Int) (2 ^ 53 + 2 ^ 53)) = ∑ l ∈ Finset.range (2 ^ 53), G i l := by
    refine Finset.sum_congr rfl fun o ho => ?_
    rw [Finset.mem_range] at ho
    refine congrArg (G _) ?_
    rw [Int.bmod_def]
    push_cast
    omega
  have e2 : ∑ o ∈ Finset.range (2 ^ 53), G i (Int.bmod ((2 ^ 53 + o : Nat) : Int) (2 ^ 53 + 2 ^ 53)) =
      ∑ l ∈ Finset.range (2 ^ 53), G i (-((l + 1 : Nat) : Int)) := by
    rw [← Finset.sum_range_reflect]
    refine Finset.sum_congr rfl fun o ho => ?_
    rw [Finset.mem_range] at ho
    refine congrArg (G _) ?_
    rw [Int.bmod_def]
    push_cast
    omega
  rw [e1, e2]
  push_cast
  rw [← add_div, div_div]
  norm_num

theorem sum_table {N : Nat} (v : Vector U64 N) (g : Nat → Nat) (S : Nat) (h : (v.toList.map fun x => g x.toNat).sum = S) :
    ∑ i ∈ Finset.range N, (g ((v[i]?.getD 0#64).toNat) : ℝ) = S := by
  rw [Finset.sum_range]
  have e : v.toList.map (fun x => g x.toNat) = List.ofFn fun i : Fin N => g ((v[i.val]?.getD 0#64).toNat) := by
    apply List.ext_getElem
    · simp
    · intro i h1 h2
      simp
  rw [e, List.sum_ofFn] at h
  exact_mod_cast h

theorem fast_iff (z : Ziggurat (List U64)) (x : U64) : Fast z x ↔ (zoffset z.mirrored x).natAbs < (z.K[zlayer x]?.getD 0#64).toNat := by
  unfold Fast
  rw [Vector.getElem?_eq_getElem (zlayer_lt x), Option.getD_some]

theorem ind_below (N M : Nat) (h : M ≤ N) (P : Nat → Prop) (hP : ∀ j < N, (P j ↔ j < M)) : avg N (fun j => ind (P j)) = M / N := by
  have := avg_below N M h 1 0
  rw [mul_one, mul_zero, add_zero] at this
  rw [← this]
  refine avg_congr fun j hj => ?_
  split
  · next hlt => exact ind_true ((hP j hj).mpr hlt)
  · next hlt => exact ind_false fun hp => hlt ((hP j hj).mp hp)

theorem fastShare_plain (z : Ziggurat (List U64)) (hz : z.mirrored = false) (hK : z.K.toList.all (fun x => x.toNat ≤ 2 ^ 53) = true) (S : Nat)
    (h : (z.K.toList.map fun x => x.toNat).sum = S) : fastShare z = S / 2 ^ 63 := by
  have hle : ∀ i : Nat, (z.K[i]?.getD 0#64).toNat ≤ 2 ^ 53 := by
    intro i
    rcases Nat.lt_or_ge i 1024 with hi | hi
    · rw [Vector.getElem?_eq_getElem hi, Option.getD_some]
      have := List.all_eq_true.mp hK z.K[i] (by simp)
      simpa using this
    · rw [Vector.getElem?_eq_none hi, Option.getD_none]
      decide
  have e : fastShare z = avg (2 ^ 64) (fun x => (fun (i : Nat) (j : Int) => ind (j.natAbs < (z.K[i]?.getD 0#64).toNat))
      (zlayer (BitVec.ofNat 64 x)) (zoffset false (BitVec.ofNat 64 x))) := by
    unfold fastShare
    exact avg_congr fun x _ => ind_congr ((fast_iff z _).trans (by rw [hz]))
  rw [e, avg_plain fun (i : Nat) (j : Int) => ind (j.natAbs < (z.K[i]?.getD 0#64).toNat)]
  have e2 : ∀ i < 1024, avg (2 ^ 53) (fun j => ind (((j : Nat) : Int).natAbs < (z.K[i]?.getD 0#64).toNat)) =
      ((z.K[i]?.getD 0#64).toNat : ℝ) / 2 ^ 53 := by
    intro i _
    have := ind_below (2 ^ 53) _ (hle i) (fun j => ((j : Nat) : Int).natAbs < (z.K[i]?.getD 0#64).toNat) fun j _ => by rw [Int.natAbs_natCast]
    rw [this, Nat.cast_pow, Nat.cast_ofNat]
  rw [avg_congr e2]
  unfold avg
  rw [← Finset.sum_div, sum_table z.K (fun x => x) S h, div_div]
  norm_num

theorem fastShare_mirrored (z : Ziggurat (List U64)) (hz : z.mirrored = true) (hK : z.K.toList.all (fun x => x.toNat ≤ 2 ^ 53) = true) (S : Nat)
    (h : (z.K.toList.map fun x => x.toNat + (x.toNat - 1)).sum = S) : fastShare z = S / 2 ^ 64 := by
  have hle : ∀ i : Nat, (z.K[i]?.getD 0#64).toNat ≤ 2 ^ 53 := by
    intro i
    rcases Nat.lt_or_ge i 1024 with hi | hi
    · rw [Vector.getElem?_eq_getElem hi, Option.getD_some]
      have := List.all_eq_true.mp hK z.K[i] (by simp)
      simpa using this
    · rw [Vector.getElem?_eq_none hi, Option.getD_none]
      decide
  have e : fastShare z = avg (2 ^ 64) (fun x => (fun (i : Nat) (j : Int) => ind (j.natAbs < (z.K[i]?.getD 0#64).toNat))
      (zlayer (BitVec.ofNat 64 x)) (zoffset true (BitVec.ofNat 64 x))) := by
    unfold fastShare
    exact avg_congr fun x _ => ind_congr ((fast_iff z _).trans (by rw [hz]))
  rw [e, avg_mirrored fun (i : Nat) (j : Int) => ind (j.natAbs < (z.K[i]?.getD 0#64).toNat)]
  have e2 : ∀ i < 1024, (avg (2 ^ 53) (fun j => ind (((j : Nat) : Int).natAbs < (z.K[i]?.getD 0#64).toNat)) +
      avg (2 ^ 53) fun j => ind ((-((j + 1 : Nat) : Int)).natAbs < (z.K[i]?.getD 0#64).toNat)) / 2 =
      (((z.K[i]?.getD 0#64).toNat + ((z.K[i]?.getD 0#64).toNat - 1) : Nat) : ℝ) / 2 ^ 54 := by
    intro i _
    have h1 := ind_below (2 ^ 53) _ (hle i) (fun j => ((j : Nat) : Int).natAbs < (z.K[i]?.getD 0#64).toNat) fun j _ => by rw [Int.natAbs_natCast]
    have h2 := ind_below (2 ^ 53) _ ((Nat.sub_le _ 1).trans (hle i)) (fun j => (-((j + 1 : Nat) : Int)).natAbs < (z.K[i]?.getD 0#64).toNat) fun j _ => by
      rw [Int.natAbs_neg, Int.natAbs_natCast]; omega
    rw [h1, h2, Nat.cast_add]
    push_cast
    ring
  rw [avg_congr e2]
  unfold avg
  rw [← Finset.sum_div, sum_table z.K (fun x => x + (x - 1)) S h, div_div]
  norm_num

theorem expo_fast_sum : (expoK.toList.map fun x => x.toNat).sum = 9164127786790442472 := by decide +kernel
theorem normal_fast_sum : (normalK.toList.map fun x => x.toNat + (x.toNat - 1)).sum = 18367855343147684327 := by decide +kernel
theorem expo_K_le : expoK.toList.all (fun x => x.toNat ≤ 2 ^ 53) = true := by decide +kernel
theorem normal_K_le : normalK.toList.all (fun x => x.toNat ≤ 2 ^ 53) = true := by decide +kernel

theorem expo_fastShare (lib : MathLib) : fastShare (expoZig lib) = 9164127786790442472 / 2 ^ 63 :=
  fastShare_plain (expoZig lib) rfl expo_K_le _ expo_fast_sum

theorem normal_fastShare (lib : MathLib) : fastShare (normalZig lib) = 18367855343147684327 / 2 ^ 64 :=
  fastShare_mirrored (normalZig lib) rfl normal_K_le _ normal_fast_sum

/-! ### Exponential and Normal -/

theorem wordsRead_map {α β : Type} (f : List U64 → Go (α × List U64)) (g : α → β) (w : List U64) :
    wordsRead (fun s => f s >>= fun q => .ok (g q.1, q.2)) w = wordsRead f w := by
  unfold wordsRead
  cases h : f w with
  | error e => simp only [h, bind, Except.bind]
  | ok q => simp only [h, bind, Except.bind]

theorem exponential_words (lib : MathLib) (fused : Bool) (rate : F64) (n : Nat) (w : List U64) :
    wordsRead (exponential lib fused rate tape n) w = wordsRead ((expoZig lib).genNext fused tape n) w :=
  wordsRead_map ((expoZig lib).genNext fused tape n) (fun x => F64.div x rate) w

theorem normal_words (lib : MathLib) (fused fused' : Bool) (mean stddev : F64) (n : Nat) (w : List U64) :
    wordsRead (normal lib fused fused' mean stddev tape n) w = wordsRead ((normalZig lib).genNext fused tape n) w :=
  wordsRead_map ((normalZig lib).genNext fused tape n) (fun x => F64.mulAdd fused' x stddev mean) w

theorem wordsRead_pos {α : Type} {m : Nat} {f : List U64 → Go (α × List U64)} (h : Reads m f) (h0 : ∀ r, f [] ≠ .ok r) (x : U64) (t : List U64) :
    1 ≤ wordsRead f (x :: t) := by
  unfold wordsRead
  split
  · next r rest e =>
    obtain ⟨p, -, hp, hf⟩ := h.cut _ _ _ e
    cases p with
    | nil => exact absurd hf (h0 _)
    | cons y p =>
      rw [hp, List.length_append, List.length_cons]
      omega
  · simp

/-- The share of the sequences of at least two words of which just one is read. -/
theorem one_word (z : Ziggurat (List U64)) (hz : ∀ n, Reads (2 * n + 1) (z.tail tape n)) (h0 : ∀ n r, z.tail tape n [] ≠ .ok r) (fused : Bool)
    (n k : Nat) : prob (k + 2) (fun w => wordsRead (z.genNext fused tape (n + 1)) w = 1) = fastShare z := by
  rw [show k + 2 = k + 1 + 1 from rfl, prob_succ]
  unfold fastShare
  refine avg_congr fun x _ => ?_
  rw [← prob_const (k + 1)]
  refine prob_congr fun t ht => ?_
  constructor
  · intro h
    by_contra hF
    obtain ⟨y, t, rfl⟩ : ∃ y t', t = y :: t' := by
      cases t with
      | nil => simp at ht
      | cons y t => exact ⟨y, t, rfl⟩
    by_cases hl : zlayer (BitVec.ofNat 64 x) = 0
    · rw [cost_tail z hz fused n _ _ hF hl] at h
      have := wordsRead_pos (hz n) (h0 n) y t
      omega
    · have e : BitVec.ofNat 64 y.toNat = y := by rw [BitVec.ofNat_toNat, BitVec.setWidth_eq]
      have := (cost_wedge z hz fused n _ y.toNat y.isLt t hF hl).1
      rw [e] at this
      omega
  · exact fun h => cost_fast z fused n _ t h

theorem expo_tail_reads (lib : MathLib) (n : Nat) : Reads (2 * n + 1) ((expoZig lib).tail tape n) := (reads_expoTail lib n).mono (by omega)
theorem normal_tail_reads (lib : MathLib) (n : Nat) : Reads (2 * n + 1) ((normalZig lib).tail tape n) := (reads_normalTail lib n).mono (by omega)

theorem uniform01_empty : ∃ e, uniform01 tape [] = .error e := ⟨_, rfl⟩

theorem expo_tail_nil (lib : MathLib) (n : Nat) (r) : (expoZig lib).tail tape n [] ≠ .ok r := by
  obtain ⟨e, h⟩ := uniform01_empty
  show expoTail lib tape n [] ≠ _
  unfold expoTail
  rw [h]
  intro h'; cases h'

theorem normal_tail_nil (lib : MathLib) (n : Nat) (r) : (normalZig lib).tail tape n [] ≠ .ok r := by
  obtain ⟨e, h⟩ := uniform01_empty
  show normalTail lib tape n [] ≠ _
  cases n with
  | zero => intro h'; cases h'
  | succ n =>
    rw [normalTail, h]
    intro h'; cases h'

/-- C101: `Exponential.Next` reads just one word with the probability `9164127786790442472/2^63 = 0.99357...`. -/
theorem C101_exponential_one (lib : MathLib) (fused : Bool) (rate : F64) (n k : Nat) :
    prob (k + 2) (fun w => wordsRead (exponential lib fused rate tape (n + 1)) w = 1) = 9164127786790442472 / 2 ^ 63 := by
  simp only [exponential_words]
  rw [one_word (expoZig lib) (expo_tail_reads lib) (expo_tail_nil lib) fused n k, expo_fastShare]

/-- C101: `Normal.Next` reads just one word with the probability `18367855343147684327/2^64 = 0.99572...`. -/
theorem C101_normal_one (lib : MathLib) (fused fused' : Bool) (mean stddev : F64) (n k : Nat) :
    prob (k + 2) (fun w => wordsRead (normal lib fused fused' mean stddev tape (n + 1)) w = 1) = 18367855343147684327 / 2 ^ 64 := by
  simp only [normal_words]
  rw [one_word (normalZig lib) (normal_tail_reads lib) (normal_tail_nil lib) fused n k, normal_fastShare]

/-- C101: `Exponential.Next` reads at most 1.013 words on average, however long the source lasts. -/
theorem C101_exponential_average (lib : MathLib) (fused : Bool) (rate : F64) (n k : Nat) (h : k ≤ n) :
    average k (fun w => (wordsRead (exponential lib fused rate tape n) w : ℝ)) ≤ 1.013 := by
  simp only [exponential_words]
  refine cost_bound (expoZig lib) (expo_tail_reads lib) fused 1.013 1.013 (by norm_num) le_rfl ?_ ?_ (k + 1) k (Nat.lt_succ_self k) n h
  · intro n k _
    have : average k (fun w => (wordsRead ((expoZig lib).tail tape n) w : ℝ)) ≤ average k fun _ => 1 :=
      average_mono fun t ht => by
        have hr := reads_expoTail lib n
        have : wordsRead ((expoZig lib).tail tape n) t ≤ 1 := by
          unfold wordsRead
          split
          · next r rest e =>
            obtain ⟨p, hp, hw, -⟩ := hr.cut _ _ _ e
            rw [hw, List.length_append]
            omega
          · next e he =>
            cases t with
            | nil => simp
            | cons y t =>
              have h1 := uniform01_ofNat y.toNat y.isLt t
              rw [BitVec.ofNat_toNat, BitVec.setWidth_eq] at h1
              have : (expoZig lib).tail tape n (y :: t) = .ok (F64.sub expoR (lib.log (unit (y.toNat % 2 ^ 53))), t) := by
                show expoTail lib tape n (y :: t) = _
                unfold expoTail
                rw [h1]; rfl
              rw [this] at he
              cases he
        exact_mod_cast this
    rw [average_const] at this
    linarith
  · rw [expo_fastShare]
    norm_num

theorem normal_tail_cost (lib : MathLib) (hl : LogOk lib) (m : Nat) :
    ∀ k, k < m → ∀ n, k ≤ n → average k (fun w => (wordsRead ((normalZig lib).tail tape n) w : ℝ)) ≤ 32 / 15 := by
  induction m with
  | zero => intro k hk; omega
  | succ m ih =>
    intro k hk n hn
    rcases Nat.lt_or_ge k 2 with h2 | h2
    · have : average k (fun w => (wordsRead ((normalZig lib).tail tape n) w : ℝ)) ≤ average k fun _ => 1 :=
        average_mono fun t ht => by
          have := wordsRead_le ((normalZig lib).tail tape n) t
          exact_mod_cast (by omega : wordsRead ((normalZig lib).tail tape n) t ≤ 1)
      rw [average_const] at this
      linarith
    · obtain ⟨k, rfl⟩ : ∃ j, k = j + 1 + 1 := ⟨k - 2, by omega⟩
      obtain ⟨n, rfl⟩ : ∃ j, n = j + 1 := ⟨n - 1, by omega⟩
      obtain ⟨q, hq⟩ : ∃ q, average k (fun w => (wordsRead ((normalZig lib).tail tape n) w : ℝ)) = q := ⟨_, rfl⟩
      have hq' : q ≤ 32 / 15 := hq ▸ ih k (by omega) n (by omega)
      have key : ∀ y < 2 ^ 64, ∀ y' < 2 ^ 64, average k (fun t => (wordsRead ((normalZig lib).tail tape (n + 1))
          (BitVec.ofNat 64 y :: BitVec.ofNat 64 y' :: t) : ℝ)) = ind (tailAcc lib (y % 2 ^ 53) (y' % 2 ^ 53)) * -q + (2 + q) := by
        intro y hy y' hy'
        by_cases hc : tailAcc lib (y % 2 ^ 53) (y' % 2 ^ 53)
        · rw [ind_true hc, show (1 : ℝ) * -q + (2 + q) = 2 by ring, ← average_const k 2]
          refine average_congr fun t _ => ?_
          have ht : (normalZig lib).tail tape (n + 1) (BitVec.ofNat 64 y :: BitVec.ofNat 64 y' :: t) =
              .ok (F64.add (tailX lib (y % 2 ^ 53)) normalR, t) := by
            show normalTail lib tape (n + 1) _ = _
            unfold normalTail
            simp only [uniform01_ofNat y hy, uniform01_ofNat y' hy', bind, Except.bind, pure, Except.pure]
            exact if_pos hc
          unfold wordsRead
          rw [ht]
          simp only [List.length_cons]
          rw [show t.length + 1 + 1 - t.length = 2 by omega, Nat.cast_ofNat]
        · rw [ind_false hc, zero_mul, zero_add, ← hq, ← average_const k 2, ← average_add]
          refine average_congr fun t _ => ?_
          have ht : (normalZig lib).tail tape (n + 1) (BitVec.ofNat 64 y :: BitVec.ofNat 64 y' :: t) = (normalZig lib).tail tape n t := by
            show normalTail lib tape (n + 1) _ = normalTail lib tape n t
            rw [normalTail]
            simp only [uniform01_ofNat y hy, uniform01_ofNat y' hy', bind, Except.bind, pure, Except.pure]
            exact if_neg hc
          unfold wordsRead
          rw [ht]
          cases e : (normalZig lib).tail tape n t with
          | error p => simp only [List.length_cons]; push_cast; ring
          | ok r =>
            have := (normal_tail_reads lib n).rest_le (w := t) (r := r.1) (rest := r.2) e
            simp only [List.length_cons]
            rw [show t.length + 1 + 1 - r.2.length = 2 + (t.length - r.2.length) by omega]
            push_cast
            ring
      have e64 : 2 ^ 11 * 2 ^ 53 = (2 : Nat) ^ 64 := by decide
      have inner : ∀ y < 2 ^ 64, average (k + 1) (fun t => (wordsRead ((normalZig lib).tail tape (n + 1)) (BitVec.ofNat 64 y :: t) : ℝ)) =
          tailAccShare lib (y % 2 ^ 53) * -q + (2 + q) := by
        intro y hy
        rw [average_succ, avg_congr fun y' hy' => key y hy y' hy', avg_add, avg_mul_right, avg_const (by positivity)]
        have := avg_mod (2 ^ 11) (2 ^ 53) (by decide) fun k => ind (tailAcc lib (y % 2 ^ 53) k)
        rw [e64] at this
        unfold tailAccShare
        rw [this]
      rw [average_succ, avg_congr inner, avg_add, avg_mul_right, avg_const (by positivity)]
      have := avg_mod (2 ^ 11) (2 ^ 53) (by decide) fun m => tailAccShare lib m
      rw [e64] at this
      rw [this]
      have hp := tailPart_ge lib hl
      unfold tailPart at hp
      simp only [ind_true trivial, one_mul] at hp
      have hq0 : 0 ≤ q := by
        rw [← hq, ← average_const k 0]
        exact average_mono fun t _ => Nat.cast_nonneg _
      nlinarith

/-- C101: `Normal.Next` reads at most 1.0092 words on average, however long the source lasts. -/
theorem C101_normal_average (lib : MathLib) (hl : LogOk lib) (fused fused' : Bool) (mean stddev : F64) (n k : Nat) (h : k ≤ n) :
    average k (fun w => (wordsRead (normal lib fused fused' mean stddev tape n) w : ℝ)) ≤ 1.0092 := by
  simp only [normal_words]
  refine cost_bound (normalZig lib) (normal_tail_reads lib) fused 1.0092 (17 / 15) (by norm_num) (by norm_num) ?_ ?_ (k + 1) k (Nat.lt_succ_self k) n h
  · intro n k hk
    have := normal_tail_cost lib hl (k + 1) k (Nat.lt_succ_self k) n hk
    linarith
  · rw [normal_fastShare]
    norm_num

/-- Non-vacuity of `C101_uintn`, and the worst case: for `max = 2^63 + 1` almost two words. -/
example : LargestMultiple (9223372036854775809#64).toNat 9223372036854775809 := by
  refine ⟨dvd_refl _, by decide, ?_⟩
  rintro M ⟨q, rfl⟩ h
  have e : (9223372036854775809#64).toNat = 9223372036854775809 := by decide
  rw [e] at h ⊢
  omega

example : wordsRead (RNG.uintn tape 5 9223372036854775809#64) [18446744073709551615#64, 7#64, 8#64] = 2 := by decide +kernel

end Crazy
