/-
C84: how slowly LFG and MT64 recover from poor states, and the longest runs of zeros.
-/
import Verif.Props.Predict
import Verif.Props.SeedRef
namespace Crazy

/-! ### LFG -/

namespace LFG

/-- 335 small words and those that follow. -/
theorem small_window (g : LFG) (B m : Nat) (hm : 272 ≤ m) (h : ∀ i < 335, (g.seq (m + i)).toNat ≤ B) (i : Nat) (hi : i < 335) :
    (g.seq (m + 335 + i)).toNat ≤ B * (i + 2) := by
  induction i with
  | zero =>
    rw [seq_ge _ (by omega), BitVec.toNat_add]
    refine (Nat.mod_le _ _).trans ?_
    have h1 := h 334 (by decide)
    have h2 := h 0 (by decide)
    rw [show m + 335 + 0 - 1 = m + 334 by omega, show m + 335 + 0 - 335 = m + 0 by omega]
    omega
  | succ i ih =>
    rw [seq_ge _ (by omega), BitVec.toNat_add]
    refine (Nat.mod_le _ _).trans ?_
    have h1 := ih (by omega)
    have h2 := h (i + 1) (by omega)
    rw [show m + 335 + (i + 1) - 1 = m + 335 + i by omega, show m + 335 + (i + 1) - 335 = m + (i + 1) by omega]
    rw [Nat.mul_add B (i + 1)]
    have : B * (i + 2) = B * (i + 1) + B := by rw [← Nat.mul_succ]
    omega

theorem small_windows (g : LFG) (B m : Nat) (hm : 272 ≤ m) (h : ∀ i < 335, (g.seq (m + i)).toNat ≤ B) (k : Nat) :
    ∀ i < 335, (g.seq (m + 335 * k + i)).toNat ≤ B * 336 ^ k := by
  induction k with
  | zero => simpa using h
  | succ k ih =>
    intro i hi
    have h1 := small_window g (B * 336 ^ k) (m + 335 * k) (by omega) ih i hi
    rw [Nat.mul_succ, ← Nat.add_assoc, Nat.pow_succ, ← Nat.mul_assoc]
    exact h1.trans (Nat.mul_le_mul_left _ (by omega))

theorem small_after (g : LFG) (B m : Nat) (hm : 272 ≤ m) (h : ∀ i < 335, (g.seq (m + i)).toNat ≤ B) (k n : Nat) (hn : n < 335 * k) :
    (g.seq (m + 335 + n)).toNat ≤ B * 336 ^ k := by
  have h1 := small_windows g B m hm h (n / 335 + 1) (n % 335) (Nat.mod_lt _ (by decide))
  rw [show m + 335 * (n / 335 + 1) + n % 335 = m + 335 + n by omega] at h1
  exact h1.trans (Nat.mul_le_mul_left _ (Nat.pow_le_pow_right (by decide) (by omega)))

end LFG

/-- C84: if 335 successive outputs of LFG are at most `B`, the `335 k` outputs that follow are at most `B * 336^k`. -/
theorem C84_LFG_outputs_stay_small (g : LFG) (hg : Reachable LFG.methods.api LFG.new g) (B m : Nat)
    (h : ∀ i < 335, ∀ w, Emits LFG.uint64 g (m + i) [w] → w.toNat ≤ B) (k n : Nat) (hn : n < 335 * k) (w : U64)
    (hw : Emits LFG.uint64 g (m + 335 + n) [w]) : w.toNat ≤ B * 336 ^ k := by
  have hi := LFG.safe.reachable LFG.inv_new hg
  rw [LFG.emits_iff g hi] at hw
  subst hw
  have h1 := LFG.small_after g B (607 + m) (by omega) (fun i hj => by
    rw [Nat.add_assoc]
    exact h i hj _ ((LFG.emits_iff g hi _ _).mpr rfl)) k n hn
  rw [show 607 + m + 335 + n = 607 + (m + 335 + n) by omega] at h1
  exact h1

/-- C84: the same from a state whose saved words, or only the first 335 of them, are at most `B`. -/
theorem C84_LFG_saved_small (g : LFG) (hg : Reachable LFG.methods.api LFG.new g) (ws : List U64) (hl : ws.length = 607)
    (hs : g.save = .ok (bytesOf ws)) (B : Nat) (hB : ∀ x ∈ ws.take 335, x.toNat ≤ B) (k n : Nat) (hn : n < 335 * k) (w : U64)
    (hw : Emits LFG.uint64 g n [w]) : w.toNat ≤ B * 336 ^ k := by
  have hi := LFG.safe.reachable LFG.inv_new hg
  rw [LFG.emits_iff g hi] at hw
  subst hw
  rw [LFG.save_eq g hi] at hs
  have e : ws = (List.range 607).map fun i => g.hist (272 + i) :=
    (bytesOf_inj _ _ (by rw [List.length_map, List.length_range, hl]) (Except.ok.inj hs)).symm
  refine LFG.small_after g B 272 (by omega) (fun i hj => ?_) k n hn
  rw [LFG.seq_lt _ (by omega)]
  refine hB _ ?_
  rw [e, List.mem_iff_getElem]
  refine ⟨i, by rw [List.length_take, List.length_map, List.length_range]; omega, ?_⟩
  rw [List.getElem_take, List.getElem_map, List.getElem_range]

set_option maxRecDepth 4000 in
/-- C84: 335 zeros in a row mean that all outputs are zero; 334 do not. -/
theorem C84_LFG_zeros : (∀ (g : LFG) n, Reachable LFG.methods.api LFG.new g → Emits LFG.uint64 g n (List.replicate 335 0#64) →
      ∀ m, Emits LFG.uint64 g m [0#64]) ∧
    ∃ g, Reachable LFG.methods.api LFG.new g ∧ Emits LFG.uint64 g 0 (List.replicate 334 0#64 ++ [1#64]) := by
  have key : ∀ (g : LFG), LFG.Inv g → ∀ n ws, Emits LFG.uint64 g n ws ↔ (List.range ws.length).map (fun k => g.seq (607 + (n + k))) = ws := by
    intro g hi n ws
    unfold Emits
    simp only [LFG.leads_iff g _ hi]
    constructor
    · rintro ⟨t, t', rfl, h2⟩
      rw [LFG.draws_eq _ _ (LFG.inv_nexts _ _ hi)] at h2
      have h3 := congrArg Prod.fst (Except.ok.inj h2)
      refine Eq.trans ?_ h3
      refine List.map_congr_left fun k _ => ?_
      rw [LFG.seq_nexts]
      exact congrArg _ (by omega)
    · intro h
      refine ⟨_, LFG.nexts ws.length (LFG.nexts n g), rfl, (LFG.draws_eq _ _ (LFG.inv_nexts _ _ hi)).trans ?_⟩
      refine congrArg Except.ok (Prod.ext ?_ rfl)
      refine Eq.trans ?_ h
      refine List.map_congr_left fun k _ => ?_
      rw [LFG.seq_nexts]
      exact congrArg _ (by omega)
  constructor
  · intro g n hg h
    have hi := LFG.safe.reachable LFG.inv_new hg
    rw [key g hi, MT64.map_range_eq_iff] at h
    have h1 : ∀ k, g.seq (607 + (n + k)) = 0#64 := by
      intro k
      induction k using Nat.strong_induction_on with
      | _ k ih =>
        rcases Nat.lt_or_ge k 335 with hk | hk
        · have := h k (by rw [List.length_replicate]; exact hk)
          rw [List.getElem_replicate] at this
          exact this
        · rw [LFG.seq_ge _ (by omega), show 607 + (n + k) - 1 = 607 + (n + (k - 1)) by omega,
            show 607 + (n + k) - 335 = 607 + (n + (k - 335)) by omega, ih (k - 1) (by omega), ih (k - 335) (by omega)]
          rfl
    refine LFG.emits_zero_of g hi (LFG.zs_zero_back g (335 + n) fun k => ?_)
    unfold LFG.zs
    rw [show 272 + (k + (335 + n)) = 607 + (n + k) by omega, h1, toZ_zero]
  · refine ⟨LFG.quiet 1#64, LFG.quiet_reachable _, ?_⟩
    rw [key _ (LFG.quiet_inv _), MT64.map_range_eq_iff]
    intro i hi
    rw [List.length_append, List.length_replicate, List.length_singleton] at hi
    rw [Nat.zero_add]
    rcases Nat.lt_or_ge i 334 with h | h
    · rw [LFG.quiet_zero _ _ h, List.getElem_append_left (by rw [List.length_replicate]; exact h), List.getElem_replicate]
    · have hi' : i = 334 := by omega
      have e : (LFG.quiet 1#64).seq (607 + i) = 1#64 := by rw [hi']; exact LFG.quiet_last 1#64
      rw [List.getElem_append_right (by rw [List.length_replicate]; exact h), e, List.getElem_singleton]

/-! ### MT64 -/

namespace MT64

theorem twist_zero : twist 0#64 0#64 = 0#64 := by decide

/-- A word that is not zero comes from one of three that is not zero. -/
theorem seq_source (s : Vector U64 312) (n : Nat) (h : seq s (n + 312) ≠ 0#64) :
    seq s n ≠ 0#64 ∨ seq s (n + 1) ≠ 0#64 ∨ seq s (n + 156) ≠ 0#64 := by
  by_contra hc
  push Not at hc
  rw [seq_ge, hc.1, hc.2.1, hc.2.2, twist_zero] at h
  exact h (by decide)

theorem seq_sparse (s : Vector U64 312) (m p : Nat) (h : ∀ i < 312, i ≠ p → seq s (m + i) = 0#64) (n : Nat) (hn : seq s (m + n) ≠ 0#64) :
    ∃ L b, 2 * b ≤ L ∧ n + b = p + 156 * L := by
  induction n using Nat.strong_induction_on with
  | _ n ih =>
    rcases Nat.lt_or_ge n 312 with h1 | h1
    · have : n = p := by
        by_contra hne
        exact hn (h n h1 hne)
      exact ⟨0, 0, by omega, by omega⟩
    · obtain ⟨k, rfl⟩ : ∃ k, n = k + 312 := ⟨n - 312, by omega⟩
      rw [← Nat.add_assoc] at hn
      rcases seq_source s _ hn with h2 | h2 | h2
      · obtain ⟨L, b, h3, h4⟩ := ih k (by omega) h2
        exact ⟨L + 2, b, by omega, by omega⟩
      · rw [Nat.add_assoc] at h2
        obtain ⟨L, b, h3, h4⟩ := ih (k + 1) (by omega) h2
        exact ⟨L + 2, b + 1, by omega, by omega⟩
      · rw [Nat.add_assoc] at h2
        obtain ⟨L, b, h3, h4⟩ := ih (k + 156) (by omega) h2
        exact ⟨L + 1, b, by omega, by omega⟩

theorem emits_zero_iff (g : MT64) (n : Nat) : Emits uint64 g n [0#64] ↔ seq g.s (g.pos + n) = 0#64 := by
  rw [emits_one]
  constructor
  · intro h
    exact temper_inj (h.trans temper_zero.symm)
  · intro h
    rw [h, temper_zero]

theorem sum_half (K : Nat) : 4 * (∑ L ∈ Finset.range (K + 1), (L / 2 + 1)) ≤ (K + 2) ^ 2 := by
  have key : ∀ K, 4 * (∑ L ∈ Finset.range (K + 1), (L / 2 + 1)) + (if K % 2 = 0 then 0 else 1) = (K + 2) ^ 2 := by
    intro K
    induction K with
    | zero => rfl
    | succ K ih =>
      rw [Finset.sum_range_succ]
      have e : (K + 1 + 2) ^ 2 = (K + 2) ^ 2 + 2 * K + 5 := by ring
      rw [e, ← ih]
      split_ifs <;> omega
  have := key K
  omega

end MT64

/-- C84: if only one of 312 successive outputs of MT64 is not zero, number `p` of them, then a later output that is not zero is
`156 L - b` places after it for some `L` and some `b` at most `L / 2`. -/
theorem C84_MT64_sparse (g : MT64) (m p : Nat) (h : ∀ i < 312, i ≠ p → Emits MT64.uint64 g (m + i) [0#64]) (n : Nat)
    (hn : ¬ Emits MT64.uint64 g (m + n) [0#64]) : ∃ L b, 2 * b ≤ L ∧ n + b = p + 156 * L := by
  rw [MT64.emits_zero_iff, ← Nat.add_assoc] at hn
  refine MT64.seq_sparse g.s (g.pos + m) p (fun i hi hne => ?_) n hn
  rw [Nat.add_assoc, ← MT64.emits_zero_iff]
  exact h i hi hne

/-- C84: so that of the next `156 k` outputs at most `(k + 4)^2 / 4` are not zero, for `k` up to 300. -/
theorem C84_MT64_few (g : MT64) (m p : Nat) (h : ∀ i < 312, i ≠ p → Emits MT64.uint64 g (m + i) [0#64]) (k : Nat) (hk : k ≤ 300) :
    Nat.card {n : Nat // n < 156 * k ∧ ¬ Emits MT64.uint64 g (m + (312 + n)) [0#64]} ≤ (k + 4) ^ 2 / 4 := by
  classical
  let F : Finset Nat := ((Finset.range (k + 2 + 1)).sigma fun L => Finset.range (L / 2 + 1)).image fun r => p + 156 * r.1 - r.2 - 312
  have hF : ∀ n, n < 156 * k ∧ ¬ Emits MT64.uint64 g (m + (312 + n)) [0#64] → n ∈ F := by
    rintro n ⟨h1, h2⟩
    obtain ⟨L, b, h3, h4⟩ := C84_MT64_sparse g m p h _ h2
    refine Finset.mem_image.mpr ⟨⟨L, b⟩, Finset.mem_sigma.mpr ⟨Finset.mem_range.mpr ?_, Finset.mem_range.mpr ?_⟩, ?_⟩
    · show L < k + 2 + 1
      omega
    · show b < L / 2 + 1
      omega
    · show p + 156 * L - b - 312 = n
      omega
  have h1 : Nat.card {n : Nat // n < 156 * k ∧ ¬ Emits MT64.uint64 g (m + (312 + n)) [0#64]} ≤ Nat.card F :=
    Nat.card_le_card_of_injective (fun n => (⟨n.1, hF n.1 n.2⟩ : F)) fun a b hab => Subtype.ext (Subtype.mk.inj hab)
  have h2 : F.card ≤ ∑ L ∈ Finset.range (k + 2 + 1), (L / 2 + 1) := by
    refine Finset.card_image_le.trans ?_
    rw [Finset.card_sigma]
    simp
  rw [Nat.card_eq_fintype_card (α := F), Fintype.card_coe] at h1
  have h3 := MT64.sum_half (k + 2)
  have e : k + 2 + 2 = k + 4 := by omega
  rw [e] at h3
  omega

/-- C84: from a state of nonzero effective part MT64 returns at most 311 zeros in a row; 311 do occur. -/
theorem C84_MT64_zeros (g : MT64) (hg : g.Alive) (hi : g.Begun) : (∀ n, ¬ Emits MT64.uint64 g n (List.replicate 312 0#64)) ∧
    ∃ n, Emits MT64.uint64 g n (List.replicate 311 0#64) := by
  obtain ⟨p, hp⟩ : ∃ p, p + 1 = 2 ^ 19937 := ⟨2 ^ 19937 - 1, Nat.sub_add_cancel Nat.one_le_two_pow⟩
  constructor
  · intro n h
    rw [MT64.emits_iff, MT64.map_range_eq_iff] at h
    have h1 : ∀ k, MT64.seq g.s (g.pos + n + k) = 0#64 := by
      intro k
      by_contra hne
      obtain ⟨L, b, -, -⟩ := MT64.seq_sparse g.s (g.pos + n) 312 (fun i hi _ => by
        have h2 := h i (by rw [List.length_replicate]; exact hi)
        rw [List.getElem_replicate] at h2
        rw [Nat.add_assoc]
        exact MT64.temper_inj (h2.trans MT64.temper_zero.symm)) k hne
      have key : ∀ k, MT64.seq g.s (g.pos + n + k) = 0#64 := by
        intro k
        induction k using Nat.strong_induction_on with
        | _ k ih =>
          rcases Nat.lt_or_ge k 312 with hk | hk
          · have h2 := h k (by rw [List.length_replicate]; exact hk)
            rw [List.getElem_replicate] at h2
            rw [Nat.add_assoc]
            exact MT64.temper_inj (h2.trans MT64.temper_zero.symm)
          · obtain ⟨j, rfl⟩ : ∃ j, k = j + 312 := ⟨k - 312, by omega⟩
            rw [← Nat.add_assoc, MT64.seq_ge, ih j (by omega), Nat.add_assoc _ j 1, ih (j + 1) (by omega), Nat.add_assoc _ j 156,
              ih (j + 156) (by omega), MT64.twist_zero]
            rfl
      exact hne (key k)
    refine MT64.not_alive_of g (MT64.seq_zero_of g.s p hp (MT64.prime_of p hp) 1 (g.pos + n) (fun j hj => ?_) ?_) hg
    · obtain ⟨i, rfl⟩ := Nat.exists_eq_add_of_le hj
      rw [h1, Nat.add_assoc, h1]
    · intro hd
      have := Nat.le_of_dvd (by decide) hd
      exact absurd this (Nat.not_le.mpr (MT64.prime_of p hp).one_lt)
  · have h1 := C62_MT64_equidistributed_zeros g hg hi
    have h2 : 0 < Nat.card {n : Nat // n < 2 ^ 19937 - 1 ∧ Emits MT64.uint64 g n (List.replicate 311 0#64)} := by
      rw [h1]; decide
    obtain ⟨⟨n, -, h3⟩⟩ := (Nat.card_pos_iff.mp h2).1
    exact ⟨n, h3⟩

/-! ### The xo* generators -/

/-- C84: from any state but zero Xoshiro returns at most three zeros in a row; three occur once in a period for every word that may follow. -/
theorem C84_Xoshiro_zeros (g : Xoshiro) (hg : g ≠ ⟨0#64, 0#64, 0#64, 0#64⟩) :
    (∀ n, ¬ Emits Xoshiro.uint64 g n (List.replicate 4 0#64)) ∧
    ∀ w, w ≠ 0#64 → ∃! n, n < 2 ^ 256 - 1 ∧ Emits Xoshiro.uint64 g n (List.replicate 3 0#64 ++ [w]) := by
  refine ⟨fun n => C45_Xoshiro_never_zeros g hg n, fun w hw => ?_⟩
  exact C45_Xoshiro_equidistributed g hg 0#64 0#64 0#64 w (fun h => hw (by simpa using h))

namespace Xoroshiro

/-- The state before two zeros. -/
def twoZeros : Xoroshiro := ⟨0x007fe001fff80200#64, 0xff801ffe0007fe00#64⟩

/-- A word and its opposite differ above the lowest bit set. -/
theorem xor_neg (a : U64) : ∃ k < 64, a ^^^ -a = BitVec.allOnes 64 <<< (k + 1) := by
  by_cases h : ∃ j, a.getLsbD j = true
  · classical
    have hm := Nat.find_spec h
    have hlt : Nat.find h < 64 := by
      by_contra hge
      rw [BitVec.getLsbD_of_ge _ _ (by omega)] at hm
      cases hm
    refine ⟨Nat.find h, hlt, ?_⟩
    apply BitVec.eq_of_getLsbD_eq
    intro i hi
    rw [BitVec.getLsbD_xor, BitVec.getLsbD_neg, BitVec.getLsbD_shiftLeft, BitVec.getLsbD_allOnes, decide_eq_true hi, Bool.true_and, Bool.true_and]
    have e : decide (∃ j < i, a.getLsbD j = true) = !decide (i < Nat.find h + 1) := by
      rw [← decide_not]
      refine decide_eq_decide.mpr ⟨?_, ?_⟩
      · rintro ⟨j, hj, h1⟩
        have := Nat.find_min' h h1
        omega
      · intro h1
        exact ⟨Nat.find h, by omega, hm⟩
    rw [e]
    rcases Nat.lt_or_ge i (Nat.find h + 1) with h1 | h1
    · rw [decide_eq_true h1]; cases a.getLsbD i <;> rfl
    · rw [decide_eq_false (by omega : ¬ i < Nat.find h + 1), decide_eq_true (by omega : i - (Nat.find h + 1) < 64)]; cases a.getLsbD i <;> rfl
  · push Not at h
    have e : a = 0#64 := by
      apply BitVec.eq_of_getLsbD_eq
      intro i hi
      rw [BitVec.getLsbD_zero]
      exact Bool.eq_false_iff.mpr (h i)
    exact ⟨63, by decide, by rw [e]; decide⟩

/-- The first word, if two outputs are zero and the words differ by `x`. -/
def before (x : U64) : U64 := rotl64 (-(rotl64 x 36) ^^^ x ^^^ (x <<< 14)) 9

theorem before_cases : ∀ k < 64, before (BitVec.allOnes 64 <<< (k + 1)) ^^^ -(before (BitVec.allOnes 64 <<< (k + 1))) = BitVec.allOnes 64 <<< (k + 1) →
    before (BitVec.allOnes 64 <<< (k + 1)) = 0#64 ∨ before (BitVec.allOnes 64 <<< (k + 1)) = 0x007fe001fff80200#64 := by decide +kernel

theorem rotl_back (a : U64) : rotl64 (rotl64 a 55) 9 = a := by
  apply BitVec.eq_of_getLsbD_eq
  intro i hi
  unfold rotl64
  simp only [BitVec.getLsbD_or, BitVec.getLsbD_shiftLeft, BitVec.getLsbD_ushiftRight]
  interval_cases i <;> simp

theorem two_zeros (g : Xoroshiro) : out g = 0#64 ∧ out (step g) = 0#64 ↔ g = ⟨0#64, 0#64⟩ ∨ g = twoZeros := by
  constructor
  · rintro ⟨h1, h2⟩
    obtain ⟨a, b⟩ := g
    have hb : b = -a := by
      have h3 : a + b = 0#64 := h1
      rw [← BitVec.add_right_inj a, h3, BitVec.add_right_neg]
    subst hb
    obtain ⟨k, hk, hx⟩ := xor_neg a
    have hx' : -a ^^^ a = BitVec.allOnes 64 <<< (k + 1) := by rw [BitVec.xor_comm]; exact hx
    have h3 : (rotl64 a 55 ^^^ (-a ^^^ a) ^^^ ((-a ^^^ a) <<< 14)) + rotl64 (-a ^^^ a) 36 = 0#64 := h2
    have h6 := before_cases k hk
    rw [hx'] at h3
    generalize BitVec.allOnes 64 <<< (k + 1) = x at h3 h6 hx hx'
    have h4 : rotl64 a 55 ^^^ x ^^^ x <<< 14 = -rotl64 x 36 := by
      rw [← BitVec.add_left_inj (rotl64 x 36), h3, BitVec.add_left_neg]
    have h5 : before x = a := by
      have e : ∀ r y z : U64, r ^^^ y ^^^ z ^^^ y ^^^ z = r := by
        intro r y z
        ext i hi
        simp only [BitVec.getElem_xor]
        cases r[i] <;> cases y[i] <;> cases z[i] <;> rfl
      rw [before, ← h4, e, rotl_back]
    rw [h5] at h6
    rcases h6 hx with h7 | h7
    · left; rw [h7]; decide
    · right; rw [h7]; decide
  · rintro (rfl | rfl) <;> decide +kernel

end Xoroshiro

/-- C84: from any state but zero Xoroshiro returns at most two zeros in a row, and two once in a period. -/
theorem C84_Xoroshiro_zeros (g : Xoroshiro) (hg : g ≠ ⟨0#64, 0#64⟩) :
    (∀ n, ¬ Emits Xoroshiro.uint64 g n (List.replicate 3 0#64)) ∧
    ∃! n, n < 2 ^ 128 - 1 ∧ Emits Xoroshiro.uint64 g n (List.replicate 2 0#64) := by
  have h0 : ∀ n k, Emits Xoroshiro.uint64 g n (List.replicate k 0#64) ↔ ∀ i < k, Xoroshiro.out (Xoroshiro.step^[i] (Xoroshiro.step^[n] g)) = 0#64 := by
    intro n k
    rw [emits_pure Xoroshiro.uint64_pure, MT64.map_range_eq_iff]
    simp only [List.length_replicate, List.getElem_replicate]
  have h3 : ∀ n, ¬ Emits Xoroshiro.uint64 g n (List.replicate 3 0#64) := by
    intro n h
    rw [h0] at h
    have hz := Xoroshiro.cycle.iter_nz hg n
    generalize Xoroshiro.step^[n] g = t at h hz
    rcases (Xoroshiro.two_zeros t).mp ⟨h 0 (by decide), h 1 (by decide)⟩ with rfl | rfl
    · exact hz rfl
    · exact absurd (h 2 (by decide)) (by decide +kernel)
  have h2 : ∀ n, Emits Xoroshiro.uint64 g n (List.replicate 2 0#64) ↔ Xoroshiro.step^[n] g = Xoroshiro.twoZeros := by
    intro n
    rw [h0]
    have hz := Xoroshiro.cycle.iter_nz hg n
    generalize Xoroshiro.step^[n] g = t at hz ⊢
    rw [← or_iff_right hz (b := t = Xoroshiro.twoZeros), ← Xoroshiro.two_zeros]
    constructor
    · intro h
      exact ⟨h 0 (by decide), h 1 (by decide)⟩
    · rintro ⟨h1, h2⟩ i hi
      obtain rfl | rfl : i = 0 ∨ i = 1 := by omega
      · exact h1
      · exact h2
  refine ⟨h3, ?_⟩
  simp only [h2]
  exact Xoroshiro.cycle.existsUnique hg (by decide)

theorem reverse_zero_iff (x : U64) : reverseBytes64 x = 0#64 ↔ x = 0#64 := by
  have h : reverseBytes64 0#64 = 0#64 := by decide
  conv_lhs => rw [← h]
  exact Rexoroshiro.reverse_inj

/-- C84: the same of Rexoroshiro. -/
theorem C84_Rexoroshiro_zeros (g : Rexoroshiro) (hg : g ≠ ⟨⟨0#64, 0#64⟩⟩) :
    (∀ n, ¬ Emits Rexoroshiro.uint64 g n (List.replicate 3 0#64)) ∧
    ∃! n, n < 2 ^ 128 - 1 ∧ Emits Rexoroshiro.uint64 g n (List.replicate 2 0#64) := by
  have hg' : g.xoro ≠ ⟨0#64, 0#64⟩ := fun e => hg (by cases g; exact congrArg _ e)
  have key : ∀ n k, Emits Rexoroshiro.uint64 g n (List.replicate k 0#64) ↔ Emits Xoroshiro.uint64 g.xoro n (List.replicate k 0#64) := by
    intro n k
    rw [emits_pure Rexoroshiro.uint64_pure, emits_pure Xoroshiro.uint64_pure, MT64.map_range_eq_iff, MT64.map_range_eq_iff]
    refine forall_congr' fun i => forall_congr' fun hi => ?_
    rw [List.getElem_replicate, ← Function.iterate_add_apply, ← Function.iterate_add_apply, Rexoroshiro.iter]
    exact reverse_zero_iff _
  simp only [key]
  exact C84_Xoroshiro_zeros g.xoro hg'

/-- Non-vacuity: a generator that has just been restored from an array that is zero but for one word meets the hypotheses of `C84_MT64_few`;
within the next 3120 outputs at most 144 are not zero. -/
example : Nat.card {n : Nat // n < 156 * 20 ∧
    ¬ Emits MT64.uint64 ⟨0, Vector.ofFn fun i : Fin 312 => if i.1 = 5 then 1#64 else 0#64⟩ (0 + (312 + n)) [0#64]} ≤ 144 := by
  refine C84_MT64_few _ 0 5 (fun i hi hne => ?_) 20 (by decide)
  rw [MT64.emits_zero_iff]
  have e : MT64.pos ⟨0, Vector.ofFn fun i : Fin 312 => if i.1 = 5 then 1#64 else 0#64⟩ + (0 + i) = i := by
    show min 0 312 + (0 + i) = i
    omega
  rw [e, MT64.seq_lt _ hi]
  simp [hne]


/-- Non-vacuity: one reachable LFG meets the hypotheses of `C84_LFG_outputs_stay_small` with `B = 1`, and its outputs are not all zero: after 334
zeros and a one, the next 1005 outputs are below `2^26`. -/
example : ∃ g, Reachable LFG.methods.api LFG.new g ∧ Emits LFG.uint64 g 334 [1#64] ∧
    ∀ n w, n < 1005 → Emits LFG.uint64 g (335 + n) [w] → w.toNat < 2 ^ 26 := by
  have hi := LFG.safe.reachable LFG.inv_new (LFG.quiet_reachable 1#64)
  refine ⟨LFG.quiet 1#64, LFG.quiet_reachable _, (LFG.emits_iff _ hi _ _).mpr (LFG.quiet_last 1#64), fun n w hn hw => ?_⟩
  have h1 := C84_LFG_outputs_stay_small (LFG.quiet 1#64) (LFG.quiet_reachable _) 1 0 (fun i hj w hw => by
    have h2 := (LFG.emits_iff _ hi _ _).mp hw
    rw [Nat.zero_add] at h2
    rcases Nat.lt_or_ge i 334 with h | h
    · rw [LFG.quiet_zero _ _ h] at h2
      rw [← h2]
      decide
    · have hi' : i = 334 := by omega
      have e : (LFG.quiet 1#64).seq (607 + i) = 1#64 := by rw [hi']; exact LFG.quiet_last 1#64
      rw [e] at h2
      rw [← h2]
      decide) 3 n hn w (by rw [Nat.zero_add]; exact hw)
  exact lt_of_le_of_lt h1 (by decide)

end Crazy
