/-
C53: which bytes of the initialization vector `LFG.SeedIV` uses.
C54: the recurrence that `LFG` follows.
-/
import Verif.Proofs.Gens
namespace Crazy

/-! ### C53 -/

/-- The positions of `iv` that `LFG.SeedIV` makes use of: in each group of 607 bytes the first one and the last 334. -/
def LfgLive (i : Nat) : Prop := i % 607 = 0 ∨ 273 ≤ i % 607

namespace LFG

theorem contrib_congr (iv iv' : List Byte) (hl : iv.length = iv'.length) (i k : Nat) (hk : k < 335)
    (h : ∀ j, LfgLive (i + j) → iv[j]? = iv'[j]?) : contrib i iv k = contrib i iv' k := by
  induction iv generalizing i iv' with
  | nil => rw [List.length_eq_zero_iff.mp hl.symm]
  | cons v iv ih =>
    match iv', hl with
    | v' :: iv', hl =>
      rw [contrib, contrib, ih iv' (by simpa using hl) (i + 1) (fun j hj => by
        have := h (j + 1) (by rw [show i + (j + 1) = i + 1 + j by omega]; exact hj)
        simpa using this)]
      by_cases hc : (i + 334) % 607 = k
      · have := h 0 (by unfold LfgLive; omega)
        simp only [List.getElem?_cons_zero, Option.some.injEq] at this
        rw [if_pos hc, if_pos hc, this]
      · rw [if_neg hc, if_neg hc]

theorem seedStart_hist (iv : List Byte) (i : Nat) (h1 : 272 ≤ i) (h2 : i < 607) :
    (seedStart iv).hist i = lfgS0[i - 272]'(by omega) + contrib 0 iv (i - 272) := by
  have e : (335 + i) % 607 = i - 272 := by omega
  have h3 : ∀ j (hj : j < 607), (seedVec iv)[j] = lfgS0[j] + contrib 0 iv j := by
    intro j hj
    simp only [seedVec, Vector.getElem_ofFn, Fin.getElem_fin]
  unfold hist seedStart
  simp only [Nat.zero_add, e]
  exact h3 _ _

theorem seq_congr (g g' : LFG) (h : ∀ i, 272 ≤ i → i < 607 → g.hist i = g'.hist i) (n : Nat) (hn : 272 ≤ n) :
    g.seq n = g'.seq n := by
  induction n using Nat.strongRecOn with
  | ind n ih =>
    by_cases h6 : n < 607
    · rw [seq_lt _ h6, seq_lt _ h6, h n hn h6]
    · rw [seq_ge _ (by omega), seq_ge g' (by omega), ih _ (by omega) (by omega), ih _ (by omega) (by omega)]

theorem seq_back (g g' : LFG) (m : Nat) (h : ∀ k < 335, g.seq (m + k) = g'.seq (m + k)) (n : Nat) :
    272 ≤ n → n < m + 335 → g.seq n = g'.seq n := by
  intro h1 h2
  obtain ⟨d, hd⟩ : ∃ d, d = m + 335 - n := ⟨_, rfl⟩
  induction d using Nat.strongRecOn generalizing n with
  | ind d ih =>
    by_cases hc : m ≤ n
    · have := h (n - m) (by omega)
      rwa [show m + (n - m) = n by omega] at this
    · have e1 := seq_ge g (n := n + 335) (by omega)
      have e2 := seq_ge g' (n := n + 335) (by omega)
      rw [ih (d - 335) (by omega) (n + 335) (by omega) (by omega) (by omega),
        ih (d - 334) (by omega) (n + 335 - 1) (by omega) (by omega) (by omega), e2] at e1
      have e3 := congrArg (· - g'.seq (n + 335 - 1)) e1
      simp only [show n + 335 - 335 = n by omega] at e3
      have e4 : ∀ a b : U64, a + b - a = b := fun a b => by
        rw [BitVec.add_comm, BitVec.add_sub_cancel]
      rw [e4, e4] at e3
      exact e3.symm

theorem nexts_t (n : Nat) (g : LFG) (h : Inv g) : (nexts n g).t = (g.t + n) % 607 := by
  induction n generalizing g with
  | zero => have := h.1; show g.t = _; omega
  | succ n ih =>
    rw [nexts, ih _ (inv_next g h)]
    simp only [next]
    omega

/-- States with the same words at ages 272..606 become equal after 607 outputs (or any later number). -/
theorem nexts_congr (g g' : LFG) (hg : Inv g) (hg' : Inv g') (ht : g.t = g'.t)
    (h : ∀ i, 272 ≤ i → i < 607 → g.hist i = g'.hist i) (n : Nat) (hn : 607 ≤ n) : nexts n g = nexts n g' := by
  refine ext_hist (inv_nexts n g hg) (inv_nexts n g' hg') ?_ (fun i hi => ?_)
  · rw [nexts_t n g hg, nexts_t n g' hg', ht]
  · rw [← seq_lt _ hi, ← seq_lt _ hi, seq_nexts, seq_nexts]
    exact seq_congr g g' h _ (by omega)

end LFG

/-- C53, "SeedIV initializes the generator using all bits of iv" is false: changing an iv at positions that are not live
(positions 1..272, 608..879, ...) has no effect; the generators are in the same state. -/
theorem C53_LFG_ignored (iv iv' : List Byte) (hl : iv.length = iv'.length)
    (h : ∀ i, LfgLive i → iv[i]? = iv'[i]?) (g g' : LFG) : g.seedIV iv = g'.seedIV iv' := by
  rw [LFG.seedIV_eq, LFG.seedIV_eq]
  refine congrArg Except.ok (LFG.nexts_congr _ _ (LFG.inv_seedStart iv) (LFG.inv_seedStart iv') rfl ?_ _ (by decide))
  intro i h1 h2
  rw [LFG.seedStart_hist iv i h1 h2, LFG.seedStart_hist iv' i h1 h2,
    LFG.contrib_congr iv iv' hl 0 (i - 272) (by omega) (fun j hj => h j (by rwa [Nat.zero_add] at hj))]

/-- C53: `Seed(x)` uses only the low eight bits of `x`: there are at most 256 different `Seed` results. -/
theorem C53_LFG_Seed (x y : U64) (h : x.toNat % 256 = y.toNat % 256) (g g' : LFG) : g.seed x = g'.seed y := by
  refine C53_LFG_ignored (le64 x) (le64 y) rfl (fun i hi => ?_) g g'
  match i, hi with
  | 0, _ =>
    simp only [le64, List.getElem?_cons_zero, Option.some.injEq]
    apply BitVec.eq_of_toNat_eq
    simpa using h
  | i + 1, hi =>
    by_cases h8 : i < 7
    · unfold LfgLive at hi; omega
    · rw [List.getElem?_eq_none (by simp; omega), List.getElem?_eq_none (by simp; omega)]

/-- All elements different. -/
def allDistinct : List Nat → Bool
  | [] => true
  | x :: xs => xs.all (fun y => !(Nat.beq x y)) && allDistinct xs

theorem allDistinct_sound (l : List Nat) (h : allDistinct l = true) (i j : Nat) (hij : i < j) (hj : j < l.length) :
    l[i] ≠ l[j] := by
  induction l generalizing i j with
  | nil => simp at hj
  | cons x xs ih =>
    simp only [allDistinct, Bool.and_eq_true, List.all_eq_true, Bool.not_eq_true'] at h
    match i, j, hij with
    | 0, j + 1, _ =>
      have := h.1 (xs[j]'(by simpa using hj)) (List.getElem_mem _)
      intro e
      simp only [List.getElem_cons_zero, List.getElem_cons_succ] at e
      rw [← e, Nat.beq_refl] at this
      contradiction
    | i + 1, j + 1, hij =>
      simp only [List.getElem_cons_succ]
      exact ih h.2 i j (by omega) (by simpa using hj)

theorem lfgS0Nat_distinct : allDistinct lfgS0Nat = true := by decide +kernel

theorem lfgS0Nat_lt : lfgS0Nat.all (fun x => Nat.blt x (2 ^ 64)) = true := by decide +kernel

theorem lfgS0_get (i : Nat) (h : i < 607) : lfgS0[i].toNat = lfgS0Nat[i]'(by rw [lfgS0Nat_length]; exact h) := by
  have h1 : lfgS0[i] = BitVec.ofNat 64 (lfgS0Nat[i]'(by rw [lfgS0Nat_length]; exact h)) := by
    unfold lfgS0
    rw [Vector.getElem_mk, List.getElem_toArray, List.getElem_map]
  rw [h1, BitVec.toNat_ofNat]
  apply Nat.mod_eq_of_lt
  have := List.all_eq_true.mp lfgS0Nat_lt (lfgS0Nat[i]'(by rw [lfgS0Nat_length]; exact h)) (List.getElem_mem _)
  exact Nat.blt_eq.mp this

/-- The table has no repeated word. -/
theorem lfgS0_inj (i j : Nat) (hi : i < 607) (hj : j < 607) (e : lfgS0[i] = lfgS0[j]) : i = j := by
  have e1 := congrArg BitVec.toNat e
  rw [lfgS0_get i hi, lfgS0_get j hj] at e1
  rcases Nat.lt_trichotomy i j with h | h | h
  · exact absurd e1 (allDistinct_sound _ lfgS0Nat_distinct i j h (by rw [lfgS0Nat_length]; exact hj))
  · exact h
  · exact absurd e1.symm (allDistinct_sound _ lfgS0Nat_distinct j i h (by rw [lfgS0Nat_length]; exact hi))

namespace LFG

theorem contrib_zero (iv : List Byte) (i k : Nat) (h : ∀ j < iv.length, (i + j + 334) % 607 ≠ k) :
    contrib i iv k = 0#64 := by
  induction iv generalizing i with
  | nil => rfl
  | cons v iv ih =>
    rw [contrib, if_neg (by simpa using h 0 (by simp)), ih (i + 1) (fun j hj => by
      rw [show i + 1 + j = i + (j + 1) by omega]; exact h (j + 1) (by simpa using hj))]
    simp

/-- With at most 607 bytes, each ring word receives the contribution of one byte. -/
theorem contrib_single (iv : List Byte) (i k j : Nat) (h607 : i + iv.length ≤ 607) (hj : j < iv.length)
    (hk : (i + j + 334) % 607 = k) :
    contrib i iv k = lfgS0[(iv[j].toNat + 256 * (i + j)) % 607]'(Nat.mod_lt _ (by decide)) := by
  induction iv generalizing i j with
  | nil => simp at hj
  | cons v iv ih =>
    simp only [List.length_cons] at h607 hj
    match j, hj, hk with
    | 0, _, hk =>
      rw [contrib, if_pos (by simpa using hk), contrib_zero iv (i + 1) k (fun j' hj' => by omega)]
      simp
    | j + 1, hj, hk =>
      rw [contrib, if_neg (by omega), ih (i + 1) j (by omega) (by omega) (by
        rw [show i + 1 + j = i + (j + 1) by omega]; exact hk)]
      simp only [BitVec.zero_add, List.getElem_cons_succ, show i + 1 + j = i + (j + 1) by omega]

end LFG

/-- C53, the part that holds: for ivs of the same length up to 607 bytes, every live byte matters. Two ivs that differ in
a live position give generators whose next 335 outputs are not the same. -/
theorem C53_LFG_live (iv iv' : List Byte) (hl : iv.length = iv'.length) (h607 : iv.length ≤ 607) (i : Nat)
    (hi : LfgLive i) (hne : iv[i]? ≠ iv'[i]?) (g g' s s' : LFG) (hs : g.seedIV iv = .ok s)
    (hs' : g'.seedIV iv' = .ok s') : ∃ xs ys t t', draws LFG.uint64 335 s = .ok (xs, t) ∧
      draws LFG.uint64 335 s' = .ok (ys, t') ∧ xs ≠ ys := by
  rw [LFG.seedIV_eq] at hs hs'
  have hs := (Except.ok.inj hs).symm
  have hs' := (Except.ok.inj hs').symm
  have i1 := LFG.inv_nexts 4856 _ (LFG.inv_seedStart iv)
  have i2 := LFG.inv_nexts 4856 _ (LFG.inv_seedStart iv')
  rw [← hs] at i1
  rw [← hs'] at i2
  refine ⟨_, _, _, _, LFG.draws_eq 335 s i1, LFG.draws_eq 335 s' i2, fun he => hne ?_⟩
  have hseq : ∀ k < 335, (LFG.seedStart iv).seq (5463 + k) = (LFG.seedStart iv').seq (5463 + k) := by
    intro k hk
    have h1 := congrArg (fun l => l[k]?) he
    simp only [List.getElem?_map, List.getElem?_range hk, Option.map_some, Option.some.injEq] at h1
    rw [hs, hs', LFG.seq_nexts, LFG.seq_nexts] at h1
    rwa [show 607 + k + 4856 = 5463 + k by omega] at h1
  by_cases hi' : i < iv.length
  · have hlt : i < 607 := by omega
    have hk : (i + 334) % 607 < 335 := by unfold LfgLive at hi; omega
    have h2 := LFG.seq_back _ _ 5463 hseq (272 + (i + 334) % 607) (by omega) (by omega)
    have hlt2 : 272 + (i + 334) % 607 < 607 := by omega
    rw [LFG.seq_lt _ hlt2, LFG.seq_lt _ hlt2, LFG.seedStart_hist _ _ (by omega) hlt2,
      LFG.seedStart_hist _ _ (by omega) hlt2] at h2
    simp only [Nat.add_sub_cancel_left] at h2
    rw [LFG.contrib_single iv 0 _ i (by omega) hi' (by rw [Nat.zero_add]),
      LFG.contrib_single iv' 0 _ i (by omega) (by omega) (by rw [Nat.zero_add])] at h2
    have e4 : ∀ a b c : U64, a + b = a + c → b = c := fun a b c h => by
      have := congrArg (· - a) h
      simp only [BitVec.add_comm a, BitVec.add_sub_cancel] at this
      exact this
    have h3 := lfgS0_inj _ _ (Nat.mod_lt _ (by decide)) (Nat.mod_lt _ (by decide)) (e4 _ _ _ h2)
    rw [List.getElem?_eq_getElem hi', List.getElem?_eq_getElem (by omega)]
    have hb1 := (iv[i]'hi').isLt
    have hb2 := (iv'[i]'(by omega)).isLt
    refine congrArg some (BitVec.eq_of_toNat_eq ?_)
    omega
  · rw [List.getElem?_eq_none (by omega), List.getElem?_eq_none (by omega)]

theorem LFG.contrib_append (u v : List Byte) (i k : Nat) : LFG.contrib i (u ++ v) k = LFG.contrib i u k + LFG.contrib (i + u.length) v k := by
  induction u generalizing i with
  | nil => rw [List.nil_append, LFG.contrib, List.length_nil, Nat.add_zero, BitVec.zero_add]
  | cons x u ih =>
    rw [List.cons_append, LFG.contrib, LFG.contrib, ih, List.length_cons, BitVec.add_assoc, show i + (u.length + 1) = i + 1 + u.length by omega]

/-- C53: in ivs of any length, changing one live byte changes the first 335 outputs. -/
theorem C53_LFG_one_byte (u v : List Byte) (b b' : Byte) (hi : LfgLive u.length) (hne : b ≠ b') (g g' s s' : LFG)
    (hs : g.seedIV (u ++ b :: v) = .ok s) (hs' : g'.seedIV (u ++ b' :: v) = .ok s') :
    ∃ xs ys t t', draws LFG.uint64 335 s = .ok (xs, t) ∧ draws LFG.uint64 335 s' = .ok (ys, t') ∧ xs ≠ ys := by
  rw [LFG.seedIV_eq] at hs hs'
  have hs := (Except.ok.inj hs).symm
  have hs' := (Except.ok.inj hs').symm
  have i1 := LFG.inv_nexts 4856 _ (LFG.inv_seedStart (u ++ b :: v))
  have i2 := LFG.inv_nexts 4856 _ (LFG.inv_seedStart (u ++ b' :: v))
  rw [← hs] at i1
  rw [← hs'] at i2
  refine ⟨_, _, _, _, LFG.draws_eq 335 s i1, LFG.draws_eq 335 s' i2, fun he => hne ?_⟩
  have hseq : ∀ k < 335, (LFG.seedStart (u ++ b :: v)).seq (5463 + k) = (LFG.seedStart (u ++ b' :: v)).seq (5463 + k) := by
    intro k hk
    have h1 := congrArg (fun l => l[k]?) he
    simp only [List.getElem?_map, List.getElem?_range hk, Option.map_some, Option.some.injEq] at h1
    rw [hs, hs', LFG.seq_nexts, LFG.seq_nexts] at h1
    rwa [show 607 + k + 4856 = 5463 + k by omega] at h1
  have hk : (u.length + 334) % 607 < 335 := by unfold LfgLive at hi; omega
  have h2 := LFG.seq_back _ _ 5463 hseq (272 + (u.length + 334) % 607) (by omega) (by omega)
  have hlt2 : 272 + (u.length + 334) % 607 < 607 := by omega
  rw [LFG.seq_lt _ hlt2, LFG.seq_lt _ hlt2, LFG.seedStart_hist _ _ (by omega) hlt2,
    LFG.seedStart_hist _ _ (by omega) hlt2] at h2
  simp only [Nat.add_sub_cancel_left] at h2
  rw [LFG.contrib_append, LFG.contrib_append, LFG.contrib, LFG.contrib, if_pos (by rw [Nat.zero_add]), if_pos (by rw [Nat.zero_add])] at h2
  have e4 : ∀ a b c d e : U64, a + (b + (c + d)) = a + (b + (e + d)) → c = e := fun a b c d e h => by bv_omega
  have h3 := lfgS0_inj _ _ (Nat.mod_lt _ (by decide)) (Nat.mod_lt _ (by decide)) (e4 _ _ _ _ _ h2)
  have hb1 := b.isLt
  have hb2 := b'.isLt
  refine BitVec.eq_of_toNat_eq ?_
  omega

/-- Non-vacuity of C53: two different ivs with the same live bytes, and two that differ in a live byte. -/
example : (∀ i, LfgLive i → [1#8, 2#8][i]? = [1#8, 3#8][i]?) ∧ [1#8, 2#8] ≠ [1#8, 3#8] ∧
    LfgLive 0 ∧ [1#8, 2#8][0]? ≠ [7#8, 2#8][0]? := by
  refine ⟨fun i hi => ?_, by decide, by unfold LfgLive; omega, by decide⟩
  match i with
  | 0 => rfl
  | 1 => unfold LfgLive at hi; omega
  | i + 2 => rfl

/-! ### C54 -/

/-- C54, what the code does: from every state a `NewLFG` generator can get into, the outputs satisfy
`x[n] = x[n-1] + x[n-335]` modulo 2^64. -/
theorem C54_LFG_recurrence (g : LFG) (hg : Reachable LFG.methods.api LFG.new g) (n : Nat) :
    ∃ xs s, draws LFG.uint64 n g = .ok (xs, s) ∧ xs.length = n ∧
      ∀ k (_ : 335 ≤ k) (_ : k < n), ∃ a b c, xs[k]? = some a ∧ xs[k - 1]? = some b ∧ xs[k - 335]? = some c ∧
        a = b + c := by
  have hi := LFG.safe.reachable LFG.inv_new hg
  refine ⟨_, _, LFG.draws_eq n g hi, by simp, fun k h1 h2 => ?_⟩
  have hx : ∀ j < n, ((List.range n).map (fun k => g.seq (607 + k)))[j]? = some (g.seq (607 + j)) := by
    intro j hj
    simp only [List.getElem?_map, List.getElem?_range hj, Option.map_some]
  refine ⟨_, _, _, hx k h2, hx _ (by omega), hx _ (by omega), ?_⟩
  rw [LFG.seq_ge _ (by omega), show 607 + k - 1 = 607 + (k - 1) by omega,
    show 607 + k - 335 = 607 + (k - 335) by omega]

end Crazy
