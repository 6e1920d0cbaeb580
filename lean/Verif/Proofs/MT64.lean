/-
The block regeneration of `MT64` as a linear recurrence.
-/
import Verif.Model.MT64
import Verif.Proofs.Words
namespace Crazy

theorem forIdx_inv {σ : Type} (n : Nat) (body : Nat → σ → Go σ) (f : Nat → σ)
    (h : ∀ i < n, body i (f i) = .ok (f (i + 1))) : forIdx n body (f 0) = .ok (f n) := by
  induction n with
  | zero => rfl
  | succ n ih =>
    rw [forIdx, ih (fun i hi => h i (by omega))]
    exact h n (by omega)

theorem aget_lt {n : Nat} (a : Vector U64 n) {i : Nat} (h : i < n) : aget a i = .ok a[i] := dif_pos h
theorem aset_lt {n : Nat} (a : Vector U64 n) {i : Nat} (x : U64) (h : i < n) :
    aset a i x = .ok (a.set i x h) := dif_pos h

namespace MT64

/-- The word sequence a block starts. -/
def seq (s : Vector U64 312) (n : Nat) : U64 :=
  if h : n < 312 then s[n] else seq s (n - 156) ^^^ twist (seq s (n - 312)) (seq s (n - 311))
termination_by n

theorem seq_lt (s : Vector U64 312) {n : Nat} (h : n < 312) : seq s n = s[n] := by
  rw [seq, dif_pos h]

theorem seq_ge (s : Vector U64 312) (n : Nat) :
    seq s (n + 312) = seq s (n + 156) ^^^ twist (seq s n) (seq s (n + 1)) := by
  rw [seq, dif_neg (by omega), show n + 312 - 156 = n + 156 by omega, show n + 312 - 312 = n by omega,
    show n + 312 - 311 = n + 1 by omega]

/-- Mid-regeneration block: the first `k` words already replaced. -/
def blend (s : Vector U64 312) (k : Nat) : Vector U64 312 :=
  Vector.ofFn fun i : Fin 312 => if i.val < k then seq s (i.val + 312) else seq s i.val

theorem blend_get (s : Vector U64 312) (k i : Nat) (h : i < 312) :
    (blend s k)[i] = if i < k then seq s (i + 312) else seq s i := by
  simp only [blend, Vector.getElem_ofFn]

theorem blend_set (s : Vector U64 312) (k : Nat) (h : k < 312) (x : U64) (hx : x = seq s (k + 312)) :
    (blend s k).set k x h = blend s (k + 1) := by
  apply Vector.ext; intro i hi
  rw [Vector.getElem_set, blend_get _ _ _ hi, blend_get _ _ _ hi]
  split
  · subst_vars; rw [if_pos (by omega)]
  · split <;> rename_i h2
    · rw [if_pos (by omega)]
    · rw [if_neg (by omega)]

theorem blend_zero (s : Vector U64 312) : blend s 0 = s := by
  apply Vector.ext; intro i hi
  rw [blend_get _ _ _ hi, if_neg (by omega), seq_lt]

theorem regen_eq (s : Vector U64 312) : regen s = .ok (blend s 312) := by
  have l1 := forIdx_inv (mt64N - mt64M) (fun i s => do
    let x := twist (← aget s i) (← aget s (i + 1))
    aset s i ((← aget s (i + mt64M)) ^^^ x)) (fun k => blend s k) (by
      intro i hi
      have hi : i < 156 := hi
      have hM : mt64M = 156 := rfl
      simp only [hM]
      rw [aget_lt _ (show i < 312 by omega), aget_lt _ (show i + 1 < 312 by omega),
        aget_lt _ (show i + 156 < 312 by omega)]
      simp only [bind, Except.bind]
      rw [aset_lt _ _ (show i < 312 by omega)]
      refine congrArg Except.ok (blend_set s i _ _ ?_)
      rw [blend_get _ _ _ (show i < 312 by omega), blend_get _ _ _ (show i + 1 < 312 by omega),
        blend_get _ _ _ (show i + 156 < 312 by omega), if_neg (by omega), if_neg (by omega),
        if_neg (by omega), seq_ge])
  have l2 := forIdx_inv (mt64N - 1 - (mt64N - mt64M)) (fun k s => do
    let i := mt64N - mt64M + k
    let x := twist (← aget s i) (← aget s (i + 1))
    aset s i ((← aget s (i - (mt64N - mt64M))) ^^^ x)) (fun k => blend s (156 + k)) (by
      intro k hk
      have hk : k < 155 := hk
      have hM : mt64N - mt64M = 156 := rfl
      simp only [hM]
      rw [aget_lt _ (show 156 + k < 312 by omega), aget_lt _ (show 156 + k + 1 < 312 by omega),
        aget_lt _ (show 156 + k - 156 < 312 by omega)]
      simp only [bind, Except.bind]
      rw [aset_lt _ _ (show 156 + k < 312 by omega)]
      refine congrArg Except.ok (blend_set s (156 + k) _ _ ?_)
      rw [blend_get _ _ _ (show 156 + k < 312 by omega), blend_get _ _ _ (show 156 + k + 1 < 312 by omega),
        blend_get _ _ _ (show 156 + k - 156 < 312 by omega),
        if_neg (show ¬ 156 + k < 156 + k by omega), if_neg (show ¬ 156 + k + 1 < 156 + k by omega),
        if_pos (show 156 + k - 156 < 156 + k by omega), seq_ge s (156 + k),
        show 156 + k - 156 + 312 = 156 + k + 156 by omega])
  simp only [blend_zero] at l1
  unfold regen
  rw [l1]
  simp only [bind, Except.bind] at l2 ⊢
  rw [show mt64N - mt64M = 156 + 0 from rfl]
  rw [show mt64N - mt64M = 156 + 0 from rfl] at l2
  rw [l2]
  simp only []
  rw [show mt64N - 1 = 311 from rfl, show mt64M - 1 = 155 from rfl,
    show 311 - (156 + 0) = 155 from rfl, show 156 + 155 = 311 from rfl,
    aget_lt _ (show 311 < 312 by omega), aget_lt _ (show 0 < 312 by omega),
    aget_lt _ (show 155 < 312 by omega)]
  simp only []
  rw [aset_lt _ _ (show 311 < 312 by omega)]
  refine congrArg Except.ok (blend_set s 311 _ _ ?_)
  rw [blend_get _ _ _ (show 311 < 312 by omega), blend_get _ _ _ (show 0 < 312 by omega),
    blend_get _ _ _ (show 155 < 312 by omega), if_neg (show ¬ 311 < 311 by omega),
    if_pos (show 0 < 311 by omega), if_pos (show 155 < 311 by omega),
    seq_ge s 311]

theorem seq_regen (s : Vector U64 312) (n : Nat) : seq (blend s 312) n = seq s (n + 312) := by
  induction n using Nat.strongRecOn with
  | ind n ih =>
    by_cases h : n < 312
    · rw [seq_lt _ h, blend_get _ _ _ h, if_pos h]
    · obtain ⟨k, rfl⟩ : ∃ k, n = k + 312 := ⟨n - 312, by omega⟩
      rw [seq_ge, seq_ge, ih _ (by omega), ih _ (by omega), ih _ (by omega),
        show k + 156 + 312 = k + 312 + 156 by omega, show k + 1 + 312 = k + 312 + 1 by omega]

/-- The state after one output. -/
def next (g : MT64) : MT64 :=
  if 312 ≤ g.i then { i := 1, s := blend g.s 312 } else { i := g.i + 1, s := g.s }

/-- Position of the next output in the word sequence. -/
def pos (g : MT64) : Nat := min g.i 312

theorem uint64_eq (g : MT64) : g.uint64 = .ok (temper (seq g.s g.pos), g.next) := by
  unfold uint64
  by_cases h : mt64N ≤ g.i
  · have h' : 312 ≤ g.i := h
    rw [if_pos h, regen_eq]
    simp only [bind, Except.bind, pure, Except.pure]
    rw [aget_lt _ (show 0 < 312 by omega)]
    simp only [next, if_pos h', pos, Nat.min_eq_right h']
    rw [blend_get _ _ _ (by omega), if_pos (by omega)]
  · have h' : ¬ 312 ≤ g.i := h
    rw [if_neg h]
    simp only [bind, Except.bind, pure, Except.pure]
    rw [aget_lt _ (show g.i < 312 by omega)]
    simp only [next, if_neg h', pos, Nat.min_eq_left (Nat.le_of_not_le h')]
    rw [seq_lt]

theorem seq_next (g : MT64) (k : Nat) : seq g.next.s (g.next.pos + k) = seq g.s (g.pos + (k + 1)) := by
  unfold next
  split
  · simp only [pos, seq_regen]; congr 1; omega
  · simp only [pos]; congr 1; omega

/-- `n` outputs later. -/
def nexts : Nat → MT64 → MT64
  | 0, g => g
  | n + 1, g => nexts n g.next

theorem draws_eq (n : Nat) (g : MT64) :
    draws uint64 n g = .ok ((List.range n).map (fun k => temper (seq g.s (g.pos + k))), nexts n g) := by
  induction n generalizing g with
  | zero => rfl
  | succ n ih =>
    simp only [draws, bind, Except.bind, pure, Except.pure, uint64_eq g, ih]
    refine congrArg Except.ok (Prod.ext ?_ rfl)
    simp only [List.range_succ_eq_map, List.map_cons, List.map_map]
    refine congrArg (_ :: ·) (List.map_congr_left ?_)
    intro k _
    simp only [Function.comp, seq_next]

/-- Reference seeding sequence. -/
def seedSeq (x : U64) : Nat → U64
  | 0 => x
  | n + 1 => 6364136223846793005#64 * (seedSeq x n ^^^ (seedSeq x n >>> 62)) + BitVec.ofNat 64 (n + 1)

theorem seed_eq (x : U64) (g : MT64) :
    g.seed x = .ok { i := 312, s := Vector.ofFn fun i : Fin 312 => seedSeq x i } := by
  have l := forIdx_inv (mt64N - 1) (fun k s => do
    let i := k + 1
    let p ← aget s (i - 1)
    aset s i (6364136223846793005#64 * (p ^^^ (p >>> 62)) + BitVec.ofNat 64 i))
    (fun k => Vector.ofFn fun i : Fin 312 => if i.val ≤ k then seedSeq x i else g.s[i]) (by
      intro k hk
      have hk : k < 311 := hk
      simp only [Nat.add_sub_cancel]
      rw [aget_lt _ (show k < 312 by omega)]
      simp only [bind, Except.bind]
      rw [aset_lt _ _ (show k + 1 < 312 by omega)]
      refine congrArg Except.ok ?_
      apply Vector.ext; intro i hi
      rw [Vector.getElem_set]
      simp only [Vector.getElem_ofFn, Nat.le_refl, if_true]
      split
      · subst_vars; rw [if_pos (by omega)]; rfl
      · split
        · rw [if_pos (by omega)]
        · rw [if_neg (by omega)])
  unfold seed
  rw [aset_lt _ _ (show 0 < 312 by omega)]
  have e0 : g.s.set 0 x (show 0 < 312 by omega)
      = Vector.ofFn fun i : Fin 312 => if i.val ≤ 0 then seedSeq x i else g.s[i] := by
    apply Vector.ext; intro i hi
    rw [Vector.getElem_set]
    simp only [Vector.getElem_ofFn]
    split
    · rename_i h0; cases h0; rw [if_pos (Nat.le_refl 0)]; rfl
    · rw [if_neg (by omega)]; rfl
  rw [e0]
  simp only [bind, Except.bind, pure, Except.pure] at l ⊢
  rw [l]
  refine congrArg (fun s => Except.ok (MT64.mk 312 s)) ?_
  apply Vector.ext; intro i hi
  simp only [Vector.getElem_ofFn]
  rw [if_pos (by show i ≤ 311; omega)]

theorem incI_total (i : Nat) (s : Vector U64 312) (h : i < 312) :
    ∃ i' s', incI i s = .ok (i', s') ∧ 1 ≤ i' ∧ i' < 312 := by
  unfold incI
  by_cases c : mt64N ≤ i + 1
  · rw [if_pos c]
    rw [aget_lt _ (show mt64N - 1 < 312 by decide)]
    simp only [bind, Except.bind, pure, Except.pure]
    rw [aset_lt _ _ (show 0 < 312 by omega)]
    exact ⟨1, _, rfl, by omega, by omega⟩
  · have c' : ¬ 312 ≤ i + 1 := c
    rw [if_neg c]
    exact ⟨i + 1, s, rfl, by omega, by omega⟩

theorem seedLoop1_total (iv : List Byte) (hiv : iv.length % 8 = 0) (h0 : 0 < iv.length) (k i j : Nat)
    (s : Vector U64 312) (hi : 1 ≤ i ∧ i < 312) (hj : j * 8 < iv.length) :
    ∃ i' s', seedLoop1 iv k i j s = .ok (i', s') ∧ 1 ≤ i' ∧ i' < 312 := by
  induction k generalizing i j s with
  | zero => exact ⟨i, s, rfl, hi⟩
  | succ k ih =>
    unfold seedLoop1
    rw [aget_lt _ hi.2, aget_lt _ (show i - 1 < 312 by omega)]
    have e : sliceFrom iv (j * 8) = .ok (iv.drop (j * 8)) := if_pos (by omega)
    obtain ⟨key, hkey, -⟩ := u64le_eq (iv.drop (j * 8)) (by rw [List.length_drop]; omega)
    simp only [bind, Except.bind]
    rw [e]; simp only []
    rw [hkey]; simp only []
    rw [aset_lt _ _ hi.2]; simp only []
    obtain ⟨i', s', h1, h2⟩ := incI_total i (s.set i ((s[i]'hi.2 ^^^ s[i - 1] ^^^ s[i - 1] >>> 62)
      * 3935559000370003845#64 + key + BitVec.ofNat 64 j) hi.2) hi.2
    rw [h1]; simp only []
    exact ih i' _ s' h2 (by split <;> omega)

theorem seedLoop2_total (k i : Nat) (s : Vector U64 312) (hi : 1 ≤ i ∧ i < 312) :
    ∃ i' s', seedLoop2 k i s = .ok (i', s') := by
  induction k generalizing i s with
  | zero => exact ⟨i, s, rfl⟩
  | succ k ih =>
    unfold seedLoop2
    rw [aget_lt _ hi.2, aget_lt _ (show i - 1 < 312 by omega)]
    simp only [bind, Except.bind]
    rw [aset_lt _ _ hi.2]; simp only []
    obtain ⟨i', s', h1, h2⟩ := incI_total i (s.set i ((s[i]'hi.2 ^^^ s[i - 1] ^^^ s[i - 1] >>> 62)
      * 2862933555777941757#64 - BitVec.ofNat 64 i) hi.2) hi.2
    rw [h1]; simp only []
    exact ih i' s' h2

theorem pad8_length (iv : List Byte) :
    (pad8 iv).length = (iv.length + 7) / 8 * 8 := by
  unfold pad8
  split
  · rw [copyInto_length, zeros_length]; omega
  · omega

theorem seedIV_total (iv : List Byte) : ∃ s, ∀ g, seedIV iv g = .ok { i := 312, s := s } := by
  unfold seedIV
  simp only [seed_eq, bind, Except.bind, pure, Except.pure]
  by_cases h : iv.length = 0
  · exact ⟨_, fun g => by rw [if_pos h]⟩
  · simp only [if_neg h]
    have hl := pad8_length iv
    obtain ⟨i', s', h1, h2⟩ := seedLoop1_total (pad8 iv) (by omega) (by omega)
      (if mt64N < (pad8 iv).length then (pad8 iv).length else mt64N) 1 0
      (Vector.ofFn fun i : Fin 312 => seedSeq 19650218#64 i) (by omega) (by omega)
    obtain ⟨i'', s'', h3⟩ := seedLoop2_total (mt64N - 1) i' s' h2
    rw [h1]; simp only []; rw [h3]
    exact ⟨s'', fun _ => rfl⟩

/-- Invariant of every `MT64`: the index fits the two bytes that `Save` gives it. -/
def Inv (g : MT64) : Prop := g.i < 65536

theorem inv_new : Inv new := by show 0 < 65536; decide

theorem inv_next (g : MT64) : Inv g.next := by
  unfold next Inv; split <;> simp only <;> omega

theorem inv_nexts (n : Nat) (g : MT64) (h : Inv g) : Inv (nexts n g) := by
  induction n generalizing g with
  | zero => exact h
  | succ n ih => exact ih _ (inv_next g)

theorem save_eq (g : MT64) :
    g.save = .ok (bytesOf g.s.toList ++ [BitVec.ofNat 8 (g.i >>> 8), BitVec.ofNat 8 g.i]) := by
  have h1 := forRange_putAt 0 g.s.toList 0 (zeros (2 + mt64N * 8)) (by
    rw [zeros_length, Vector.length_toList]; decide)
  simp only [Nat.zero_add, Nat.mul_zero, List.take_zero, List.nil_append] at h1
  unfold save
  simp only []
  rw [h1]
  refine congrArg (fun l => Except.ok (l ++ _)) ?_
  have hN : mt64N * 8 = 8 * g.s.toList.length := by rw [Vector.length_toList]; rfl
  rw [List.take_append_of_le_length (by rw [bytesOf_length, hN]; exact Nat.le_refl _),
    List.take_of_length_le (by rw [bytesOf_length, hN]; exact Nat.le_refl _)]

theorem restore_ok (r : Reader) (g : MT64) (hn : (r.reply (2 + mt64N * 8)).err = none)
    (ws : List U64) (hws : ws.length = 312) (hi lo : Byte)
    (hb : (r.reply (2 + mt64N * 8)).buf = bytesOf ws ++ [hi, lo]) :
    g.restore r = .ok (((r.reply (2 + mt64N * 8)).n, none),
      { i := (hi.toNat <<< 8) ||| lo.toNat, s := ⟨ws.toArray, by simp [hws]⟩ }) := by
  unfold restore
  simp only []
  rw [if_neg (by rw [hn]; simp), hb]
  have := load_words (n := 312) ws hws [hi, lo] g.s
  simp only [bind, Except.bind] at this ⊢
  rw [show mt64N = 312 from rfl, this]
  have hd : (bytesOf ws ++ [hi, lo]).drop (312 * 8) = [hi, lo] := by
    rw [List.drop_append_of_le_length (by rw [bytesOf_length, hws]; decide), List.drop_eq_nil_of_le
      (by rw [bytesOf_length, hws]; decide)]; rfl
  simp only []
  rw [hd]
  rfl

theorem restore_err (r : Reader) (g : MT64) (hn : (r.reply (2 + mt64N * 8)).err ≠ none) :
    g.restore r = .ok (((r.reply (2 + mt64N * 8)).n, (r.reply (2 + mt64N * 8)).err), g) := by
  unfold restore
  simp only []
  rw [if_pos (by cases h : (r.reply (2 + mt64N * 8)).err <;> simp_all)]
  rfl

theorem buf_split (r : Reader) : ∃ ws : List U64, ws.length = 312 ∧ ∃ hi lo,
    (r.reply (2 + mt64N * 8)).buf = bytesOf ws ++ [hi, lo] := by
  have hl := r.len_buf (2 + mt64N * 8)
  obtain ⟨ws, hws, he⟩ := exists_words (r.reply (2 + mt64N * 8)).buf 312 (by rw [hl]; decide)
  have hlen : ((r.reply (2 + mt64N * 8)).buf.drop (8 * 312)).length = 2 := by
    rw [List.length_drop, hl]; rfl
  match h : (r.reply (2 + mt64N * 8)).buf.drop (8 * 312), hlen with
  | [hi, lo], _ => exact ⟨ws, hws, hi, lo, by rw [h] at he; exact he⟩

theorem restore_total (r : Reader) (g : MT64) (hg : Inv g) :
    ∃ x g', g.restore r = .ok (x, g') ∧ Inv g' := by
  by_cases hn : (r.reply (2 + mt64N * 8)).err = none
  · obtain ⟨ws, hws, hi, lo, hb⟩ := buf_split r
    refine ⟨_, _, restore_ok r g hn ws hws hi lo hb, ?_⟩
    show hi.toNat <<< 8 ||| lo.toNat < 2 ^ 16
    refine Nat.or_lt_two_pow ?_ (by omega)
    rw [Nat.shiftLeft_eq]; omega
  · exact ⟨_, _, restore_err r g hn, hg⟩

end MT64
end Crazy
