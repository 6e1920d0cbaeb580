/-
C79: what `MT64.SeedIV` does exactly.
-/
import Verif.Spec.MTSeed
import Verif.Props.MtSeed
import Verif.Props.MtRef
import Verif.Props.State
import Verif.Props.SeedRef
namespace Crazy
namespace MT64

/-- The array after `t` steps, and the position. -/
structure At (key : List U64) (n1 t i : Nat) (s : Vector U64 312) : Prop where
  idx : i = 1 + t % 311
  words : ∀ n, t ≤ n → n < 311 + t → s[1 + n % 311]'(by omega) = MTRef.arr MTRef.mixCode key n1 n
  prev : s[i - 1]'(by omega) = if t = 0 then MTRef.x 19650218#64 0 else MTRef.arr MTRef.mixCode key n1 (310 + t)
  zero : 311 ≤ t → s[0] = s[311]

theorem At.step {key : List U64} {n1 t i : Nat} {s : Vector U64 312} (h : At key n1 t i s) (x : U64)
    (hx : x = MTRef.arr MTRef.mixCode key n1 (311 + t)) : ∃ i' s', incI i (s.set i x (by have := h.idx; omega)) = .ok (i', s') ∧
      At key n1 (t + 1) i' s' := by
  have hi := h.idx
  by_cases hc : i = 311
  · subst hc
    refine ⟨1, _, incI_eq _, ⟨by omega, ?_, ?_, ?_⟩⟩
    · intro n h1 h2
      by_cases hn : n = 311 + t
      · subst hn
        simp only [show 1 + (311 + t) % 311 = 311 by omega, Vector.getElem_set, if_pos, if_neg (show ¬ 0 = 311 by omega), hx]
      · rw [← h.words n (by omega) (by omega)]
        simp only [Vector.getElem_set, if_neg (show ¬ 0 = 1 + n % 311 by omega), if_neg (show ¬ 311 = 1 + n % 311 by omega)]
    · rw [if_neg (by omega)]
      simp only [Nat.sub_self, Vector.getElem_set, if_pos, hx]
      exact congrArg _ (by omega)
    · intro _
      simp only [Vector.getElem_set, if_pos, if_neg (show ¬ 0 = 311 by omega)]
  · refine ⟨i + 1, _, incI_lt _ _ (by omega), ⟨by omega, ?_, ?_, ?_⟩⟩
    · intro n h1 h2
      by_cases hn : n = 311 + t
      · subst hn
        simp only [show 1 + (311 + t) % 311 = i by omega, Vector.getElem_set, if_pos, hx]
      · rw [← h.words n (by omega) (by omega)]
        simp only [Vector.getElem_set, if_neg (show ¬ i = 1 + n % 311 by omega)]
    · rw [if_neg (by omega)]
      simp only [Nat.add_sub_cancel, Vector.getElem_set, if_pos, hx]
      exact congrArg _ (by omega)
    · intro ht
      simp only [Vector.getElem_set, if_neg (show ¬ i = 0 by omega), if_neg hc]
      by_cases h3 : t = 310
      · omega
      · exact h.zero (by omega)

theorem At.old {key : List U64} {n1 t i : Nat} {s : Vector U64 312} (h : At key n1 t i s) (hi : i < 312) :
    s[i] = MTRef.arr MTRef.mixCode key n1 t := by
  rw [← h.words t (by omega) (by omega)]
  simp only [h.idx]

theorem arr_step (key : List U64) (n1 t : Nat) : MTRef.arr MTRef.mixCode key n1 (311 + t) =
    if t < n1 then MTRef.mixCode 3935559000370003845#64 (MTRef.arr MTRef.mixCode key n1 t)
        (if t = 0 then MTRef.x 19650218#64 0 else MTRef.arr MTRef.mixCode key n1 (310 + t)) +
      key.getD (t % key.length) 0#64 + BitVec.ofNat 64 (t % key.length)
    else MTRef.mixCode 2862933555777941757#64 (MTRef.arr MTRef.mixCode key n1 t)
        (if t = 0 then MTRef.x 19650218#64 0 else MTRef.arr MTRef.mixCode key n1 (310 + t)) - BitVec.ofNat 64 (1 + t % 311) := by
  rw [MTRef.arr, dif_neg (by omega)]
  simp only [show 311 + t - 311 = t by omega, show 311 + t - 1 = 310 + t by omega, show (311 + t = 311) = (t = 0) by
    rw [eq_iff_iff]; omega, show (311 + t) % 311 = t % 311 by omega]

theorem loop1_at (ws : List U64) (hw : 0 < ws.length) (n1 k t i : Nat) (s : Vector U64 312) (h : At ws n1 t i s) (hk : t + k = n1) :
    ∃ i' s', seedLoop1 (bytesOf ws) k i (t % ws.length) s = .ok (i', s') ∧ At ws n1 n1 i' s' := by
  induction k generalizing t i s with
  | zero => exact ⟨i, s, rfl, by rw [Nat.add_zero] at hk; rw [← hk] at h ⊢; exact h⟩
  | succ k ih =>
    have hi := h.idx
    have hi2 : i < 312 := by omega
    obtain ⟨i', s', h1, h2⟩ := h.step (mixStep 3935559000370003845#64 s[i] s[i - 1] + keyAdd ws (t % ws.length)) (by
      rw [arr_step, if_pos (by omega), h.old hi2, h.prev, keyAdd, ← BitVec.add_assoc]
      rfl)
    obtain ⟨i'', s'', h3, h4⟩ := ih (t + 1) i' s' h2 (by omega)
    refine ⟨i'', s'', ?_, h4⟩
    rw [loop1_step ws k i _ s (by omega) hi2 (Nat.mod_lt _ hw), h1, ← h3]
    simp only [bind, Except.bind, Nat.mod_add_mod]

theorem loop2_at (ws : List U64) (n1 k t i : Nat) (s : Vector U64 312) (h : At ws n1 t i s) (hk : n1 ≤ t) :
    ∃ i' s', seedLoop2 k i s = .ok (i', s') ∧ At ws n1 (t + k) i' s' := by
  induction k generalizing t i s with
  | zero => exact ⟨i, s, rfl, h⟩
  | succ k ih =>
    have hi := h.idx
    have hi2 : i < 312 := by omega
    obtain ⟨i', s', h1, h2⟩ := h.step (mixStep 2862933555777941757#64 s[i] s[i - 1] - BitVec.ofNat 64 i) (by
      rw [arr_step, if_neg (by omega), h.old hi2, h.prev, ← hi]
      rfl)
    obtain ⟨i'', s'', h3, h4⟩ := ih (t + 1) i' s' h2 (by omega)
    refine ⟨i'', s'', ?_, by rw [show t + (k + 1) = t + 1 + k by omega]; exact h4⟩
    rw [loop2_step k i s (by omega) hi2, h1, ← h3]
    rfl

theorem at_start (ws : List U64) (n1 : Nat) : At ws n1 0 1 (Vector.ofFn fun i : Fin 312 => seedSeq 19650218#64 i) := by
  refine ⟨rfl, ?_, ?_, fun h => by omega⟩
  · intro n _ hn
    rw [MTRef.arr, dif_pos (by omega), Vector.getElem_ofFn, seedSeq_ref _ _ (by omega)]
    exact congrArg _ (by show 1 + n % 311 = n + 1; omega)
  · rw [if_pos rfl, Vector.getElem_ofFn, seedSeq_ref _ _ (by omega)]

theorem gen_seq (s : Vector U64 312) (w : Nat → U64) (h : ∀ i (h : i < 312), w i = s[i]) (i : Nat) : seq s i = MTRef.gen w i := by
  induction i using Nat.strongRecOn with
  | ind i ih =>
    by_cases h3 : i < 312
    · rw [seq_lt _ h3, MTRef.gen, if_pos h3, h i h3]
    · obtain ⟨k, rfl⟩ : ∃ k, i = k + 312 := ⟨i - 312, by omega⟩
      rw [seq_ge, ih _ (by omega), ih _ (by omega), ih _ (by omega), MTRef.gen.eq_def w (k + 312), if_neg (by omega),
        twist_eq, show k + 312 - 156 = k + 156 by omega, show k + 312 - 312 = k by omega,
        show k + 312 - 311 = k + 1 by omega]

end MT64

/-- C79: with an empty `iv`, `SeedIV` is `Seed(19650218)`. -/
theorem C79_MT64_empty (g : MT64) : g.seedIV [] = g.seed 19650218#64 := by
  unfold MT64.seedIV
  rw [MT64.seed_eq]
  rfl

/-- C79: otherwise let `key` be the words of `iv`, filled up with zeros. `SeedIV` succeeds on any generator. With `n1` the number of bytes of
these words, or 312 if that is more, the words of the array that `Save` shows are: at positions 1 to 311, the last 311 words of the sequence
`MTRef.arr` of `n1` words from the key and 311 more, each at the position it was computed for; at position 0, the same word as at
position 311. The last two bytes saved are the index 312. -/
theorem C79_MT64_words (iv : List Byte) (h0 : iv ≠ []) (key : List U64)
    (hk : iv ++ List.replicate ((8 - iv.length % 8) % 8) 0#8 = bytesOf key) (g : MT64) :
    ∃ s w, g.seedIV iv = .ok s ∧ SavesAs MT64.methods.api s (bytesOf ((List.range 312).map w) ++ [1#8, 56#8]) ∧ w 0 = w 311 ∧
      ∀ n, max 312 (8 * key.length) + 311 ≤ n → n < max 312 (8 * key.length) + 622 →
        w (1 + n % 311) = MTRef.arr MTRef.mixCode key (max 312 (8 * key.length)) n := by
  have hpos : 0 < iv.length := List.length_pos_iff.mpr h0
  have hw : 0 < key.length := by
    have := congrArg List.length hk
    rw [List.length_append, bytesOf_length] at this
    omega
  obtain ⟨n1, hn1⟩ : ∃ n1, n1 = max 312 (8 * key.length) := ⟨_, rfl⟩
  rw [← hn1]
  obtain ⟨i1, s1, h1, a1⟩ := MT64.loop1_at key hw n1 n1 0 1 _ (MT64.at_start key n1) (Nat.zero_add _)
  obtain ⟨i2, s2, h2, a2⟩ := MT64.loop2_at key n1 311 n1 i1 s1 a1 (Nat.le_refl _)
  have hget : ∀ i (h : i < 312), s2.toList.getD i 0#64 = s2[i] := by
    intro i h
    rw [List.getD_eq_getElem?_getD, List.getElem?_eq_getElem (by rw [Vector.length_toList]; exact h)]
    rfl
  refine ⟨{ i := 312, s := s2 }, fun i => s2.toList.getD i 0#64, ?_, ?_, ?_, ?_⟩
  · unfold MT64.seedIV
    rw [MT64.seed_eq]
    simp only [bind, Except.bind, pure, Except.pure]
    rw [if_neg (by omega), MT64.pad8_eq, zeroPad, hk]
    have hk2 : (if mt64N < (bytesOf key).length then (bytesOf key).length else mt64N) = n1 := by
      rw [bytesOf_length, hn1]
      show (if 312 < 8 * key.length then 8 * key.length else 312) = _
      split <;> omega
    rw [Nat.zero_mod] at h1
    rw [hk2, h1]
    simp only []
    rw [show mt64N - 1 = 311 from rfl, h2]
  · refine savesAs_of _ _ _ ((MT64.save_eq _).trans ?_)
    refine congrArg Except.ok ?_
    refine congrArg₂ (· ++ ·) (congrArg _ ?_) (show [BitVec.ofNat 8 (312 >>> 8), BitVec.ofNat 8 312] = [1#8, 56#8] by decide)
    apply List.ext_getElem
    · simp
    · intro i hi _
      have hi' : i < 312 := by simpa using hi
      rw [List.getElem_map, List.getElem_range, hget i hi', Vector.getElem_toList]
  · show s2.toList.getD 0 0#64 = s2.toList.getD 311 0#64
    rw [hget 0 (by decide), hget 311 (by decide)]
    exact a2.zero (Nat.le_add_left ..)
  · intro n h3 h4
    show s2.toList.getD (1 + n % 311) 0#64 = _
    rw [hget _ (by omega)]
    have h5 : n < 311 + (n1 + 311) := Nat.lt_of_lt_of_eq h4 (by rw [Nat.add_comm 311, Nat.add_assoc])
    exact a2.words n h3 h5

/-- C79: and the outputs that follow are those of the Mersenne Twister from these words. -/
theorem C79_MT64_outputs (s : MT64) (w : Nat → U64)
    (h : SavesAs MT64.methods.api s (bytesOf ((List.range 312).map w) ++ [1#8, 56#8])) (n : Nat) :
    ∃ t, draws MT64.uint64 n s = .ok ((List.range n).map fun k => MTRef.temper (MTRef.gen w (312 + k)), t) := by
  have e := savesAs_inj h (savesAs_of MT64.methods _ _ (MT64.save_eq s))
  obtain ⟨e1, e2⟩ := List.append_inj' e rfl
  simp only [List.cons.injEq, and_true] at e2
  have b1 := congrArg BitVec.toNat e2.1
  have b2 := congrArg BitVec.toNat e2.2
  rw [BitVec.toNat_ofNat, BitVec.toNat_ofNat, Nat.shiftRight_eq_div_pow] at b1
  rw [BitVec.toNat_ofNat, BitVec.toNat_ofNat] at b2
  have hp : s.pos = 312 := by
    unfold MT64.pos
    omega
  have hs : ∀ i (h : i < 312), w i = s.s[i] := by
    have := bytesOf_inj _ _ (by simp) e1
    intro i hi
    have h2 := congrArg (fun l => l[i]?) this
    simpa [hi] using h2
  refine ⟨MT64.nexts n s, (MT64.draws_eq n s).trans ?_⟩
  refine congrArg Except.ok (Prod.ext ?_ rfl)
  refine List.map_congr_left fun k _ => ?_
  rw [hp, MT64.gen_seq s.s w hs]
  rfl

end Crazy
