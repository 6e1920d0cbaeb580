/-
C124: ivs of more than 312 bytes for `MT64.SeedIV`.
-/
import Verif.Props.MtArray
import Verif.Props.RandomSeed
import Verif.Props.SeedAlive
namespace Crazy
namespace MT64

/-- Number of bytes of the padded `iv`, at least 312: how often `SeedIV` mixes in a word of the key. -/
theorem seedIV_arr (iv : List Byte) (h0 : iv ≠ []) (key : List U64) (hk : zeroPad iv = bytesOf key) :
    ∃ s : Vector U64 312, (∀ g : MT64, g.seedIV iv = .ok { i := 312, s := s }) ∧ s[0] = s[311] ∧
      ∀ n, max 312 (8 * key.length) + 311 ≤ n → n < 311 + (max 312 (8 * key.length) + 311) →
        s[1 + n % 311]'(by omega) = MTRef.arr MTRef.mixCode key (max 312 (8 * key.length)) n := by
  have hpos : 0 < iv.length := List.length_pos_iff.mpr h0
  have hw : 0 < key.length := by
    have := congrArg List.length hk
    rw [zeroPad, List.length_append, bytesOf_length] at this
    omega
  obtain ⟨n1, hn1⟩ : ∃ n1, n1 = max 312 (8 * key.length) := ⟨_, rfl⟩
  rw [← hn1]
  obtain ⟨i1, s1, h1, a1⟩ := loop1_at key hw n1 n1 0 1 _ (at_start key n1) (Nat.zero_add _)
  obtain ⟨i2, s2, h2, a2⟩ := loop2_at key n1 311 n1 i1 s1 a1 (Nat.le_refl _)
  refine ⟨s2, fun g => ?_, a2.zero (Nat.le_add_left ..), fun n h3 h4 => a2.words n h3 h4⟩
  unfold seedIV
  rw [seed_eq]
  simp only [bind, Except.bind, pure, Except.pure]
  rw [if_neg (by omega), pad8_eq, hk]
  have hk2 : (if mt64N < (bytesOf key).length then (bytesOf key).length else mt64N) = n1 := by
    rw [bytesOf_length, hn1]
    show (if 312 < 8 * key.length then 8 * key.length else 312) = _
    split <;> omega
  rw [Nat.zero_mod] at h1
  rw [hk2, h1]
  simp only []
  rw [show mt64N - 1 = 311 from rfl, h2]

open MTRef in
/-- The second pass can be undone. -/
theorem arr_back (ws ws' : List U64) (n1 : Nat) (h0 : 0 < n1)
    (h : ∀ n, n1 + 311 ≤ n → n < 311 + (n1 + 311) → arr mixCode ws n1 n = arr mixCode ws' n1 n) (n : Nat) (h1 : n1 ≤ n) (h2 : n < n1 + 311) :
    arr mixCode ws n1 n = arr mixCode ws' n1 n := by
  have key : ∀ n, n1 ≤ n → n < n1 + 311 → arr mixCode ws n1 (310 + n) = arr mixCode ws' n1 (310 + n) → arr mixCode ws n1 n = arr mixCode ws' n1 n :=
    fun n h1 h2 h3 => by
      have h4 := h (311 + n) (by omega) (by omega)
      rw [arr_step, arr_step, if_neg (by omega), if_neg (by omega), if_neg (by omega), if_neg (by omega), h3] at h4
      exact mixStep_inj inv2 (sub_right_inj' _ h4)
  have h310 := key (n1 + 310) (by omega) (by omega) (h _ (by omega) (by omega))
  by_cases h3 : n = n1
  · subst h3
    refine key _ h1 h2 ?_
    rw [Nat.add_comm]
    exact h310
  · exact key n h1 h2 (h _ (by omega) (by omega))

open MTRef in
/-- From two neighbours of one run the key word, if the old word is known. -/
theorem arr_key (ws ws' : List U64) (hl : ws.length = ws'.length) (n1 t : Nat) (ht : t < n1) (h0 : arr mixCode ws n1 t = arr mixCode ws' n1 t)
    (h1 : arr mixCode ws n1 (310 + t) = arr mixCode ws' n1 (310 + t)) (h2 : arr mixCode ws n1 (311 + t) = arr mixCode ws' n1 (311 + t)) :
    ws.getD (t % ws.length) 0#64 = ws'.getD (t % ws.length) 0#64 := by
  rw [arr_step, arr_step, if_pos ht, if_pos ht, h0, h1, ← hl, BitVec.add_assoc, BitVec.add_assoc] at h2
  rw [BitVec.add_comm, BitVec.add_comm (mixCode _ _ _)] at h2
  exact add_right_inj' _ (add_right_inj' _ h2)

open MTRef in
theorem arr_const (ws ws' : List U64) (n1 n : Nat) (hn : n < 311) : arr mixCode ws n1 n = arr mixCode ws' n1 n := by
  rw [arr.eq_def mixCode ws, arr.eq_def mixCode ws', dif_pos hn, dif_pos hn]

open MTRef in
/-- And the old word, if the key word is known. -/
theorem arr_old (ws ws' : List U64) (hl : ws.length = ws'.length) (n1 t : Nat) (ht : t < n1)
    (h0 : ws.getD (t % ws.length) 0#64 = ws'.getD (t % ws.length) 0#64)
    (h1 : arr mixCode ws n1 (310 + t) = arr mixCode ws' n1 (310 + t)) (h2 : arr mixCode ws n1 (311 + t) = arr mixCode ws' n1 (311 + t)) :
    arr mixCode ws n1 t = arr mixCode ws' n1 t := by
  by_cases hz : t = 0
  · subst hz
    exact arr_const ws ws' n1 0 (by decide)
  · rw [arr_step, arr_step, if_pos ht, if_pos ht, if_neg hz, if_neg hz, h0, h1, ← hl, BitVec.add_assoc, BitVec.add_assoc] at h2
    exact mixStep_inj inv1 (add_right_inj' _ h2)

open MTRef in
/-- The words after the first pass determine a key of 39 to 77 words. -/
theorem key_inj (ws ws' : List U64) (hl : ws.length = ws'.length) (h39 : 39 ≤ ws.length) (h77 : ws.length ≤ 77)
    (h : ∀ n, 8 * ws.length ≤ n → n < 8 * ws.length + 311 → arr mixCode ws (8 * ws.length) n = arr mixCode ws' (8 * ws.length) n) : ws = ws' := by
  obtain ⟨W, hW⟩ : ∃ W, W = ws.length := ⟨_, rfl⟩
  rw [← hW] at h h39 h77
  have hc : ∀ n < 311, arr mixCode ws (8 * W) n = arr mixCode ws' (8 * W) n := fun n hn => arr_const ws ws' (8 * W) n hn
  have hQ : ∀ s ≤ 310, ws.getD (s % W) 0#64 = ws'.getD (s % W) 0#64 := by
    have hA : ∀ s ≤ 310, 8 * W ≤ s + 310 → ws.getD (s % W) 0#64 = ws'.getD (s % W) 0#64 := fun s hs h1 => by
      have := arr_key ws ws' hl (8 * W) s (by omega) (hc s (by omega)) (h _ (by omega) (by omega)) (h _ (by omega) (by omega))
      rwa [← hW] at this
    have hB : arr mixCode ws (8 * W) (8 * W - 1) = arr mixCode ws' (8 * W) (8 * W - 1) := by
      refine arr_old ws ws' hl (8 * W) _ (by omega) ?_ (h _ (by omega) (by omega)) (h _ (by omega) (by omega))
      have := hA (4 * W - 1) (by omega) (by omega)
      rw [← hW]
      rwa [show (8 * W - 1) % W = (4 * W - 1) % W by
        rw [show 8 * W - 1 = 4 * W - 1 + W * 4 by omega, Nat.add_mul_mod_self_left]]
    intro s hs
    induction hd : 310 - s using Nat.strong_induction_on generalizing s with
    | _ d ih =>
      by_cases h1 : 8 * W ≤ s + 310
      · exact hA s hs h1
      by_cases h2 : s + 311 = 8 * W
      · have := arr_key ws ws' hl (8 * W) s (by omega) (hc s (by omega)) (by rw [show 310 + s = 8 * W - 1 by omega]; exact hB)
          (h _ (by omega) (by omega))
        rwa [← hW] at this
      have q1 := ih (310 - (s + 311 - 4 * W)) (by omega) (s + 311 - 4 * W) (by omega) rfl
      have q2 := ih (310 - (s + 310 - 4 * W)) (by omega) (s + 310 - 4 * W) (by omega) rfl
      have p1 := arr_old ws ws' hl (8 * W) (311 + s) (by omega) (by
        rw [← hW, show 311 + s = s + 311 - 4 * W + W * 4 by omega, Nat.add_mul_mod_self_left]
        exact q1) (h _ (by omega) (by omega)) (h _ (by omega) (by omega))
      have p2 := arr_old ws ws' hl (8 * W) (310 + s) (by omega) (by
        rw [← hW, show 310 + s = s + 310 - 4 * W + W * 4 by omega, Nat.add_mul_mod_self_left]
        exact q2) (h _ (by omega) (by omega)) (h _ (by omega) (by omega))
      have := arr_key ws ws' hl (8 * W) s (by omega) (hc s (by omega)) p2 p1
      rwa [← hW] at this
  apply List.ext_getElem hl
  intro j h1 h2
  have := hQ j (by omega)
  rw [Nat.mod_eq_of_lt (by omega), List.getD_eq_getElem?_getD, List.getElem?_eq_getElem h1, List.getD_eq_getElem?_getD,
    List.getElem?_eq_getElem h2] at this
  exact this

theorem pad_words (iv : List Byte) : ∃ key : List U64, zeroPad iv = bytesOf key ∧ key.length = (iv.length + 7) / 8 := by
  have hl : (zeroPad iv).length = iv.length + (8 - iv.length % 8) % 8 := by rw [zeroPad, List.length_append, List.length_replicate]
  obtain ⟨key, hk⟩ := whole_words (zeroPad iv) (by omega)
  refine ⟨key, hk, ?_⟩
  have := congrArg List.length hk
  rw [bytesOf_length] at this
  omega

/-- Two states after `SeedIV` give different outputs among the first 312 if they are not equal. -/
theorem seedIV_apart (iv iv' : List Byte) (h0 : iv ≠ []) (h0' : iv' ≠ []) (g g' : MT64) :
    g.seedIV iv = g'.seedIV iv' ∨ ∃ s t, g.seedIV iv = .ok s ∧ g'.seedIV iv' = .ok t ∧ Apart MT64.uint64 312 s t := by
  obtain ⟨key, hk, -⟩ := pad_words iv
  obtain ⟨key', hk', -⟩ := pad_words iv'
  obtain ⟨s, hs, hz, -⟩ := seedIV_arr iv h0 key hk
  obtain ⟨t, ht, hz', -⟩ := seedIV_arr iv' h0' key' hk'
  by_cases hap : Apart MT64.uint64 312 (⟨312, s⟩ : MT64) ⟨312, t⟩
  · exact Or.inr ⟨_, _, hs g, ht g', hap⟩
  · left
    obtain ⟨h1, -⟩ := apart_blocks _ _ hap
    have hf : s = t := by
      apply Vector.ext
      intro m hm
      by_cases h2 : 1 ≤ m
      · exact h1 m h2 hm
      · obtain rfl : m = 0 := by omega
        rw [hz, hz', h1 311 (by decide) (by decide)]
    rw [hs, ht, hf]

end MT64

/-- C124: two ivs of at most 616 bytes with the same number of 8-byte words (a last partial word is filled up with zeros) that are not equal
after that seed different states, whatever the states before. -/
theorem C124_injective (iv iv' : List Byte) (hl : (iv.length + 7) / 8 = (iv'.length + 7) / 8) (h616 : iv.length ≤ 616)
    (hne : zeroPad iv ≠ zeroPad iv') (g g' : MT64) : g.seedIV iv ≠ g'.seedIV iv' := by
  by_cases h312 : iv.length ≤ 312
  · exact C63_MT64_injective iv iv' hl h312 hne g g'
  have h0 : iv ≠ [] := fun h => by rw [h] at h312; exact h312 (by decide)
  have h0' : iv' ≠ [] := fun h => by
    rw [h, List.length_nil] at hl
    omega
  obtain ⟨key, hk, hkl⟩ := MT64.pad_words iv
  obtain ⟨key', hk', hkl'⟩ := MT64.pad_words iv'
  obtain ⟨s, hs, -, hw⟩ := MT64.seedIV_arr iv h0 key hk
  obtain ⟨t, ht, -, hw'⟩ := MT64.seedIV_arr iv' h0' key' hk'
  have hm : max 312 (8 * key.length) = 8 * key.length := by omega
  have hm' : max 312 (8 * key'.length) = 8 * key.length := by omega
  simp only [hm] at hw
  simp only [hm'] at hw'
  intro h
  rw [hs, ht, Except.ok.injEq, MT64.mk.injEq] at h
  obtain rfl := h.2
  refine hne ?_
  rw [hk, hk', MT64.key_inj key key' (by omega) (by omega) (by omega) (MT64.arr_back key key' _ (by omega) fun n h1 h2 =>
    (hw n h1 h2).symm.trans (hw' n h1 h2))]

/-- C124: so the first 312 outputs differ somewhere. -/
theorem C124_apart (iv iv' : List Byte) (hl : (iv.length + 7) / 8 = (iv'.length + 7) / 8) (h616 : iv.length ≤ 616)
    (hne : zeroPad iv ≠ zeroPad iv') (g g' : MT64) : ∃ s t, g.seedIV iv = .ok s ∧ g'.seedIV iv' = .ok t ∧ Apart MT64.uint64 312 s t := by
  have h0 : iv ≠ [] ∧ iv' ≠ [] := by
    constructor
    all_goals
      rintro rfl
      rw [List.length_nil] at hl
      refine hne (congrArg zeroPad ?_)
      first
      | exact (List.length_eq_zero_iff.mp (by omega)).symm
      | exact List.length_eq_zero_iff.mp (by omega)
  exact (MT64.seedIV_apart iv iv' h0.1 h0.2 g g').resolve_left (C124_injective iv iv' hl h616 hne g g')

/-- C124: whatever the lengths, two runs after `SeedIV` either start from the same state or differ among their first 312 outputs. -/
theorem C124_dichotomy (iv iv' : List Byte) (h0 : iv ≠ []) (h0' : iv' ≠ []) (g g' : MT64) :
    g.seedIV iv = g'.seedIV iv' ∨ ∃ s t, g.seedIV iv = .ok s ∧ g'.seedIV iv' = .ok t ∧ Apart MT64.uint64 312 s t :=
  MT64.seedIV_apart iv iv' h0 h0' g g'

/-- C124: two MT64s seeded with the same number of random bytes, up to 616, have the same outputs only if the bytes are the same. -/
theorem C124_repeat (L : Nat) (h616 : L ≤ 616) (g : MT64) :
    probSeedings 2 L (fun v => ∃ s t, g.seedIV (v 0) = .ok s ∧ g.seedIV (v 1) = .ok t ∧ ShiftOf MT64.uint64 0 s t) = 1 / 256 ^ L := by
  refine probSeedings_two L L (le_refl L) (fun a b => ∃ s t, g.seedIV a = .ok s ∧ g.seedIV b = .ok t ∧ ShiftOf MT64.uint64 0 s t) fun a ha => ?_
  rw [Nat.sub_self, pow_zero]
  have hself : ∃ s t, g.seedIV a = .ok s ∧ g.seedIV a = .ok t ∧ ShiftOf MT64.uint64 0 s t := by
    obtain ⟨s, hs⟩ := MT64.seedIV_total a
    exact ⟨_, _, hs g, hs g, fun n x => by rw [Nat.zero_add]⟩
  refine Nat.card_eq_one_iff_exists.mpr ⟨⟨a, ha, hself⟩, fun b => Subtype.ext ?_⟩
  obtain ⟨b, hb, s, t, hs, ht, h⟩ := b
  by_contra hne
  have hne : b ≠ a := hne
  obtain ⟨s', t', hs', ht', n, -, x, y, h4, h5, h6⟩ := C124_apart a b (by rw [ha, hb]) (by omega)
    (fun he => hne (List.append_inj_left he (by rw [ha, hb])).symm) g g
  obtain rfl := Except.ok.inj (hs.symm.trans hs')
  obtain rfl := Except.ok.inj (ht.symm.trans ht')
  have h7 := (h n y).mp h5
  rw [Nat.zero_add] at h7
  exact h6 (((MT64.emits_one _ n x).mp h4).symm.trans ((MT64.emits_one _ n y).mp h7))

/-- C124, the limit: of the ivs of any one length over 2488 bytes two different ones seed the same state. -/
theorem C124_collision (L : Nat) (hL : 2489 ≤ L) (g : MT64) :
    ∃ iv iv' : List Byte, iv.length = L ∧ iv'.length = L ∧ iv ≠ iv' ∧ g.seedIV iv = g.seedIV iv' := by
  by_contra hno
  have hinj : ∀ iv iv' : List Byte, iv.length = L → iv'.length = L → g.seedIV iv = g.seedIV iv' → iv = iv' := fun iv iv' h1 h2 h3 => by
    by_contra hne
    exact hno ⟨iv, iv', h1, h2, hne, h3⟩
  have hst : ∀ iv : {iv : List Byte // iv.length = L}, ∃ s : Vector U64 312, (∀ g : MT64, g.seedIV iv.1 = .ok { i := 312, s := s }) ∧ s[0] = s[311] := fun iv => by
    obtain ⟨key, hk, -⟩ := MT64.pad_words iv.1
    obtain ⟨s, hs, hz, -⟩ := MT64.seedIV_arr iv.1 (fun h => by
      have := iv.2
      rw [h, List.length_nil] at this
      omega) key hk
    exact ⟨s, hs, hz⟩
  choose f hf hz using hst
  have hle := Nat.card_le_card_of_injective (fun (iv : {iv : List Byte // iv.length = L}) (i : Fin 311) => (f iv)[i.val + 1]'(by omega))
    fun a b e => Subtype.ext (hinj a.1 b.1 a.2 b.2 (by
      have he : f a = f b := by
        have hi : ∀ i, 1 ≤ i → ∀ hi : i < 312, (f a)[i] = (f b)[i] := fun i h1 hi => by
          have := congrFun e ⟨i - 1, by omega⟩
          simpa only [show i - 1 + 1 = i by omega] using this
        apply Vector.ext
        intro m hm
        by_cases h2 : 1 ≤ m
        · exact hi m h2 hm
        · obtain rfl : m = 0 := by omega
          rw [hz, hz, hi 311 (by decide) (by decide)]
      rw [hf, hf, he]))
  rw [card_bytes, Nat.card_fun, card_U64, Nat.card_eq_fintype_card (α := Fin 311), Fintype.card_fin, show (2 : Nat) ^ 64 = 256 ^ 8 by norm_num, ← pow_mul] at hle
  have := (Nat.pow_le_pow_iff_right (by norm_num)).mp hle
  omega

/-- C124: of the ivs of one length, up to 616 bytes, at most one leaves the generator in a dead state; the outputs after any other have the least
period `2^19937 - 1`. -/
theorem C124_alive (L : Nat) (h616 : L ≤ 616) : ∃ bad : List Byte, ∀ iv : List Byte, iv.length = L → iv ≠ bad → ∀ g : MT64,
    ∃ s, g.seedIV iv = .ok s ∧ ∀ q, OutputPeriod MT64.uint64 s q ↔ 2 ^ 19937 - 1 ∣ q := by
  have hgood : ∀ (s : MT64), s.Alive → s.Begun → ∀ q, OutputPeriod MT64.uint64 s q ↔ 2 ^ 19937 - 1 ∣ q := fun s h1 h2 q =>
    C61_MT64_period s h1 h2 q
  by_cases h312 : L ≤ 312
  · refine ⟨List.replicate (L + 1) 0#8, fun iv hl _ g => ?_⟩
    obtain ⟨s, hs, -, -, h⟩ := C67_MT64_SeedIV_alive iv (by omega) g
    exact ⟨s, hs, h⟩
  have hdead : ∀ iv : List Byte, iv.length = L → (∃ s : Vector U64 312, (∀ g : MT64, g.seedIV iv = .ok ⟨312, s⟩) ∧
      ((⟨312, s⟩ : MT64).Alive ∨ s = Vector.replicate 312 0#64)) := fun iv hl => by
    obtain ⟨key, hk, -⟩ := MT64.pad_words iv
    obtain ⟨s, hs, hz, -⟩ := MT64.seedIV_arr iv (fun h => by rw [h, List.length_nil] at hl; omega) key hk
    refine ⟨s, hs, ?_⟩
    by_cases ha : (⟨312, s⟩ : MT64).Alive
    · exact Or.inl ha
    · right
      have h1 : ∀ i, 1 ≤ i → ∀ hi : i < 312, s[i] = 0#64 := fun i h1 hi => Classical.byContradiction fun h => ha (Or.inr ⟨i, hi, h1, h⟩)
      apply Vector.ext
      intro m hm
      rw [Vector.getElem_replicate]
      by_cases h2 : 1 ≤ m
      · exact h1 m h2 hm
      · obtain rfl : m = 0 := by omega
        rw [hz, h1 311 (by decide) (by decide)]
  by_cases hb : ∃ bad : List Byte, bad.length = L ∧ ∀ g : MT64, g.seedIV bad = .ok ⟨312, Vector.replicate 312 0#64⟩
  · obtain ⟨bad, hbl, hbad⟩ := hb
    refine ⟨bad, fun iv hl hne g => ?_⟩
    obtain ⟨s, hs, ha⟩ := hdead iv hl
    rcases ha with ha | rfl
    · exact ⟨_, hs g, hgood _ ha (by show 1 ≤ 312; decide)⟩
    · exact absurd ((hs g).trans (hbad g).symm) (C124_injective iv bad (by rw [hl, hbl]) (by omega)
        (fun h => hne (List.append_inj_left h (by rw [hl, hbl]))) g g)
  · refine ⟨[], fun iv hl _ g => ?_⟩
    obtain ⟨s, hs, ha⟩ := hdead iv hl
    rcases ha with ha | rfl
    · exact ⟨_, hs g, hgood _ ha (by show 1 ≤ 312; decide)⟩
    · exact absurd ⟨iv, hl, hs⟩ hb

/-! ### Non-vacuity -/

/-- Two ivs of 616 bytes that differ in the last bit of the last byte. -/
example (g : MT64) : g.seedIV (List.replicate 615 7#8 ++ [0#8]) ≠ g.seedIV (List.replicate 615 7#8 ++ [128#8]) := by
  have hl : ∀ b : Byte, (List.replicate 615 7#8 ++ [b]).length = 616 := fun b => by
    rw [List.length_append, List.length_replicate]
    rfl
  refine C124_injective _ _ (by rw [hl, hl]) (hl _).le (fun h => ?_) g g
  have h1 := List.append_inj_left h (by rw [hl, hl])
  have h2 := List.append_cancel_left h1
  exact absurd h2 (by decide)

/-- Ivs as long as the array of 312 words. -/
example (g : MT64) : ∃ iv iv' : List Byte, iv.length = 2496 ∧ iv'.length = 2496 ∧ iv ≠ iv' ∧ g.seedIV iv = g.seedIV iv' :=
  C124_collision 2496 (by decide) g

end Crazy
