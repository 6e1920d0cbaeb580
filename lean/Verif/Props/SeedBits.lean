/-
C50, C52: which bits of the initialization vector `Xoroshiro.SeedIV` and `Xoshiro.SeedIV` use.
-/
import Verif.Proofs.XoInj
import Verif.Proofs.Gens
namespace Crazy

/-! ### C50: Xoroshiro (and Rexoroshiro, which delegates) -/

/-- C50: changing any one 8-byte block `m` of the iv (the last one may be shorter) changes the seeded state, whatever
the states before seeding were. -/
theorem C50_Xoroshiro_block (u m m' v : List Byte) (hu : 8 ∣ u.length) (hl : m.length = m'.length)
    (h8 : m.length ≤ 8) (hv : v ≠ [] → m.length = 8) (hne : m ≠ m') (g g' : Xoroshiro) :
    g.seedIV (u ++ m ++ v) ≠ g'.seedIV (u ++ m' ++ v) := by
  obtain ⟨ws, rfl⟩ := whole_words u hu
  by_cases hv0 : v = []
  · subst hv0
    have hm : m ≠ [] := by
      rintro rfl
      exact hne (List.length_eq_zero_iff.mp hl.symm).symm
    have hm' : m' ≠ [] := by
      rintro rfl
      exact hm (List.length_eq_zero_iff.mp hl)
    obtain ⟨p, hp⟩ := pad_word m h8
    obtain ⟨p', hp'⟩ := pad_word m' (by omega)
    rw [List.append_nil, List.append_nil, Xoroshiro.seedIV_words ws m hm h8 p hp,
      Xoroshiro.seedIV_words ws m' hm' (by omega) p' hp']
    intro h
    have h1 := smMix_inj (congrArg Xoroshiro.s0 (Except.ok.inj h))
    have h2 := xor_left_inj' _ (add_right_inj' _ h1)
    subst h2
    exact hne (pad_inj hl hp hp')
  · obtain ⟨x, rfl⟩ := pad_full (hv hv0)
    obtain ⟨y, rfl⟩ := pad_full (m := m') (by rw [← hl]; rfl)
    obtain ⟨wv, t, rfl, h0, h8, -⟩ := iv_split v hv0
    obtain ⟨p, hp⟩ := pad_word t h8
    have e : ∀ x, bytesOf ws ++ le64 x ++ (bytesOf wv ++ t) = bytesOf (ws ++ x :: wv) ++ t := by
      intro x
      rw [bytesOf_append, bytesOf_cons]
      simp only [List.append_assoc]
    rw [e, e, Xoroshiro.seedIV_words _ t h0 h8 p hp, Xoroshiro.seedIV_words _ t h0 h8 p hp]
    intro h
    have h1 := smMix_inj (congrArg Xoroshiro.s1 (Except.ok.inj h))
    have h2 := Xoroshiro.smAfter_mid (add_right_inj' _ h1)
    subst h2
    exact hne rfl

/-- C50: up to 16 bytes, different ivs of the same length give different states. -/
theorem C50_Xoroshiro_injective (iv iv' : List Byte) (hl : iv.length = iv'.length) (h16 : iv.length ≤ 16)
    (hne : iv ≠ iv') (g g' : Xoroshiro) : g.seedIV iv ≠ g'.seedIV iv' := by
  by_cases h8 : iv.length ≤ 8
  · have := C50_Xoroshiro_block [] iv iv' [] (by simp) hl h8 (by simp) hne g g'
    simpa using this
  · have hn : iv ≠ [] := by rintro rfl; simp at h8
    have hn' : iv' ≠ [] := by rintro rfl; simp at hl; simp [hl] at h8
    obtain ⟨ws, t, rfl, h0, ht8, hw⟩ := iv_split iv hn
    obtain ⟨ws', t', rfl, h0', ht8', hw'⟩ := iv_split iv' hn'
    rw [← hl] at hw'
    match ws, ws', (show ws.length = 1 by omega), (show ws'.length = 1 by omega) with
    | [x], [y], _, _ =>
      simp only [List.length_append, bytesOf_length, List.length_cons, List.length_nil] at hl
      obtain ⟨p, hp⟩ := pad_word t ht8
      obtain ⟨p', hp'⟩ := pad_word t' ht8'
      rw [Xoroshiro.seedIV_words _ t h0 ht8 p hp, Xoroshiro.seedIV_words _ t' h0' ht8' p' hp']
      intro h
      have h1 := smMix_inj (congrArg Xoroshiro.s1 (Except.ok.inj h))
      have h2 := Xoroshiro.smAfter_mid (a := []) (b := []) (add_right_inj' _ h1)
      subst h2
      have h3 := smMix_inj (congrArg Xoroshiro.s0 (Except.ok.inj h))
      have h4 := xor_left_inj' _ (add_right_inj' _ h3)
      subst h4
      exact hne (by rw [pad_inj (by omega) hp hp'])

/-- C50, the limit of the claim: permuting the 8-byte blocks before the last one has no effect. -/
theorem C50_Xoroshiro_permute (ws ws' : List U64) (hp : ws.Perm ws') (t : List Byte) (h0 : t ≠ [])
    (h8 : t.length ≤ 8) (g : Xoroshiro) :
    g.seedIV (bytesOf ws ++ t) = g.seedIV (bytesOf ws' ++ t) := by
  obtain ⟨p, hpp⟩ := pad_word t h8
  rw [Xoroshiro.seedIV_words _ t h0 h8 p hpp, Xoroshiro.seedIV_words _ t h0 h8 p hpp]
  have : Xoroshiro.smAfter ws = Xoroshiro.smAfter ws' := by
    unfold Xoroshiro.smAfter
    refine hp.foldl_eq' ?_ _
    intro x _ y _ z
    rw [BitVec.add_assoc, BitVec.add_assoc, BitVec.add_comm (smGamma ^^^ x)]
  rw [this]

/-- C50, the limit of the claim: filling up the last 8-byte block with zero bytes has no effect. -/
theorem C50_Xoroshiro_padding (iv : List Byte) (k : Nat) (h : iv.length % 8 ≠ 0) (hk : iv.length % 8 + k ≤ 8)
    (g : Xoroshiro) : g.seedIV (iv ++ List.replicate k 0#8) = g.seedIV iv := by
  have hn : iv ≠ [] := by rintro rfl; simp at h
  obtain ⟨ws, t, rfl, h0, h8, hw⟩ := iv_split iv hn
  simp only [List.length_append, bytesOf_length] at h hk
  obtain ⟨p, hp⟩ := pad_word t h8
  rw [Xoroshiro.seedIV_words _ t h0 h8 p hp, List.append_assoc]
  refine Xoroshiro.seedIV_words _ _ (by simp [h0]) (by simp; omega) p ?_ g
  rw [← hp, List.append_assoc]
  congr 1
  simp only [zeros, List.replicate_append_replicate, List.length_append, List.length_replicate]
  congr 1
  have : t.length + k ≤ 8 := by omega
  omega

/-- C50, Rexoroshiro: `SeedIV` is Xoroshiro's. -/
theorem C50_Rexoroshiro_block (u m m' v : List Byte) (hu : 8 ∣ u.length) (hl : m.length = m'.length)
    (h8 : m.length ≤ 8) (hv : v ≠ [] → m.length = 8) (hne : m ≠ m') (g g' : Rexoroshiro) :
    g.seedIV (u ++ m ++ v) ≠ g'.seedIV (u ++ m' ++ v) := by
  have := C50_Xoroshiro_block u m m' v hu hl h8 hv hne g.xoro g'.xoro
  obtain ⟨s, hs⟩ := Xoroshiro.seedIV_total (u ++ m ++ v)
  obtain ⟨s', hs'⟩ := Xoroshiro.seedIV_total (u ++ m' ++ v)
  rw [hs, hs'] at this
  rw [Rexoroshiro.seedIV, Rexoroshiro.seedIV, hs, hs']
  intro h
  exact this (congrArg Except.ok (congrArg Rexoroshiro.xoro (Except.ok.inj h)))

/-- Non-vacuity of C50: a 20-byte iv whose middle block changes in one bit. -/
example : ∃ u m m' v : List Byte, 8 ∣ u.length ∧ m.length = m'.length ∧ m.length ≤ 8 ∧ (v ≠ [] → m.length = 8) ∧
    m ≠ m' ∧ v ≠ [] ∧ u ≠ [] :=
  ⟨List.replicate 8 7#8, List.replicate 8 1#8, 0#8 :: List.replicate 7 1#8, [1#8, 2#8, 3#8, 4#8], by decide⟩

/-! ### C52: Xoshiro -/

/-- C52: changing any one 32-byte block `m` of the iv (the last one may be shorter) changes the seeded state, whatever
the states before seeding were. -/
theorem C52_Xoshiro_block (u m m' v : List Byte) (hu : 32 ∣ u.length) (hl : m.length = m'.length)
    (h32 : m.length ≤ 32) (hv : v ≠ [] → m.length = 32) (hne : m ≠ m') (g g' : Xoshiro) :
    g.seedIV (u ++ m ++ v) ≠ g'.seedIV (u ++ m' ++ v) := by
  obtain ⟨bs, rfl⟩ := Xoshiro.whole_blocks u hu
  by_cases hm : m.length = 32
  · obtain ⟨b, rfl⟩ := Xoshiro.one_block m hm
    obtain ⟨b', rfl⟩ := Xoshiro.one_block m' (by omega)
    obtain ⟨f, hf, he⟩ := Xoshiro.seedIV_rest v
    rw [← Xoshiro.blockBytes_append, ← Xoshiro.blockBytes_append, he, he, Xoshiro.seedInit_const g' g,
      Xoshiro.absorbAll_append, Xoshiro.absorbAll_append]
    intro h
    have h1 := Except.ok.inj h
    rw [show (Xoshiro.absorbAll (Xoshiro.absorbAll g.seedInit bs) [b']).2 =
      (Xoshiro.absorbAll (Xoshiro.absorbAll g.seedInit bs) [b]).2 from Xoshiro.absorb_snd ..] at h1
    have h2 := Xoshiro.absorb_inj_block (hf _ _ _ h1)
    subst h2
    exact hne rfl
  · have : v = [] := by
      by_cases h : v = []
      · exact h
      · exact absurd (hv h) hm
    subst this
    have h0 : m ≠ [] := by
      rintro rfl
      exact hne (List.length_eq_zero_iff.mp hl.symm).symm
    have h0' : m' ≠ [] := by
      rintro rfl
      exact h0 (List.length_eq_zero_iff.mp hl)
    obtain ⟨ws, t, rfl, ht0, ht8, hw⟩ := iv_split m h0
    obtain ⟨ws', t', rfl, ht0', ht8', hw'⟩ := iv_split m' h0'
    rw [← hl] at hw'
    simp only [List.length_append, bytesOf_length] at hl h32 hm hw hw'
    obtain ⟨p, hp⟩ := pad_word t ht8
    obtain ⟨p', hp'⟩ := pad_word t' ht8'
    rw [List.append_nil, List.append_nil, Xoshiro.seedIV_tail bs ws t ht0 ht8 (by omega) p hp,
      Xoshiro.seedIV_tail bs ws' t' ht0' ht8' (by omega) p' hp', Xoshiro.seedInit_const g' g]
    intro h
    have h1 := Xoshiro.absorbTail_inj_words _ _ (by simp; omega) (by simp; omega) (Except.ok.inj h)
    obtain ⟨rfl, h2⟩ := List.append_inj h1 (by omega)
    obtain rfl : p = p' := by simpa using h2
    exact hne (by rw [pad_inj (by omega) hp hp'])

/-- C52: up to 32 bytes, different ivs of the same length give different states. -/
theorem C52_Xoshiro_injective (iv iv' : List Byte) (hl : iv.length = iv'.length) (h32 : iv.length ≤ 32)
    (hne : iv ≠ iv') (g g' : Xoshiro) : g.seedIV iv ≠ g'.seedIV iv' := by
  simpa using C52_Xoshiro_block [] iv iv' [] (by simp) hl h32 (by simp) hne g g'

/-- C52, the limit of the claim: filling up the last 8-byte word of the iv with zero bytes has no effect. -/
theorem C52_Xoshiro_padding (iv : List Byte) (k : Nat) (h : iv.length % 8 ≠ 0) (hk : iv.length % 8 + k < 8)
    (g : Xoshiro) : g.seedIV (iv ++ List.replicate k 0#8) = g.seedIV iv := by
  have hb : ∀ bs, 8 ∣ (Xoshiro.blockBytes bs).length := by
    intro bs
    induction bs with
    | nil => simp [Xoshiro.blockBytes]
    | cons b bs ih =>
      rw [show b :: bs = [b] ++ bs from rfl, Xoshiro.blockBytes_append, List.length_append,
        Xoshiro.blockBytes_one, bytesOf_length]
      omega
  rcases Xoshiro.iv_split iv with ⟨bs, -, e⟩ | ⟨bs, ws, t, h1, e, h3, h4, h5, -⟩
  · subst e
    have := hb bs
    omega
  · subst e
    have hd := hb bs
    simp only [List.length_append, bytesOf_length] at h hk
    have : t.length + k < 8 := by omega
    obtain ⟨p, hp⟩ := pad_word t h4
    rw [Xoshiro.seedIV_tail bs ws t h3 h4 h5 p hp, List.append_assoc, List.append_assoc]
    refine Xoshiro.seedIV_tail bs ws _ (by simp [h3]) (by simp; omega) (by simp; omega) p ?_ g
    rw [← hp, List.append_assoc]
    congr 1
    simp only [zeros, List.replicate_append_replicate, List.length_append, List.length_replicate]
    congr 1
    omega

/-- Non-vacuity of C52. -/
example : ∃ u m m' v : List Byte, 32 ∣ u.length ∧ m.length = m'.length ∧ m.length ≤ 32 ∧
    (v ≠ [] → m.length = 32) ∧ m ≠ m' ∧ v ≠ [] ∧ u ≠ [] :=
  ⟨List.replicate 32 7#8, List.replicate 32 1#8, 0#8 :: List.replicate 31 1#8, [1#8, 2#8, 3#8, 4#8], by decide⟩

end Crazy
