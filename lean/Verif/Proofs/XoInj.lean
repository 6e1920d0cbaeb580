/-
The absorption steps of `Xoshiro.SeedIV` are injective in the state and in the data.
-/
import Verif.Proofs.SmMix
namespace Crazy
namespace Xoshiro

theorem step_inj {g g' : Xoshiro} (h : g.step = g'.step) : g = g' := by
  rw [← reverse_step g, ← reverse_step g', h]

theorem xor4_inj_state {g g' : Xoshiro} {a b c d : U64} (h : g.xor4 a b c d = g'.xor4 a b c d) : g = g' := by
  cases g; cases g'
  simp only [xor4, mk.injEq] at h ⊢
  exact ⟨xor_right_inj' _ h.1, xor_right_inj' _ h.2.1, xor_right_inj' _ h.2.2.1, xor_right_inj' _ h.2.2.2⟩

theorem xor4_inj_data {g : Xoshiro} {a b c d a' b' c' d' : U64} (h : g.xor4 a b c d = g.xor4 a' b' c' d') :
    a = a' ∧ b = b' ∧ c = c' ∧ d = d' := by
  simp only [xor4, mk.injEq] at h
  exact ⟨xor_left_inj' _ h.1, xor_left_inj' _ h.2.1, xor_left_inj' _ h.2.2.1, xor_left_inj' _ h.2.2.2⟩

theorem smXor_fst (g : Xoshiro) (sm : U64) :
    (smXor g sm).1 = g.xor4 (smMix (sm + smGamma)) (smMix (sm + smGamma + smGamma))
      (smMix (sm + smGamma + smGamma + smGamma)) (smMix (sm + smGamma + smGamma + smGamma + smGamma)) := rfl

theorem smXor_snd (g : Xoshiro) (sm : U64) : (smXor g sm).2 = sm + smGamma + smGamma + smGamma + smGamma := rfl

theorem smXor_inj {g g' : Xoshiro} {sm : U64} (h : (smXor g sm).1 = (smXor g' sm).1) : g = g' := by
  rw [smXor_fst, smXor_fst] at h
  exact xor4_inj_state h

theorem absorb_inj_state {g g' : Xoshiro} {sm : U64} {b : Block}
    (h : (absorb g sm b).1 = (absorb g' sm b).1) : g = g' :=
  step_inj (step_inj (step_inj (step_inj (xor4_inj_state (smXor_inj h)))))

theorem absorb_inj_block {g : Xoshiro} {sm : U64} {b b' : Block}
    (h : (absorb g sm b).1 = (absorb g sm b').1) : b = b' := by
  obtain ⟨h1, h2, h3, h4⟩ := xor4_inj_data (smXor_inj h)
  exact Prod.ext h1 (Prod.ext h2 (Prod.ext h3 h4))

theorem absorb_snd (g g' : Xoshiro) (sm : U64) (b b' : Block) : (absorb g sm b).2 = (absorb g' sm b').2 := by
  rw [absorb, absorb, smXor_snd, smXor_snd]

theorem absorbAll_append (gs : Xoshiro × U64) (a b : List Block) :
    absorbAll gs (a ++ b) = absorbAll (absorbAll gs a) b := List.foldl_append ..

theorem absorbAll_snd (gs gs' : Xoshiro × U64) (h : gs.2 = gs'.2) (bs : List Block) :
    (absorbAll gs bs).2 = (absorbAll gs' bs).2 := by
  unfold absorbAll
  induction bs generalizing gs gs' with
  | nil => exact h
  | cons b bs ih =>
    rw [List.foldl_cons, List.foldl_cons]
    apply ih
    rw [h]
    exact absorb_snd ..

theorem absorbAll_inj {gs gs' : Xoshiro × U64} (h : gs.2 = gs'.2) (bs : List Block)
    (he : (absorbAll gs bs).1 = (absorbAll gs' bs).1) : gs.1 = gs'.1 := by
  unfold absorbAll at he
  induction bs generalizing gs gs' with
  | nil => exact he
  | cons b bs ih =>
    rw [List.foldl_cons, List.foldl_cons] at he
    have := ih (by rw [h]; exact absorb_snd ..) he
    rw [← h] at this
    exact absorb_inj_state this

theorem absorbTail_inj_state {g g' : Xoshiro} {sm : U64} (ws : List U64)
    (h : absorbTail g sm ws = absorbTail g' sm ws) : g = g' := by
  match ws, h with
  | [a], h => exact step_inj (xor4_inj_state (smXor_inj h))
  | [a, b], h => exact step_inj (step_inj (xor4_inj_state (smXor_inj h)))
  | [a, b, c], h => exact step_inj (step_inj (step_inj (xor4_inj_state (smXor_inj h))))
  | [a, b, c, d], h => exact step_inj (step_inj (step_inj (step_inj (xor4_inj_state (smXor_inj h)))))
  | [], h => exact h
  | _ :: _ :: _ :: _ :: _ :: _, h => exact h

theorem absorbTail_inj_words {g : Xoshiro} {sm : U64} (ws ws' : List U64) (hl : ws.length = ws'.length)
    (h4 : ws.length ≤ 4) (h : absorbTail g sm ws = absorbTail g sm ws') : ws = ws' := by
  match ws, ws', hl, h4, h with
  | [a], [a'], _, _, h => obtain ⟨rfl, -⟩ := xor4_inj_data (smXor_inj h); rfl
  | [a, b], [a', b'], _, _, h => obtain ⟨rfl, rfl, -⟩ := xor4_inj_data (smXor_inj h); rfl
  | [a, b, c], [a', b', c'], _, _, h => obtain ⟨rfl, rfl, rfl, -⟩ := xor4_inj_data (smXor_inj h); rfl
  | [a, b, c, d], [a', b', c', d'], _, _, h =>
    obtain ⟨rfl, rfl, rfl, rfl⟩ := xor4_inj_data (smXor_inj h); rfl
  | [], [], _, _, _ => rfl

theorem blockBytes_append (a b : List Block) : blockBytes (a ++ b) = blockBytes a ++ blockBytes b :=
  List.flatMap_append ..

theorem blockBytes_one (b : Block) : blockBytes [b] = bytesOf [b.1, b.2.1, b.2.2.1, b.2.2.2] := by
  simp [blockBytes]

/-- Whole 32-byte blocks. -/
theorem whole_blocks (u : List Byte) (hu : 32 ∣ u.length) : ∃ bs, u = blockBytes bs := by
  rcases iv_split u with ⟨bs, -, h⟩ | ⟨bs, ws, t, h1, h2, h3, h4, h5, -⟩
  · exact ⟨bs, h⟩
  · exfalso
    obtain ⟨ws', h6⟩ := whole_words u (Nat.dvd_trans (by decide) hu)
    have hl := congrArg List.length h2
    have hb : (blockBytes bs).length = 32 * bs.length := by
      clear h1 h2 hl
      induction bs with
      | nil => rfl
      | cons b bs ih =>
        rw [show b :: bs = [b] ++ bs from rfl, blockBytes_append, List.length_append, ih, blockBytes_one, bytesOf_length]
        simp only [List.length_cons, List.length_nil, List.length_append]
        omega
    have : 0 < t.length := List.length_pos_iff.mpr h3
    rw [List.length_append, List.length_append, bytesOf_length, hb] at hl
    omega

theorem one_block (m : List Byte) (h : m.length = 32) : ∃ b, m = blockBytes [b] := by
  obtain ⟨bs, rfl⟩ := whole_blocks m (by omega)
  rcases bs with _ | ⟨b, _ | ⟨c, bs⟩⟩
  · simp [blockBytes] at h
  · exact ⟨b, rfl⟩
  · exfalso
    rw [show b :: c :: bs = [b] ++ ([c] ++ bs) from rfl, blockBytes_append, blockBytes_append, List.length_append,
      List.length_append, blockBytes_one, blockBytes_one, bytesOf_length, bytesOf_length] at h
    simp only [List.length_cons, List.length_nil] at h
    omega

/-- The seeded state is a function, injective in each argument, of the state and SplitMix64 state after the whole
blocks, and of the rest of the iv. -/
theorem seedIV_rest (v : List Byte) :
    ∃ f : Xoshiro → U64 → Xoshiro, (∀ g g' sm, f g sm = f g' sm → g = g') ∧
      ∀ (bs : List Block) (g : Xoshiro),
        g.seedIV (blockBytes bs ++ v) = .ok (f (absorbAll g.seedInit bs).1 (absorbAll g.seedInit bs).2) := by
  rcases iv_split v with ⟨cs, -, rfl⟩ | ⟨cs, ws, t, -, rfl, h0, h8, h32, -⟩
  · refine ⟨fun g sm => (absorbAll (g, sm) cs).1, fun g g' sm h => absorbAll_inj (gs := (g, sm)) (gs' := (g', sm)) rfl cs h, fun bs g => ?_⟩
    rw [← blockBytes_append, seedIV_blocks, absorbAll_append]
  · obtain ⟨p, hp⟩ := pad_word t h8
    refine ⟨fun g sm => absorbTail (absorbAll (g, sm) cs).1 (absorbAll (g, sm) cs).2 (ws ++ [p]), ?_, ?_⟩
    · intro g g' sm h
      dsimp only at h
      rw [absorbAll_snd (g', sm) (g, sm) rfl] at h
      exact absorbAll_inj (gs := (g, sm)) (gs' := (g', sm)) rfl cs (absorbTail_inj_state _ h)
    · intro bs g
      rw [← List.append_assoc, ← blockBytes_append, seedIV_tail _ ws t h0 h8 h32 p hp, absorbAll_append]

end Xoshiro
end Crazy
