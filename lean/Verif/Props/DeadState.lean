/-
C51: seeding and the dead all-zero state.
-/
import Verif.Proofs.XoInj
import Verif.Proofs.Gens
import Mathlib.Tactic.ByContra
import Mathlib.Logic.ExistsUnique
namespace Crazy

/-! ### C51: the all-zero state -/

/-- The all-zero state of Xoroshiro is dead: every output is 0. -/
theorem C51_Xoroshiro_zero_dead (n : Nat) :
    draws Xoroshiro.uint64 n ⟨0#64, 0#64⟩ = .ok (List.replicate n 0#64, ⟨0#64, 0#64⟩) := by
  induction n with
  | zero => rfl
  | succ n ih =>
    have h : Xoroshiro.uint64 ⟨0#64, 0#64⟩ = .ok (0#64, ⟨0#64, 0#64⟩) :=
      congrArg Except.ok (by decide +kernel)
    simp only [draws, bind, Except.bind, h, ih, List.replicate_succ, pure, Except.pure]

/-- The all-zero state of Xoshiro is dead: every output is 0. -/
theorem C51_Xoshiro_zero_dead (n : Nat) :
    draws Xoshiro.uint64 n ⟨0#64, 0#64, 0#64, 0#64⟩ =
      .ok (List.replicate n 0#64, ⟨0#64, 0#64, 0#64, 0#64⟩) := by
  induction n with
  | zero => rfl
  | succ n ih =>
    have h : Xoshiro.uint64 ⟨0#64, 0#64, 0#64, 0#64⟩ = .ok (0#64, ⟨0#64, 0#64, 0#64, 0#64⟩) :=
      congrArg Except.ok (by decide +kernel)
    simp only [draws, bind, Except.bind, h, ih, List.replicate_succ, pure, Except.pure]

theorem Xoroshiro.seedIV_zero_iff (ws : List U64) (t : List Byte) (h0 : t ≠ []) (h8 : t.length ≤ 8) (p : U64)
    (hp : t ++ zeros (8 - t.length) = le64 p) (g : Xoroshiro) :
    g.seedIV (bytesOf ws ++ t) = .ok ⟨0#64, 0#64⟩ ↔ smAfter ws = -smGamma ∧ p = -smGamma := by
  rw [Xoroshiro.seedIV_words _ t h0 h8 p hp, Except.ok.injEq, Xoroshiro.mk.injEq, smMix_eq_zero, smMix_eq_zero]
  have hz : -smGamma + smGamma = 0#64 := by decide +kernel
  constructor
  · rintro ⟨h1, h2⟩
    have h3 : smAfter ws = -smGamma := add_right_inj' smGamma (by rw [h2, hz])
    rw [h2, BitVec.zero_xor] at h1
    exact ⟨h3, add_right_inj' smGamma (by rw [h1, hz])⟩
  · rintro ⟨h1, h2⟩
    rw [h1, h2, hz, BitVec.zero_xor]
    exact ⟨hz, rfl⟩

theorem le64_last_ne (t : List Byte) (p : U64) (hp : t ++ zeros (8 - t.length) = le64 p) (h : t.length < 8) :
    p >>> 56 = 0#64 := by
  have h1 := congrArg (fun l => l[7]?) hp
  rw [show 8 - t.length = (7 - t.length) + 1 by omega] at h1
  simp only [zeros, List.replicate_succ', ← List.append_assoc] at h1
  rw [List.getElem?_append_right (by simp; omega)] at h1
  simp only [List.length_append, List.length_replicate, show 7 - (t.length + (7 - t.length)) = 0 by omega,
    le64, List.getElem?_cons_succ, List.getElem?_cons_zero, Option.some.injEq] at h1
  apply BitVec.eq_of_getLsbD_eq
  intro i hi
  have h2 := congrArg (fun v : Byte => v.getLsbD i) h1
  simp only [BitVec.getLsbD_setWidth, BitVec.getLsbD_zero] at h2
  simp only [BitVec.getLsbD_zero]
  by_cases h8 : i < 8
  · simpa [h8] using h2.symm
  · rw [BitVec.getLsbD_ushiftRight, BitVec.getLsbD_of_ge _ _ (by omega)]

/-- C51: Xoroshiro cannot be seeded to the dead state by an iv shorter than 16 bytes, in particular not by
`Seed(x)`, nor by an iv whose length is not a multiple of 8. -/
theorem C51_Xoroshiro_alive (iv : List Byte) (h : iv.length < 16 ∨ ¬ 8 ∣ iv.length) (g : Xoroshiro) :
    ∃ s, g.seedIV iv = .ok s ∧ s ≠ ⟨0#64, 0#64⟩ := by
  obtain ⟨s, hs⟩ := Xoroshiro.seedIV_total iv
  refine ⟨s, hs g, ?_⟩
  rintro rfl
  have hs := hs g
  by_cases hn : iv = []
  · subst hn
    rw [Xoroshiro.seedIV_nil] at hs
    have hs := congrArg Xoroshiro.s0 (Except.ok.inj hs)
    revert hs
    decide +kernel
  obtain ⟨ws, t, rfl, h0, h8, hw⟩ := iv_split iv hn
  obtain ⟨p, hp⟩ := pad_word t h8
  rw [Xoroshiro.seedIV_zero_iff ws t h0 h8 p hp] at hs
  obtain ⟨h1, h2⟩ := hs
  simp only [List.length_append, bytesOf_length] at h hw
  have hl : t.length = 8 := by
    by_contra hl
    have := le64_last_ne t p hp (by omega)
    rw [h2] at this
    revert this
    decide +kernel
  rcases h with h | h
  · match ws, (show ws.length = 0 by omega) with
    | [], _ =>
      revert h1
      decide +kernel
  · omega

theorem C51_Xoroshiro_Seed_alive (x : U64) (g : Xoroshiro) :
    ∃ s, g.seed x = .ok s ∧ s ≠ ⟨0#64, 0#64⟩ :=
  C51_Xoroshiro_alive (le64 x) (by simp) g

/-- C51 fails at 16 bytes: exactly one iv of 16 bytes seeds Xoroshiro to the dead state. -/
theorem C51_Xoroshiro_kill_16 (iv : List Byte) (h : iv.length = 16) (g : Xoroshiro) :
    g.seedIV iv = .ok ⟨0#64, 0#64⟩ ↔
      iv = [254#8, 255#8, 255#8, 255#8, 255#8, 255#8, 255#8, 255#8,
            235#8, 131#8, 181#8, 128#8, 70#8, 134#8, 200#8, 97#8] := by
  have hn : iv ≠ [] := by rintro rfl; simp at h
  obtain ⟨ws, t, rfl, h0, h8, hw⟩ := iv_split iv hn
  match ws, (show ws.length = 1 by omega) with
  | [a], _ =>
    simp only [List.length_append, bytesOf_length, List.length_cons, List.length_nil] at h
    obtain ⟨p, rfl⟩ := pad_full (m := t) (by omega)
    rw [Xoroshiro.seedIV_zero_iff _ _ h0 h8 p (by simp [zeros]), Xoroshiro.smAfter_one, bytesOf_one]
    have e : [254#8, 255#8, 255#8, 255#8, 255#8, 255#8, 255#8, 255#8,
            235#8, 131#8, 181#8, 128#8, 70#8, 134#8, 200#8, 97#8] =
        le64 (smGamma ^^^ (-smGamma)) ++ le64 (-smGamma) := by decide +kernel
    rw [e]
    generalize -smGamma = N
    generalize smGamma = G
    constructor
    · rintro ⟨h1, h2⟩
      rw [← h1, h2, xor_cancel_left, h1]
    · intro h1
      obtain ⟨h2, h3⟩ := List.append_inj h1 (by rw [le64_length, le64_length])
      rw [le64_injective h2, le64_injective h3, xor_cancel_left]
      exact ⟨rfl, rfl⟩

/-- C51 fails beyond: every prefix of whole 8-byte blocks has exactly one continuation by 16 bytes that seeds
Xoroshiro to the dead state. -/
theorem C51_Xoroshiro_kill (u : List Byte) (hu : 8 ∣ u.length) (g : Xoroshiro) :
    ∃! e : List Byte, e.length = 16 ∧ g.seedIV (u ++ e) = .ok ⟨0#64, 0#64⟩ := by
  obtain ⟨ws, rfl⟩ := whole_words u hu
  have key : ∀ a p, g.seedIV (bytesOf ws ++ (le64 a ++ le64 p)) = .ok ⟨0#64, 0#64⟩ ↔
      a = smGamma ^^^ (-smGamma - Xoroshiro.smAfter ws) ∧ p = -smGamma := by
    intro a p
    have e : bytesOf ws ++ (le64 a ++ le64 p) = bytesOf (ws ++ [a]) ++ le64 p := by
      rw [bytesOf_append, bytesOf_one, List.append_assoc]
    rw [e, Xoroshiro.seedIV_zero_iff _ (le64 p) (by simp [le64]) (by simp) p (by simp [zeros]),
      Xoroshiro.smAfter_append, Xoroshiro.smAfter_one]
    generalize Xoroshiro.smAfter ws = A
    generalize -smGamma = N
    generalize smGamma = G
    constructor
    · rintro ⟨h1, h2⟩
      refine ⟨?_, h2⟩
      rw [← h1, BitVec.add_sub_cancel, xor_cancel_left]
    · rintro ⟨h1, h2⟩
      rw [h1, xor_cancel_left, BitVec.sub_add_cancel]
      exact ⟨rfl, h2⟩
  refine ⟨le64 (smGamma ^^^ (-smGamma - Xoroshiro.smAfter ws)) ++ le64 (-smGamma), ⟨by simp, ?_⟩, ?_⟩
  · rw [key]; exact ⟨rfl, rfl⟩
  · rintro e ⟨he, h1⟩
    obtain ⟨a, ha⟩ := pad_full (m := e.take 8) (by rw [List.length_take]; omega)
    obtain ⟨p, hp⟩ := pad_full (m := e.drop 8) (by rw [List.length_drop]; omega)
    rw [← List.take_append_drop 8 e, ha, hp] at h1 ⊢
    obtain ⟨rfl, rfl⟩ := (key a p).mp h1
    rfl

theorem Xoshiro.kill32 (g : Xoshiro) : g.seedIV
    [179#8, 119#8, 2#8, 158#8, 72#8, 240#8, 209#8, 170#8, 249#8, 155#8, 87#8, 149#8, 211#8, 171#8, 45#8, 0#8,
     59#8, 120#8, 230#8, 15#8, 47#8, 171#8, 94#8, 51#8, 171#8, 37#8, 123#8, 58#8, 76#8, 31#8, 75#8, 75#8] =
      .ok ⟨0#64, 0#64, 0#64, 0#64⟩ := by
  have e : [179#8, 119#8, 2#8, 158#8, 72#8, 240#8, 209#8, 170#8, 249#8, 155#8, 87#8, 149#8, 211#8, 171#8, 45#8, 0#8,
     59#8, 120#8, 230#8, 15#8, 47#8, 171#8, 94#8, 51#8, 171#8, 37#8, 123#8, 58#8, 76#8, 31#8, 75#8, 75#8] =
      Xoshiro.blockBytes [(0xaad1f0489e0277b3#64, 0x002dabd395579bf9#64, 0x335eab2f0fe6783b#64,
        0x4b4b1f4c3a7b25ab#64)] := by decide +kernel
  rw [e, Xoshiro.seedIV_blocks, Xoshiro.seedInit_const g Xoshiro.new]
  exact congrArg Except.ok (by decide +kernel)

theorem Xoshiro.xor4_zero_iff (g : Xoshiro) (a b c d : U64) :
    g.xor4 a b c d = ⟨0#64, 0#64, 0#64, 0#64⟩ ↔ a = g.w ∧ b = g.x ∧ c = g.y ∧ d = g.z := by
  have h : ∀ x y : U64, x ^^^ y = 0#64 ↔ y = x := by
    intro x y
    constructor
    · intro e
      have := xor_cancel_left x y
      rw [e, BitVec.xor_zero] at this
      exact this.symm
    · rintro rfl; exact BitVec.xor_self
  simp only [Xoshiro.xor4, Xoshiro.mk.injEq, h]

theorem Xoshiro.xor4_xor4 (g : Xoshiro) (a b c d a' b' c' d' : U64) :
    (g.xor4 a b c d).xor4 a' b' c' d' = (g.xor4 a' b' c' d').xor4 a b c d := by
  simp only [Xoshiro.xor4, Xoshiro.mk.injEq]
  have h : ∀ x y z : U64, x ^^^ y ^^^ z = x ^^^ z ^^^ y := by
    intro x y z
    rw [BitVec.xor_assoc, BitVec.xor_comm y, BitVec.xor_assoc]
  exact ⟨h _ _ _, h _ _ _, h _ _ _, h _ _ _⟩

/-- C51: every prefix of whole 32-byte blocks has exactly one continuation by 32 bytes that seeds Xoshiro to the dead
state. -/
theorem C51_Xoshiro_kill (u : List Byte) (hu : 32 ∣ u.length) (g : Xoshiro) :
    ∃! e : List Byte, e.length = 32 ∧ g.seedIV (u ++ e) = .ok ⟨0#64, 0#64, 0#64, 0#64⟩ := by
  obtain ⟨bs, rfl⟩ := Xoshiro.whole_blocks u hu
  have key : ∃ k : Xoshiro, ∀ b : Xoshiro.Block,
      g.seedIV (Xoshiro.blockBytes bs ++ Xoshiro.blockBytes [b]) = .ok ⟨0#64, 0#64, 0#64, 0#64⟩ ↔
        b = (k.w, k.x, k.y, k.z) := by
    generalize hA : Xoshiro.absorbAll g.seedInit bs = A
    refine ⟨(Xoshiro.smXor A.1.step.step.step.step A.2).1, fun b => ?_⟩
    rw [← Xoshiro.blockBytes_append, Xoshiro.seedIV_blocks, Xoshiro.absorbAll_append, hA,
      show Xoshiro.absorbAll A [b] = Xoshiro.absorb A.1 A.2 b from rfl, Except.ok.injEq, Xoshiro.absorb,
      Xoshiro.smXor_fst, Xoshiro.xor4_xor4, ← Xoshiro.smXor_fst, Xoshiro.xor4_zero_iff]
    constructor
    · rintro ⟨h1, h2, h3, h4⟩
      exact Prod.ext h1 (Prod.ext h2 (Prod.ext h3 h4))
    · intro h
      rw [h]
      exact ⟨rfl, rfl, rfl, rfl⟩
  obtain ⟨k, hk⟩ := key
  refine ⟨Xoshiro.blockBytes [(k.w, k.x, k.y, k.z)], ⟨?_, (hk _).mpr rfl⟩, ?_⟩
  · rw [Xoshiro.blockBytes_one, bytesOf_length]; rfl
  · rintro e ⟨he, h1⟩
    obtain ⟨b, rfl⟩ := Xoshiro.one_block e he
    rw [(hk b).mp h1]

/-- C51: Xoshiro cannot be seeded to the dead state by an iv shorter than 32 bytes, in particular not by `Seed(x)`. -/
theorem C51_Xoshiro_alive (iv : List Byte) (h : iv.length < 32) (g : Xoshiro) :
    ∃ s, g.seedIV iv = .ok s ∧ s ≠ ⟨0#64, 0#64, 0#64, 0#64⟩ := by
  obtain ⟨s, hs⟩ := Xoshiro.seedIV_total iv
  refine ⟨s, hs g, ?_⟩
  rintro rfl
  have hs := hs Xoshiro.new
  by_cases hn : iv = []
  · subst hn
    rw [show ([] : List Byte) = Xoshiro.blockBytes [] from rfl, Xoshiro.seedIV_blocks] at hs
    have hs := congrArg Xoshiro.w (Except.ok.inj hs)
    revert hs
    decide +kernel
  obtain ⟨ws, t, rfl, h0, h8, hw⟩ := iv_split iv hn
  obtain ⟨p, hp⟩ := pad_word t h8
  simp only [List.length_append, bytesOf_length] at h hw
  have e := Xoshiro.seedIV_tail [] ws t h0 h8 h p hp Xoshiro.new
  rw [show Xoshiro.blockBytes [] ++ (bytesOf ws ++ t) = bytesOf ws ++ t from rfl, hs] at e
  have e := Except.ok.inj e
  rw [show Xoshiro.absorbAll Xoshiro.new.seedInit [] = Xoshiro.new.seedInit from rfl] at e
  have hlast : t.length < 8 → p >>> 56 = 0#64 := le64_last_ne t p hp
  match ws, h, e with
  | [], _, e =>
    have e : _ = (Xoshiro.smXor _ _).1 := e
    rw [Xoshiro.smXor_fst, Xoshiro.xor4_xor4, eq_comm, Xoshiro.xor4_zero_iff] at e
    exact absurd e.2.1 (by decide +kernel)
  | [a], _, e =>
    have e : _ = (Xoshiro.smXor _ _).1 := e
    rw [Xoshiro.smXor_fst, Xoshiro.xor4_xor4, eq_comm, Xoshiro.xor4_zero_iff] at e
    exact absurd e.2.2.1 (by decide +kernel)
  | [a, b], _, e =>
    have e : _ = (Xoshiro.smXor _ _).1 := e
    rw [Xoshiro.smXor_fst, Xoshiro.xor4_xor4, eq_comm, Xoshiro.xor4_zero_iff] at e
    exact absurd e.2.2.2 (by decide +kernel)
  | [a, b, c], h, e =>
    simp only [List.length_cons, List.length_nil] at h
    have e : _ = (Xoshiro.smXor _ _).1 := e
    rw [Xoshiro.smXor_fst, Xoshiro.xor4_xor4, eq_comm, Xoshiro.xor4_zero_iff] at e
    have h1 := hlast (by omega)
    rw [e.2.2.2] at h1
    exact absurd h1 (by decide +kernel)
  | a :: b :: c :: d :: ws, h, _ => simp only [List.length_cons] at h; omega

theorem C51_Xoshiro_Seed_alive (x : U64) (g : Xoshiro) :
    ∃ s, g.seed x = .ok s ∧ s ≠ ⟨0#64, 0#64, 0#64, 0#64⟩ :=
  C51_Xoshiro_alive (le64 x) (by simp) g

/-- C51 fails at 32 bytes: exactly one iv of 32 bytes seeds Xoshiro to the dead state. -/
theorem C51_Xoshiro_kill_32 (iv : List Byte) (h : iv.length = 32) (g : Xoshiro) :
    g.seedIV iv = .ok ⟨0#64, 0#64, 0#64, 0#64⟩ ↔
      iv = [179#8, 119#8, 2#8, 158#8, 72#8, 240#8, 209#8, 170#8, 249#8, 155#8, 87#8, 149#8, 211#8, 171#8, 45#8, 0#8,
            59#8, 120#8, 230#8, 15#8, 47#8, 171#8, 94#8, 51#8, 171#8, 37#8, 123#8, 58#8, 76#8, 31#8, 75#8, 75#8] := by
  obtain ⟨e, -, hu⟩ := C51_Xoshiro_kill [] (by simp) g
  constructor
  · intro h2
    have h1 := hu _ ⟨by rfl, Xoshiro.kill32 g⟩
    rw [hu iv ⟨h, h2⟩]
    exact h1.symm
  · intro h1
    rw [h1]
    exact Xoshiro.kill32 g

end Crazy
