/-
C75: Xoroshiro, Rexoroshiro and Xoshiro are seeded from SplitMix64. C76: the first outputs after `Seed`.
-/
import Verif.Spec.SplitMix
import Verif.Spec.Period
import Verif.Props.SeedBits
import Verif.Props.State
import Verif.Proofs.XoInj
import Verif.Props.Period
namespace Crazy
open Xoroshiro (smAfter)

theorem smMix_gen (c d : Nat) (z : U64) :
    (let z := (z ^^^ (z >>> 30)) * BitVec.ofNat 64 c; let z := (z ^^^ (z >>> 27)) * BitVec.ofNat 64 d; z ^^^ (z >>> 31)).toNat =
    (let z := (z.toNat ^^^ z.toNat / 2 ^ 30) * c % 2 ^ 64; let z := (z ^^^ z / 2 ^ 27) * d % 2 ^ 64; z ^^^ z / 2 ^ 31) := by
  have xs : ∀ (z : U64) (k : Nat), (z ^^^ (z >>> k)).toNat = z.toNat ^^^ z.toNat / 2 ^ k := fun z k => by
    rw [BitVec.toNat_xor, BitVec.toNat_ushiftRight, Nat.shiftRight_eq_div_pow]
  have ml : ∀ (a : U64) (c : Nat), (a * BitVec.ofNat 64 c).toNat = a.toNat * c % 2 ^ 64 := fun a c => by
    rw [BitVec.toNat_mul, BitVec.toNat_ofNat, Nat.mul_mod_mod]
  dsimp only
  rw [xs, ml, xs, ml, xs]

theorem smMix_toNat (z : U64) : (smMix z).toNat = SplitMix.mix z.toNat := smMix_gen _ _ z

theorem smMix_eq (z : U64) : smMix z = BitVec.ofNat 64 (SplitMix.mix z.toNat) := by
  rw [← smMix_toNat, BitVec.ofNat_toNat, BitVec.setWidth_eq]

theorem smAdvance (z : U64) : (z + smGamma).toNat = SplitMix.advance z.toNat := by
  rw [BitVec.toNat_add]
  rfl

theorem sm_next (z : U64) (seed n : Nat) (h : z.toNat = SplitMix.state seed n) :
    smMix (z + smGamma) = SplitMix.out seed n ∧ (z + smGamma).toNat = SplitMix.state seed (n + 1) := by
  have h1 : (z + smGamma).toNat = SplitMix.state seed (n + 1) := by rw [smAdvance, h]; rfl
  exact ⟨by rw [smMix_eq, h1]; rfl, h1⟩

/-! ### C75 -/

/-- C75: with an empty iv the state of Xoroshiro is the first two outputs of SplitMix64 started at 0. -/
theorem C75_Xoroshiro_empty (g s : Xoroshiro) (h : g.seedIV [] = .ok s) :
    SavesAs Xoroshiro.methods.api s (bytesOf [SplitMix.out 0 0, SplitMix.out 0 1]) := by
  rw [Xoroshiro.seedIV_nil] at h
  injection h with h
  subst h
  obtain ⟨h1, h2⟩ := sm_next 0#64 0 0 rfl
  obtain ⟨h3, -⟩ := sm_next (0#64 + smGamma) 0 1 h2
  rw [← h1, ← h3]
  exact savesAs_of _ _ _ (Xoroshiro.save_eq _)

/-- C75: otherwise let `iv` be the words `ws` and 1 to 8 more bytes, which padded with zeros make a last word `p`. SplitMix64 is
started at the sum modulo 2^64 of `0x9e3779b97f4a7c15 xor w` over the `ws`; its first output is the second word of the state. Then `p` is
xored into its state, and its next output is the first word. -/
theorem C75_Xoroshiro (g s : Xoroshiro) (ws : List U64) (t : List Byte) (p : U64) (h0 : t ≠ []) (h8 : t.length ≤ 8)
    (hp : t ++ List.replicate (8 - t.length) 0#8 = bytesOf [p]) (h : g.seedIV (bytesOf ws ++ t) = .ok s) :
    SavesAs Xoroshiro.methods.api s (bytesOf [
      SplitMix.out (SplitMix.state ((ws.map fun w => 0x9e3779b97f4a7c15 ^^^ w.toNat).sum % 2 ^ 64) 1 ^^^ p.toNat) 0,
      SplitMix.out ((ws.map fun w => 0x9e3779b97f4a7c15 ^^^ w.toNat).sum % 2 ^ 64) 0]) := by
  rw [Xoroshiro.seedIV_words ws t h0 h8 p (by rw [← bytesOf_one]; exact hp) g] at h
  injection h with h
  subst h
  have hsum : (smAfter ws).toNat = (ws.map fun w => 0x9e3779b97f4a7c15 ^^^ w.toNat).sum % 2 ^ 64 := by
    have key : ∀ (ws : List U64) (a : U64), (ws.foldl (fun sm w => sm + (smGamma ^^^ w)) a).toNat =
        (a.toNat + (ws.map fun w => 0x9e3779b97f4a7c15 ^^^ w.toNat).sum) % 2 ^ 64 := by
      intro ws
      induction ws with
      | nil => intro a; simp [Nat.mod_eq_of_lt a.isLt]
      | cons w ws ih =>
        intro a
        rw [List.foldl_cons, ih, BitVec.toNat_add, BitVec.toNat_xor, List.map_cons, List.sum_cons, ← Nat.add_assoc,
          Nat.mod_add_mod]
        rfl
    have := key ws 0#64
    rw [BitVec.toNat_ofNat, Nat.zero_mod, Nat.zero_add] at this
    exact this
  obtain ⟨h1, h2⟩ := sm_next (smAfter ws) _ 0 hsum
  obtain ⟨h3, -⟩ := sm_next ((smAfter ws + smGamma) ^^^ p) ((smAfter ws + smGamma) ^^^ p).toNat 0 rfl
  rw [← h2, ← BitVec.toNat_xor, ← h1, ← h3]
  exact savesAs_of _ _ _ (Xoroshiro.save_eq _)

/-- C75: Rexoroshiro is seeded as Xoroshiro is. -/
theorem C75_Rexoroshiro (g s : Rexoroshiro) (iv : List Byte) (h : g.seedIV iv = .ok s) :
    ∃ s', g.xoro.seedIV iv = .ok s' ∧ ∀ b, SavesAs Xoroshiro.methods.api s' b → SavesAs Rexoroshiro.methods.api s b := by
  unfold Rexoroshiro.seedIV at h
  cases hx : g.xoro.seedIV iv with
  | error e => rw [hx] at h; contradiction
  | ok s' =>
    rw [hx] at h
    injection h with h
    subst h
    refine ⟨s', rfl, fun b h => ?_⟩
    have e : b = bytesOf [s'.s0, s'.s1] := savesAs_inj h (savesAs_of Xoroshiro.methods _ _ (Xoroshiro.save_eq s'))
    rw [e]
    exact savesAs_of Rexoroshiro.methods _ _ (Xoroshiro.save_eq s')

theorem bytesOf_inj (a b : List U64) (hl : a.length = b.length) (h : bytesOf a = bytesOf b) : a = b := by
  induction a generalizing b with
  | nil => exact (List.length_eq_zero_iff.mp hl.symm).symm
  | cons x a ih =>
    match b, hl with
    | y :: b, hl =>
      rw [bytesOf_cons, bytesOf_cons] at h
      obtain ⟨h1, h2⟩ := List.append_inj h rfl
      rw [le64_injective h1, ih b (by simpa using hl) h2]

namespace Xoshiro

theorem smXor_ref (g : Xoshiro) (sm : U64) (n : Nat) (h : sm.toNat = SplitMix.state 0 n) :
    (smXor g sm).1 = ⟨g.w ^^^ SplitMix.out 0 n, g.x ^^^ SplitMix.out 0 (n + 1), g.y ^^^ SplitMix.out 0 (n + 2),
      g.z ^^^ SplitMix.out 0 (n + 3)⟩ ∧ (smXor g sm).2.toNat = SplitMix.state 0 (n + 4) := by
  obtain ⟨h1, h2⟩ := sm_next _ _ _ h
  obtain ⟨h3, h4⟩ := sm_next _ _ _ h2
  obtain ⟨h5, h6⟩ := sm_next _ _ _ h4
  obtain ⟨h7, h8⟩ := sm_next _ _ _ h6
  simp only [smXor]
  exact ⟨by rw [h1, h3, h5, h7], h8⟩

theorem seedInit_ref (g : Xoshiro) : g.seedInit.1 = ⟨SplitMix.out 0 0, SplitMix.out 0 1, SplitMix.out 0 2, SplitMix.out 0 3⟩ ∧
    g.seedInit.2.toNat = SplitMix.state 0 4 := by
  obtain ⟨h1, h2⟩ := sm_next 0#64 0 0 rfl
  obtain ⟨h3, h4⟩ := sm_next _ _ _ h2
  obtain ⟨h5, h6⟩ := sm_next _ _ _ h4
  obtain ⟨h7, h8⟩ := sm_next _ _ _ h6
  simp only [seedInit]
  exact ⟨by rw [← h1, ← h3, ← h5, ← h7]; rfl, h8⟩

theorem absorbAll_sm (bs : List Block) (gs : Xoshiro × U64) (n : Nat) (h : gs.2.toNat = SplitMix.state 0 n) :
    (absorbAll gs bs).2.toNat = SplitMix.state 0 (n + 4 * bs.length) := by
  induction bs generalizing gs n with
  | nil => exact h
  | cons b bs ih =>
    have := ih (absorb gs.1 gs.2 b) (n + 4) (smXor_ref _ _ _ h).2
    rw [show n + 4 + 4 * bs.length = n + 4 * (b :: bs).length by rw [List.length_cons]; omega] at this
    exact this

theorem blockBytes_length (bs : List Block) : (blockBytes bs).length = 32 * bs.length := by
  induction bs with
  | nil => rfl
  | cons b bs ih =>
    rw [show b :: bs = [b] ++ bs from rfl, blockBytes_append, List.length_append, ih, blockBytes_one, bytesOf_length]
    simp only [List.length_cons, List.length_nil, List.length_append]
    omega

/-- One block or part of one. -/
theorem seedIV_part (g : Xoshiro) (bs : List Block) (t : List Byte) (h0 : 0 < t.length) (h32 : t.length ≤ 32) (p q r v : U64)
    (ht : t ++ List.replicate (32 - t.length) 0#8 = bytesOf [p, q, r, v]) :
    g.seedIV (blockBytes bs ++ t) =
      .ok (smXor (xor4 (step^[(t.length + 7) / 8] (absorbAll g.seedInit bs).1) p q r v) (absorbAll g.seedInit bs).2).1 := by
  by_cases hc : t.length = 32
  · rw [hc, Nat.sub_self, List.replicate_zero, List.append_nil] at ht
    have e : t = blockBytes [(p, q, r, v)] := by rw [blockBytes_one]; exact ht
    rw [hc, e, ← blockBytes_append, seedIV_blocks, absorbAll, List.foldl_append]
    rfl
  · obtain ⟨ws, t', rfl, h1, h2, h3⟩ := Crazy.iv_split t (List.length_pos_iff.mp h0)
    obtain ⟨p', hp'⟩ := pad_word t' h2
    have hl' : 0 < t'.length := List.length_pos_iff.mpr h1
    rw [List.length_append, bytesOf_length] at h0 h32 hc
    rw [seedIV_tail bs ws t' h1 h2 (by omega) p' hp', List.length_append, bytesOf_length]
    rw [List.length_append, bytesOf_length] at ht
    have hw : (8 * ws.length + t'.length + 7) / 8 = ws.length + 1 := by omega
    have hz : bytesOf ws ++ t' ++ List.replicate (32 - (8 * ws.length + t'.length)) 0#8 =
        bytesOf (ws ++ [p'] ++ List.replicate (3 - ws.length) 0#64) := by
      have e1 : 32 - (8 * ws.length + t'.length) = (8 - t'.length) + 8 * (3 - ws.length) := by omega
      have e2 : bytesOf (List.replicate (3 - ws.length) 0#64) = List.replicate (8 * (3 - ws.length)) 0#8 := by
        generalize 3 - ws.length = n
        induction n with
        | zero => rfl
        | succ n ih =>
          rw [List.replicate_succ, bytesOf_cons, ih, Nat.mul_succ, Nat.add_comm, List.replicate_add]
          rfl
      rw [e1, List.replicate_add, bytesOf_append, bytesOf_append, e2, bytesOf_one, ← hp']
      simp only [zeros, List.append_assoc]
    rw [hz] at ht
    rw [hw]
    have hinj := bytesOf_inj _ _ (by simp; omega) ht
    refine congrArg Except.ok ?_
    match ws, h32, hinj with
    | [], _, hinj =>
      simp only [List.nil_append, List.length_nil, Nat.sub_zero, List.replicate, List.cons_append, List.cons.injEq, and_true] at hinj
      obtain ⟨rfl, rfl, rfl, rfl⟩ := hinj
      rfl
    | [a], _, hinj =>
      simp only [List.nil_append, List.length_cons, List.length_nil, List.replicate, List.cons_append, List.cons.injEq, and_true] at hinj
      obtain ⟨rfl, rfl, rfl, rfl⟩ := hinj
      rfl
    | [a, b], _, hinj =>
      simp only [List.nil_append, List.length_cons, List.length_nil, List.replicate, List.cons_append, List.cons.injEq, and_true] at hinj
      obtain ⟨rfl, rfl, rfl, rfl⟩ := hinj
      rfl
    | [a, b, c], _, hinj =>
      simp only [List.nil_append, List.length_cons, List.length_nil, List.cons_append, List.cons.injEq] at hinj
      obtain ⟨rfl, rfl, rfl, rfl, -⟩ := hinj
      rfl
    | a :: b :: c :: d :: ws, h, _ => simp only [List.length_cons] at h; omega

end Xoshiro

/-- C75: with an empty iv the state of Xoshiro is the first four outputs of SplitMix64 started at 0. -/
theorem C75_Xoshiro_empty (g s : Xoshiro) (h : g.seedIV [] = .ok s) :
    SavesAs Xoshiro.methods.api s (bytesOf [SplitMix.out 0 0, SplitMix.out 0 1, SplitMix.out 0 2, SplitMix.out 0 3]) := by
  have h1 : g.seedIV (Xoshiro.blockBytes []) = .ok s := h
  rw [Xoshiro.seedIV_blocks] at h1
  injection h1 with h1
  subst h1
  show SavesAs _ g.seedInit.1 _
  rw [(Xoshiro.seedInit_ref g).1]
  exact savesAs_of _ _ _ (Xoshiro.save_eq _)

/-- C75: let `iv` be `u`, a multiple of 32 bytes, followed by 1 to 32 more bytes `t`. Its state is that after `u` alone, advanced by a call of
`Uint64` for every 8 bytes in `t` or part of them, xored with `t` (padded with zeros) and with the next four outputs of SplitMix64, of
which every 32 bytes take four. -/
theorem C75_Xoshiro (g s s0 s1 : Xoshiro) (u t : List Byte) (a b c d p q r v : U64) (hu : 32 ∣ u.length) (h0 : 0 < t.length)
    (h32 : t.length ≤ 32) (h : g.seedIV (u ++ t) = .ok s) (hs0 : g.seedIV u = .ok s0)
    (hs1 : Leads Xoshiro.uint64 ((t.length + 7) / 8) s0 s1) (ha : SavesAs Xoshiro.methods.api s1 (bytesOf [a, b, c, d]))
    (ht : t ++ List.replicate (32 - t.length) 0#8 = bytesOf [p, q, r, v]) :
    SavesAs Xoshiro.methods.api s (bytesOf [
      a ^^^ p ^^^ SplitMix.out 0 (4 * (u.length / 32) + 4),
      b ^^^ q ^^^ SplitMix.out 0 (4 * (u.length / 32) + 5),
      c ^^^ r ^^^ SplitMix.out 0 (4 * (u.length / 32) + 6),
      d ^^^ v ^^^ SplitMix.out 0 (4 * (u.length / 32) + 7)]) := by
  obtain ⟨bs, rfl⟩ := Xoshiro.whole_blocks u hu
  rw [Xoshiro.seedIV_part g bs t h0 h32 p q r v ht] at h
  rw [Xoshiro.seedIV_blocks] at hs0
  injection h with h
  injection hs0 with hs0
  rw [leads_pure (next := Xoshiro.uint64) (out := Xoshiro.out) (step := Xoshiro.step) (fun _ => rfl)] at hs1
  rw [hs0, hs1] at h
  rw [Xoshiro.blockBytes_length, Nat.mul_div_cancel_left _ (by decide)]
  have h1 := Xoshiro.absorbAll_sm bs g.seedInit 4 (Xoshiro.seedInit_ref g).2
  rw [Nat.add_comm] at h1
  rw [(Xoshiro.smXor_ref _ _ _ h1).1] at h
  have h2 := bytesOf_inj [a, b, c, d] [s1.w, s1.x, s1.y, s1.z] rfl
    (savesAs_inj ha (savesAs_of Xoshiro.methods _ _ (Xoshiro.save_eq s1)))
  simp only [List.cons.injEq, and_true] at h2
  obtain ⟨rfl, rfl, rfl, rfl⟩ := h2
  subst h
  exact savesAs_of _ _ _ (Xoshiro.save_eq _)

/-! ### C76 -/

theorem u64_bij_of_inj {f : U64 → U64} (h : Function.Injective f) (c : U64) : ∃! x, f x = c :=
  ((Function.bijective_iff_existsUnique f).mp (Finite.injective_iff_bijective.mp h)) c

theorem Xoshiro.seed_short (g : Xoshiro) (iv : List Byte) (h0 : iv ≠ []) (p : U64) (hp : iv ++ zeros (8 - iv.length) = le64 p)
    (h8 : iv.length ≤ 8) : g.seedIV iv = .ok (smXor (xor4 (step g.seedInit.1) p 0#64 0#64 0#64) g.seedInit.2).1 :=
  Xoshiro.seedIV_tail [] [] iv h0 h8 (by simp; omega) p hp g

/-- C76: the first output of a Xoshiro seeded with 1 to 8 bytes is the same, whatever the bytes. -/
theorem C76_Xoshiro_first_constant (g s : Xoshiro) (iv : List Byte) (h0 : iv ≠ []) (h8 : iv.length ≤ 8) (h : g.seedIV iv = .ok s) :
    Emits Xoshiro.uint64 s 0 [0x3af8419d9287d417#64] := by
  obtain ⟨p, hp⟩ := pad_word iv h8
  rw [Xoshiro.seed_short g iv h0 p hp h8] at h
  injection h with h
  subst h
  rw [emits_one (next := Xoshiro.uint64) (out := Xoshiro.out) (step := Xoshiro.step) (fun _ => rfl)]
  have e : ∀ a : U64, (Xoshiro.smXor (Xoshiro.xor4 (Xoshiro.step g.seedInit.1) a 0#64 0#64 0#64) g.seedInit.2).1.x =
      (Xoshiro.smXor (Xoshiro.xor4 (Xoshiro.step Xoshiro.new.seedInit.1) 0#64 0#64 0#64 0#64) Xoshiro.new.seedInit.2).1.x := fun _ => rfl
  show Xoshiro.out _ = _
  unfold Xoshiro.out
  rw [Function.iterate_zero, id, e]
  decide +kernel

/-- C76: so `Seed` does not affect the first output of Xoshiro at all. -/
theorem C76_Xoshiro_Seed_first (g s : Xoshiro) (x : U64) (h : g.seed x = .ok s) : Emits Xoshiro.uint64 s 0 [0x3af8419d9287d417#64] :=
  C76_Xoshiro_first_constant g s (le64 x) (by simp [le64]) (by simp) h

/-- C76: of the bytes of an iv of up to 32 bytes only numbers 8 to 15 affect the first output. -/
theorem C76_Xoshiro_first (g s s' : Xoshiro) (iv iv' : List Byte) (hl : iv.length = iv'.length) (h32 : iv.length ≤ 32)
    (hm : (iv.drop 8).take 8 = (iv'.drop 8).take 8) (h : g.seedIV iv = .ok s) (h' : g.seedIV iv' = .ok s') (c : U64) :
    Emits Xoshiro.uint64 s 0 [c] ↔ Emits Xoshiro.uint64 s' 0 [c] := by
  by_cases h0 : iv.length = 0
  · rw [List.length_eq_zero_iff.mp h0] at h
    rw [List.length_eq_zero_iff.mp (hl.symm.trans h0)] at h'
    rw [h] at h'
    injection h' with h'
    rw [h']
  · obtain ⟨ws, h1, h2⟩ := exists_words (iv ++ List.replicate (32 - iv.length) 0#8) 4 (by simp; omega)
    obtain ⟨ws', h1', h2'⟩ := exists_words (iv' ++ List.replicate (32 - iv'.length) 0#8) 4 (by simp; omega)
    rw [List.drop_eq_nil_of_le (by simp; omega), List.append_nil] at h2 h2'
    match ws, ws', h1, h1' with
    | [p, q, r, v], [p', q', r', v'], _, _ =>
      have e := Xoshiro.seedIV_part g [] iv (by omega) h32 p q r v h2
      have e' := Xoshiro.seedIV_part g [] iv' (by omega) (by omega) p' q' r' v' h2'
      have hb : Xoshiro.blockBytes [] = [] := rfl
      rw [hb, List.nil_append] at e e'
      rw [e] at h
      rw [e'] at h'
      injection h with h
      injection h' with h'
      have hq : q = q' := by
        have h3 := congrArg (fun l => (l.drop 8).take 8) h2
        have h3' := congrArg (fun l => (l.drop 8).take 8) h2'
        simp only [bytesOf_cons, bytesOf_nil] at h3 h3'
        rw [List.drop_left' (l₁ := le64 p) (i := 8) (by simp), List.take_left' (l₁ := le64 q) (i := 8) (by simp), List.drop_append, List.take_append] at h3
        rw [List.drop_left' (l₁ := le64 p') (i := 8) (by simp), List.take_left' (l₁ := le64 q') (i := 8) (by simp), List.drop_append, List.take_append] at h3'
        refine le64_injective ?_
        rw [← h3, ← h3', hm, ← hl]
        simp only [List.length_drop, hl]
      subst hq
      rw [emits_one (next := Xoshiro.uint64) (out := Xoshiro.out) (step := Xoshiro.step) (fun _ => rfl),
        emits_one (next := Xoshiro.uint64) (out := Xoshiro.out) (step := Xoshiro.step) (fun _ => rfl)]
      have hx : s.x = s'.x := by rw [← h, ← h', hl]; rfl
      show s.out = c ↔ s'.out = c
      unfold Xoshiro.out
      rw [hx]

/-- C76: the second output after `Seed` is a bijective function of the seed. -/
theorem C76_Xoshiro_Seed_second (g : Xoshiro) (c : U64) : ∃! x : U64, ∃ s, g.seed x = .ok s ∧ Emits Xoshiro.uint64 s 1 [c] := by
  have e : ∀ x : U64, (∃ s, g.seed x = .ok s ∧ Emits Xoshiro.uint64 s 1 [c]) ↔
      (Xoshiro.smXor (Xoshiro.xor4 (Xoshiro.step g.seedInit.1) x 0#64 0#64 0#64) g.seedInit.2).1.step.out = c := by
    intro x
    have h : g.seed x = _ := Xoshiro.seed_short g (le64 x) (by simp [le64]) x (by simp [zeros]) (by simp)
    simp only [h, Except.ok.injEq, exists_eq_left', emits_one (next := Xoshiro.uint64) (out := Xoshiro.out) (step := Xoshiro.step) (fun _ => rfl)]
    rfl
  simp only [e]
  refine u64_bij_of_inj (fun x y h => ?_) c
  have h1 := Xoshiro.out_inj h
  simp only [Xoshiro.step, Xoshiro.smXor, Xoshiro.xor4] at h1
  have h2 := xor_left_inj' _ h1
  have h3 := xor_left_inj' _ h2
  have h4 := xor_right_inj' _ h3
  exact xor_left_inj' _ h4

theorem Xoroshiro.seed_eq (g : Xoroshiro) (x : U64) :
    g.seed x = .ok ⟨smMix (((smAfter [] + smGamma) ^^^ x) + smGamma), smMix (smAfter [] + smGamma)⟩ :=
  Xoroshiro.seedIV_words [] (le64 x) (by simp [le64]) (by simp) x (by simp [zeros]) g

/-- C76: the first output of Xoroshiro after `Seed` is a bijective function of the seed. -/
theorem C76_Xoroshiro_Seed_first (g : Xoroshiro) (c : U64) :
    ∃! x : U64, ∃ s, g.seed x = .ok s ∧ Emits Xoroshiro.uint64 s 0 [c] := by
  have e : ∀ x : U64, (∃ s, g.seed x = .ok s ∧ Emits Xoroshiro.uint64 s 0 [c]) ↔
      smMix (((smAfter [] + smGamma) ^^^ x) + smGamma) + smMix (smAfter [] + smGamma) = c := by
    intro x
    simp only [Xoroshiro.seed_eq, Except.ok.injEq, exists_eq_left', emits_one (next := Xoroshiro.uint64) (out := Xoroshiro.out) (step := Xoroshiro.step) (fun _ => rfl)]
    rfl
  simp only [e]
  exact u64_bij_of_inj (fun x y h => xor_left_inj' _ (add_right_inj' _ (smMix_inj (add_right_inj' _ h)))) c

/-- C76: the same for Rexoroshiro. -/
theorem C76_Rexoroshiro_Seed_first (g : Rexoroshiro) (c : U64) :
    ∃! x : U64, ∃ s, g.seed x = .ok s ∧ Emits Rexoroshiro.uint64 s 0 [c] := by
  have e : ∀ x : U64, (∃ s, g.seed x = .ok s ∧ Emits Rexoroshiro.uint64 s 0 [c]) ↔
      reverseBytes64 (smMix (((smAfter [] + smGamma) ^^^ x) + smGamma) + smMix (smAfter [] + smGamma)) = c := by
    intro x
    have h : g.seed x = .ok ⟨⟨smMix (((smAfter [] + smGamma) ^^^ x) + smGamma), smMix (smAfter [] + smGamma)⟩⟩ := by
      show (do let x ← g.xoro.seed x; return Rexoroshiro.mk x) = _
      rw [Xoroshiro.seed_eq]
      rfl
    simp only [h, Except.ok.injEq, exists_eq_left', emits_one (out := fun s : Rexoroshiro => reverseBytes64 s.xoro.out)
      (step := fun s => ⟨s.xoro.step⟩) (next := Rexoroshiro.uint64) (fun _ => rfl)]
    rfl
  simp only [e]
  refine u64_bij_of_inj (fun x y h => ?_) c
  have key : ∀ a b : U64, reverseBytes64 a = reverseBytes64 b → a = b := by
    intro a b h
    have h1 := congrArg (fun v => (bytesOf [v]).reverse) h
    simp only [bytesOf_reverseBytes64, List.reverse_reverse] at h1
    have h2 := bytesOf_inj [a] [b] rfl h1
    simp only [List.cons.injEq, and_true] at h2
    exact h2
  exact xor_left_inj' _ (add_right_inj' _ (smMix_inj (add_right_inj' _ (key _ _ h))))

/-- Non-vacuity of C75 and C76: seeding always succeeds. -/
example : (∃ s, Xoroshiro.new.seedIV (bytesOf [5#64] ++ [1#8, 2#8]) = .ok s) ∧ (∃ s, Xoshiro.new.seedIV [1#8, 2#8] = .ok s) ∧
    ∃ s, Rexoroshiro.new.seedIV [] = .ok s := by
  refine ⟨⟨_, Xoroshiro.seedIV_words [5#64] [1#8, 2#8] (by decide) (by decide) 0x201#64 (by decide +kernel) _⟩,
    ⟨_, Xoshiro.seed_short _ [1#8, 2#8] (by decide) 0x201#64 (by decide +kernel) (by decide)⟩, ⟨_, rfl⟩⟩

/-- The reference's outputs for seed 0 (as in published test vectors). -/
example : SplitMix.out 0 0 = 0xe220a8397b1dcdaf#64 ∧ SplitMix.out 0 1 = 0x6e789e6aa1b965f4#64 := by decide +kernel

end Crazy
