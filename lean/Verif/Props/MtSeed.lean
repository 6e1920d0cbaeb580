/-
C63: which bits of the initialization vector `MT64.SeedIV` uses.
-/
import Verif.Proofs.MT64
import Verif.Proofs.SmMix
namespace Crazy

/-- `iv` with zero bytes appended up to a whole number of 8-byte words. -/
def zeroPad (iv : List Byte) : List Byte := iv ++ List.replicate ((8 - iv.length % 8) % 8) 0#8

namespace MT64

theorem pad8_eq (iv : List Byte) : pad8 iv = zeroPad iv := by
  unfold pad8 zeroPad
  by_cases h : iv.length % 8 = 0
  · rw [if_neg (by simpa using h), h]; simp
  · rw [if_pos h, copyInto, zeros, List.take_of_length_le (by simp; omega), List.drop_replicate]
    congr 2
    omega

/-- The multiplier-and-shift step common to both loops. -/
def mixStep (m a p : U64) : U64 := (a ^^^ p ^^^ (p >>> 62)) * m

theorem mixStep_inj {m m' : U64} (hm : m * m' = 1#64) {a b p : U64} (h : mixStep m a p = mixStep m b p) : a = b := by
  unfold mixStep at h
  have := mul_inj m m' hm _ _ h
  exact xor_right_inj' _ (xor_right_inj' _ this)

theorem inv1 : 3935559000370003845#64 * 0xbe21f44c6018e14d#64 = 1#64 := by decide
theorem inv2 : 2862933555777941757#64 * 0xdfe66807999cec55#64 = 1#64 := by decide

/-- The wrap-around of the index. -/
theorem incI_lt (i : Nat) (s : Vector U64 312) (h : i < 311) : incI i s = .ok (i + 1, s) := by
  unfold incI
  rw [if_neg (by show ¬ 312 ≤ i + 1; omega)]
  rfl

theorem incI_eq (s : Vector U64 312) : incI 311 s = .ok (1, s.set 0 s[311]) := by
  unfold incI
  rw [if_pos (by decide), aget_lt _ (show mt64N - 1 < 312 by decide)]
  simp only [bind, Except.bind, pure, Except.pure]
  rw [aset_lt _ _ (show 0 < 312 by omega)]
  rfl

/-- What the first loop adds at word `j`. -/
def keyAdd (ws : List U64) (j : Nat) : U64 := ws.getD j 0#64 + BitVec.ofNat 64 j

theorem loop1_key (ws : List U64) (j : Nat) (hj : j < ws.length) :
    (do u64le (← sliceFrom (bytesOf ws) (j * 8))) = .ok (ws.getD j 0#64) := by
  have h1 : sliceFrom (bytesOf ws) (j * 8) = .ok ((bytesOf ws).drop (8 * j)) := by
    rw [sliceFrom, if_pos (by rw [bytesOf_length]; omega), Nat.mul_comm]
  have h2 := bytesOf_take_drop ws j [] hj
  rw [List.append_nil] at h2
  simp only [bind, Except.bind]
  rw [h1]
  simp only []
  rw [h2, List.getD_eq_getElem?_getD, List.getElem?_eq_getElem hj]
  rfl

theorem loop1_zero (iv : List Byte) (i j : Nat) (s : Vector U64 312) : seedLoop1 iv 0 i j s = .ok (i, s) := rfl

theorem loop2_zero (i : Nat) (s : Vector U64 312) : seedLoop2 0 i s = .ok (i, s) := rfl

theorem loop1_step (ws : List U64) (k i j : Nat) (s : Vector U64 312) (hi0 : 1 ≤ i) (hi : i < 312)
    (hj : j < ws.length) :
    seedLoop1 (bytesOf ws) (k + 1) i j s = (do
      let (i, s) ← incI i (s.set i (mixStep 3935559000370003845#64 s[i] s[i - 1] + keyAdd ws j))
      seedLoop1 (bytesOf ws) k i ((j + 1) % ws.length) s) := by
  have hk := loop1_key ws j hj
  have hj' : (if (bytesOf ws).length ≤ (j + 1) * 8 then 0 else j + 1) = (j + 1) % ws.length := by
    rw [bytesOf_length]
    by_cases h : ws.length ≤ j + 1
    · rw [if_pos (by omega), show j + 1 = ws.length by omega, Nat.mod_self]
    · rw [if_neg (by omega), Nat.mod_eq_of_lt (by omega)]
  rw [seedLoop1, aget_lt _ hi, aget_lt _ (show i - 1 < 312 by omega)]
  simp only [bind, Except.bind] at hk ⊢
  cases h1 : sliceFrom (bytesOf ws) (j * 8) with
  | error e => rw [h1] at hk; simp at hk
  | ok p =>
    rw [h1] at hk
    simp only [] at hk ⊢
    rw [hk]
    simp only []
    rw [aset_lt _ _ hi]
    simp only []
    rw [hj', show (s[i] ^^^ s[i - 1] ^^^ s[i - 1] >>> 62) * 3935559000370003845#64 + ws.getD j 0#64 + BitVec.ofNat 64 j =
      mixStep 3935559000370003845#64 s[i] s[i - 1] + keyAdd ws j from BitVec.add_assoc ..]

theorem loop1_lt (ws : List U64) (k i j : Nat) (s : Vector U64 312) (hi0 : 1 ≤ i) (hi : i < 311)
    (hj : j < ws.length) :
    seedLoop1 (bytesOf ws) (k + 1) i j s = seedLoop1 (bytesOf ws) k (i + 1) ((j + 1) % ws.length)
      (s.set i (mixStep 3935559000370003845#64 s[i] s[i - 1] + keyAdd ws j)) := by
  rw [loop1_step ws k i j s hi0 (by omega) hj, incI_lt _ _ hi]
  rfl

theorem loop1_wrap (ws : List U64) (k j : Nat) (s : Vector U64 312) (hj : j < ws.length) (x : U64)
    (hx : x = mixStep 3935559000370003845#64 s[311] s[311 - 1] + keyAdd ws j) :
    seedLoop1 (bytesOf ws) (k + 1) 311 j s = seedLoop1 (bytesOf ws) k 1 ((j + 1) % ws.length)
      ((s.set 311 x).set 0 (s.set 311 x)[311]) := by
  rw [loop1_step ws k 311 j s (by omega) (by omega) hj, incI_eq, hx]
  rfl

theorem loop2_step (k i : Nat) (s : Vector U64 312) (hi0 : 1 ≤ i) (hi : i < 312) :
    seedLoop2 (k + 1) i s = (do
      let (i, s) ← incI i (s.set i (mixStep 2862933555777941757#64 s[i] s[i - 1] - BitVec.ofNat 64 i))
      seedLoop2 k i s) := by
  rw [seedLoop2, aget_lt _ hi, aget_lt _ (show i - 1 < 312 by omega)]
  simp only [bind, Except.bind]
  rw [aset_lt _ _ hi]
  rfl

theorem loop2_lt (k i : Nat) (s : Vector U64 312) (hi0 : 1 ≤ i) (hi : i < 311) :
    seedLoop2 (k + 1) i s = seedLoop2 k (i + 1)
      (s.set i (mixStep 2862933555777941757#64 s[i] s[i - 1] - BitVec.ofNat 64 i)) := by
  rw [loop2_step k i s hi0 (by omega), incI_lt _ _ hi]
  rfl

theorem loop2_wrap (k : Nat) (s : Vector U64 312) (x : U64)
    (hx : x = mixStep 2862933555777941757#64 s[311] s[311 - 1] - BitVec.ofNat 64 311) :
    seedLoop2 (k + 1) 311 s = seedLoop2 k 1 ((s.set 311 x).set 0 (s.set 311 x)[311]) := by
  rw [loop2_step k 311 s (by omega) (by omega), incI_eq, hx]
  rfl

/-- The words the first pass of the first loop stores. -/
def pass1 (c : Vector U64 312) (ws : List U64) : Nat → U64
  | 0 => c[0]
  | m + 1 => mixStep 3935559000370003845#64 (c.toList.getD (m + 1) 0#64) (pass1 c ws m) + keyAdd ws (m % ws.length)

/-- The first `t+1` words replaced by `A`. -/
def mixed (c : Vector U64 312) (A : Nat → U64) (t : Nat) : Vector U64 312 :=
  Vector.ofFn fun i : Fin 312 => if i.val ≤ t then A i else c[i]

theorem mixed_get (c : Vector U64 312) (A : Nat → U64) (t i : Nat) (h : i < 312) :
    (mixed c A t)[i] = if i ≤ t then A i else c[i] := by
  simp only [mixed, Vector.getElem_ofFn]
  rfl

theorem mixed_set (c : Vector U64 312) (A : Nat → U64) (t : Nat) (h : t + 1 < 312) (x : U64) (hx : x = A (t + 1)) :
    (mixed c A t).set (t + 1) x h = mixed c A (t + 1) := by
  apply Vector.ext; intro i hi
  rw [Vector.getElem_set, mixed_get _ _ _ _ hi, mixed_get _ _ _ _ hi]
  split
  · subst_vars; rw [if_pos (Nat.le_refl _)]
  · split <;> rename_i h2
    · rw [if_pos (by omega)]
    · rw [if_neg (by omega)]

theorem mixed_zero (c : Vector U64 312) (A : Nat → U64) (h : A 0 = c[0]) : mixed c A 0 = c := by
  apply Vector.ext; intro i hi
  rw [mixed_get _ _ _ _ hi]
  split
  · rename_i h0
    obtain rfl : i = 0 := by omega
    exact h
  · rfl

theorem pass1_step (c : Vector U64 312) (ws : List U64) (t : Nat) (ht : t + 1 < 312) :
    mixStep 3935559000370003845#64 ((mixed c (pass1 c ws) t)[t + 1]) ((mixed c (pass1 c ws) t)[t + 1 - 1]) +
      keyAdd ws (t % ws.length) = pass1 c ws (t + 1) := by
  rw [mixed_get _ _ _ _ (show t + 1 < 312 by omega), mixed_get _ _ _ _ (show t + 1 - 1 < 312 by omega),
    if_neg (by omega), if_pos (by omega), pass1]
  congr 2
  rw [List.getD_eq_getElem?_getD, List.getElem?_eq_getElem (by simp; omega)]
  simp

theorem loop1_prefix (c : Vector U64 312) (ws : List U64) (hw : 0 < ws.length) (k t : Nat) (ht : t ≤ 310) :
    seedLoop1 (bytesOf ws) (k + t) 1 0 c = seedLoop1 (bytesOf ws) k (t + 1) (t % ws.length) (mixed c (pass1 c ws) t) := by
  induction t generalizing k with
  | zero => rw [mixed_zero c _ rfl, Nat.zero_mod]; rfl
  | succ t ih =>
    rw [show k + (t + 1) = (k + 1) + t by omega, ih (k + 1) (by omega),
      loop1_step ws k (t + 1) _ _ (by omega) (by omega) (Nat.mod_lt _ hw), incI_lt _ _ (by omega)]
    simp only [bind, Except.bind]
    rw [mixed_set _ _ _ (by omega)]
    · rw [show (t % ws.length + 1) % ws.length = (t + 1) % ws.length by
        rw [Nat.add_mod, Nat.mod_mod, ← Nat.add_mod]]
    · exact pass1_step c ws t (by omega)

/-- The state after the first loop, for ivs of at most 312 bytes. -/
theorem loop1_eq (c : Vector U64 312) (ws : List U64) (hw : 0 < ws.length) :
    ∃ u : Vector U64 312, seedLoop1 (bytesOf ws) 312 1 0 c = .ok (2, u) ∧ u[0] = u[311] ∧
      ∀ i, 2 ≤ i → ∀ hi : i < 312, u[i] = pass1 c ws i := by
  have h := loop1_prefix c ws hw 2 310 (by omega)
  rw [show 2 + 310 = 312 from rfl] at h
  obtain ⟨L, hL⟩ : ∃ L, seedLoop1 (bytesOf ws) 312 1 0 c = L := ⟨_, rfl⟩
  rw [hL] at h ⊢
  rw [loop1_wrap ws 1 _ _ (Nat.mod_lt _ hw) _ (pass1_step c ws 310 (by omega)).symm,
    mixed_set c (pass1 c ws) 310 (by omega) _ rfl] at h
  generalize hm : mixed c (pass1 c ws) (310 + 1) = w at h
  rw [loop1_lt ws 0 1 _ _ (by omega) (by omega) (Nat.mod_lt _ hw), loop1_zero] at h
  generalize hv : Vector.set (Vector.set w 0 _ _) 1 _ _ = v at h
  refine ⟨v, h, ?_, ?_⟩
  all_goals rw [← hv]
  · simp only [Vector.getElem_set, if_true, show ¬ 1 = 0 by omega, show ¬ 1 = 311 by omega,
      show ¬ 0 = 311 by omega, if_false]
  · intro i h2 hi
    rw [Vector.getElem_set_ne _ _ (by omega), Vector.getElem_set_ne _ _ (by omega), ← hm, mixed_get _ _ _ _ hi,
      if_pos (by omega)]

/-- The words the second loop stores: word 1 is left for the end. -/
def pass2 (u : Vector U64 312) : Nat → U64
  | 0 => u[0]
  | 1 => u[1]
  | m + 2 => mixStep 2862933555777941757#64 (u.toList.getD (m + 2) 0#64) (pass2 u (m + 1)) - BitVec.ofNat 64 (m + 2)

theorem pass2_step (u : Vector U64 312) (t : Nat) (ht : t + 2 < 312) :
    mixStep 2862933555777941757#64 ((mixed u (pass2 u) (t + 1))[t + 2]) ((mixed u (pass2 u) (t + 1))[t + 2 - 1]) -
      BitVec.ofNat 64 (t + 2) = pass2 u (t + 2) := by
  rw [mixed_get _ _ _ _ (show t + 2 < 312 by omega), mixed_get _ _ _ _ (show t + 2 - 1 < 312 by omega),
    if_neg (by omega), if_pos (by omega), pass2]
  congr 2
  rw [List.getD_eq_getElem?_getD, List.getElem?_eq_getElem (by simp; omega)]
  simp

theorem loop2_prefix (u : Vector U64 312) (k t : Nat) (ht : t ≤ 309) :
    seedLoop2 (k + t) 2 u = seedLoop2 k (t + 2) (mixed u (pass2 u) (t + 1)) := by
  induction t generalizing k with
  | zero =>
    have h1 : mixed u (pass2 u) 1 = mixed u (pass2 u) 0 := by
      apply Vector.ext; intro i hi
      rw [mixed_get _ _ _ _ hi, mixed_get _ _ _ _ hi]
      by_cases h : i ≤ 0
      · rw [if_pos (by omega), if_pos h]
      · rw [if_neg h]
        split
        · obtain rfl : i = 1 := by omega
          rfl
        · rfl
    rw [Nat.zero_add, h1, mixed_zero u _ rfl]
    rfl
  | succ t ih =>
    rw [show k + (t + 1) = (k + 1) + t by omega, ih (k + 1) (by omega), loop2_step k (t + 2) _ (by omega) (by omega),
      incI_lt _ _ (by omega)]
    simp only [bind, Except.bind]
    rw [mixed_set _ _ _ (by omega)]
    exact pass2_step u t (by omega)

/-- The state after the second loop. -/
theorem loop2_eq (u : Vector U64 312) :
    ∃ (i : Nat) (f : Vector U64 312), seedLoop2 311 2 u = .ok (i, f) ∧ f[0] = f[311] ∧
      f[1] = mixStep 2862933555777941757#64 u[1] f[0] - 1#64 ∧
      ∀ i, 2 ≤ i → ∀ hi : i < 312, f[i] = pass2 u i := by
  have h := loop2_prefix u 2 309 (by omega)
  rw [show 2 + 309 = 311 from rfl] at h
  obtain ⟨L, hL⟩ : ∃ L, seedLoop2 311 2 u = L := ⟨_, rfl⟩
  rw [hL] at h ⊢
  rw [loop2_wrap 1 _ _ (pass2_step u 309 (by omega)).symm,
    mixed_set u (pass2 u) (309 + 1) (by omega) _ rfl] at h
  generalize hm : mixed u (pass2 u) (309 + 1 + 1) = w at h
  rw [loop2_lt 0 1 _ (by omega) (by omega), loop2_zero] at h
  generalize hv : Vector.set (Vector.set w 0 _ _) 1 _ _ = v at h
  refine ⟨_, v, h, ?_, ?_, ?_⟩
  all_goals rw [← hv]
  · simp only [Vector.getElem_set, if_true, show ¬ 1 = 0 by omega, show ¬ 1 = 311 by omega,
      show ¬ 0 = 311 by omega, if_false]
  · have e : w[1] = u[1] := by
      rw [← hm, mixed_get _ _ _ _ (by omega), if_pos (by omega)]; rfl
    simp only [Vector.getElem_set, if_true, show ¬ 1 = 0 by omega, show ¬ 0 = 1 by omega,
      show 1 - 1 = 0 from rfl, if_false, e]
  · intro i h2 hi
    rw [Vector.getElem_set_ne _ _ (by omega), Vector.getElem_set_ne _ _ (by omega), ← hm, mixed_get _ _ _ _ hi,
      if_pos (by omega)]

theorem sub_right_inj' {a b : U64} (c : U64) (h : a - c = b - c) : a = b := by
  have := congrArg (· + c) h
  simpa [BitVec.sub_add_cancel] using this

/-- The second loop is injective on the states the first loop produces. -/
theorem loop2_inj (u u' : Vector U64 312) (h0 : u[0] = u[311]) (h0' : u'[0] = u'[311]) (i i' : Nat)
    (f : Vector U64 312) (h : seedLoop2 311 2 u = .ok (i, f)) (h' : seedLoop2 311 2 u' = .ok (i', f)) : u = u' := by
  obtain ⟨j, w, hw, a0, a1, a2⟩ := loop2_eq u
  obtain ⟨j', w', hw', b0, b1, b2⟩ := loop2_eq u'
  rw [h] at hw
  rw [h'] at hw'
  obtain ⟨-, rfl⟩ := Prod.mk.inj (Except.ok.inj hw)
  obtain ⟨-, rfl⟩ := Prod.mk.inj (Except.ok.inj hw')
  have e1 : u[1] = u'[1] := mixStep_inj inv2 (sub_right_inj' 1#64 (a1.symm.trans b1))
  have hp : ∀ m, 1 ≤ m → m < 312 → pass2 u m = pass2 u' m := by
    intro m h1 h2
    by_cases h3 : m = 1
    · subst h3; exact e1
    · rw [← a2 m (by omega) h2, ← b2 m (by omega) h2]
  have hg : ∀ (v : Vector U64 312) (m : Nat) (hm : m < 312), v.toList.getD m 0#64 = v[m] := by
    intro v m hm
    rw [List.getD_eq_getElem?_getD, List.getElem?_eq_getElem (by simpa using hm)]
    simp
  have e2 : ∀ m, 2 ≤ m → ∀ hm : m < 312, u[m] = u'[m] := by
    intro m h1 h2
    obtain ⟨k, rfl⟩ : ∃ k, m = k + 2 := ⟨m - 2, by omega⟩
    have h3 := hp (k + 2) (by omega) h2
    rw [pass2, pass2, hp (k + 1) (by omega) (by omega), hg u _ h2, hg u' _ h2] at h3
    exact mixStep_inj inv2 (sub_right_inj' _ h3)
  apply Vector.ext
  intro m hm
  by_cases h2 : 2 ≤ m
  · exact e2 m h2 hm
  · by_cases h1 : m = 1
    · subst h1; exact e1
    · obtain rfl : m = 0 := by omega
      rw [h0, h0', e2 311 (by omega) (by omega)]

/-- The first loop is injective in the key words, for up to 39 of them. -/
theorem loop1_inj (c : Vector U64 312) (ws ws' : List U64) (hl : ws.length = ws'.length) (hw : 0 < ws.length)
    (h39 : ws.length ≤ 39) (i i' : Nat) (u : Vector U64 312) (h : seedLoop1 (bytesOf ws) 312 1 0 c = .ok (i, u))
    (h' : seedLoop1 (bytesOf ws') 312 1 0 c = .ok (i', u)) : ws = ws' := by
  obtain ⟨v, hv, -, a⟩ := loop1_eq c ws hw
  obtain ⟨v', hv', -, a'⟩ := loop1_eq c ws' (by omega)
  rw [h] at hv
  rw [h'] at hv'
  obtain ⟨-, rfl⟩ := Prod.mk.inj (Except.ok.inj hv)
  obtain ⟨-, rfl⟩ := Prod.mk.inj (Except.ok.inj hv')
  have hp : ∀ m, 2 ≤ m → m < 312 → pass1 c ws m = pass1 c ws' m := by
    intro m h1 h2
    rw [← a m h1 h2, ← a' m h1 h2]
  have hk : ∀ j, j < ws.length → ws.getD j 0#64 = ws'.getD j 0#64 := by
    intro j hj
    -- iteration number `m`, at least 2, using word `j`
    obtain ⟨m, hm1, hm2, hm3⟩ : ∃ m, 2 ≤ m ∧ m < 311 ∧ m % ws.length = j :=
      ⟨j + 2 * ws.length, by omega, by omega, by
        rw [Nat.add_mod, Nat.mul_mod_left, Nat.add_zero, Nat.mod_mod, Nat.mod_eq_of_lt hj]⟩
    have h1 := hp (m + 1) (by omega) (by omega)
    rw [pass1, pass1, hp m hm1 (by omega), ← hl, hm3] at h1
    have h2 : keyAdd ws j = keyAdd ws' j := by
      rw [BitVec.add_comm, BitVec.add_comm (mixStep _ _ _)] at h1
      exact add_right_inj' _ h1
    exact add_right_inj' _ h2
  apply List.ext_getElem hl
  intro j h1 h2
  have := hk j h1
  rw [List.getD_eq_getElem?_getD, List.getElem?_eq_getElem h1, List.getD_eq_getElem?_getD,
    List.getElem?_eq_getElem h2] at this
  exact this

/-- `SeedIV` on whole words. -/
theorem seedIV_words (iv : List Byte) (h0 : iv ≠ []) (h312 : iv.length ≤ 312) :
    ∃ ws : List U64, zeroPad iv = bytesOf ws ∧ ws.length = (iv.length + 7) / 8 ∧
      ∃ (c u f : Vector U64 312) (i : Nat), c = (Vector.ofFn fun i : Fin 312 => seedSeq 19650218#64 i) ∧
        seedLoop1 (bytesOf ws) 312 1 0 c = .ok (2, u) ∧ u[0] = u[311] ∧ seedLoop2 311 2 u = .ok (i, f) ∧
        ∀ g, seedIV iv g = .ok { i := 312, s := f } := by
  have hp := pad8_length iv
  rw [pad8_eq] at hp
  have hpos : 0 < iv.length := List.length_pos_iff.mpr h0
  obtain ⟨ws, hws⟩ := whole_words (zeroPad iv) (by rw [hp]; exact Nat.dvd_mul_left ..)
  have hlen : ws.length = (iv.length + 7) / 8 := by
    have := congrArg List.length hws
    rw [bytesOf_length, hp] at this
    omega
  obtain ⟨c, hc⟩ : ∃ c, c = (Vector.ofFn fun i : Fin 312 => seedSeq 19650218#64 i) := ⟨_, rfl⟩
  obtain ⟨u, h1, h2, -⟩ := loop1_eq c ws (by omega)
  obtain ⟨i, f, h3, -⟩ := loop2_eq u
  refine ⟨ws, hws, hlen, c, u, f, i, hc, h1, h2, h3, fun g => ?_⟩
  unfold seedIV
  rw [seed_eq]
  simp only [bind, Except.bind, pure, Except.pure]
  rw [if_neg (by omega), pad8_eq, hws]
  have hk : (if mt64N < (bytesOf ws).length then (bytesOf ws).length else mt64N) = 312 := by
    rw [bytesOf_length]
    exact if_neg (by show ¬ 312 < _; omega)
  rw [hk, ← hc, h1]
  simp only []
  rw [show mt64N - 1 = 311 from rfl, h3]

end MT64

/-- C63: two ivs of at most 312 bytes with the same number of 8-byte words (counting a last partial word, which is filled
up with zeros) that are not equal after that zero padding seed different states, whatever the states before. -/
theorem C63_MT64_injective (iv iv' : List Byte) (hl : (iv.length + 7) / 8 = (iv'.length + 7) / 8)
    (h312 : iv.length ≤ 312) (hne : zeroPad iv ≠ zeroPad iv') (g g' : MT64) : g.seedIV iv ≠ g'.seedIV iv' := by
  by_cases h0 : iv = []
  · subst h0
    have : iv' = [] := by
      apply List.length_eq_zero_iff.mp
      simp at hl; omega
    exact absurd (by rw [this]) hne
  have hpos : 0 < iv.length := List.length_pos_iff.mpr h0
  have h0' : iv' ≠ [] := by
    rintro rfl
    simp at hl; omega
  obtain ⟨ws, e1, l1, c, u, f, i, hc, a1, a2, a3, a4⟩ := MT64.seedIV_words iv h0 h312
  obtain ⟨ws', e1', l1', c', u', f', i', hc', b1, b2, b3, b4⟩ := MT64.seedIV_words iv' h0' (by omega)
  rw [a4, b4]
  intro h
  obtain rfl : f = f' := congrArg MT64.s (Except.ok.inj h)
  obtain rfl := MT64.loop2_inj u u' a2 b2 i i' f a3 b3
  rw [hc', ← hc] at b1
  have := MT64.loop1_inj c ws ws' (by omega) (by omega) (by omega) 2 2 u a1 b1
  exact hne (by rw [e1, e1', this])

/-- C63 for ivs of one length: no two of them, up to 312 bytes, seed the same state. -/
theorem C63_MT64_same_length (iv iv' : List Byte) (hl : iv.length = iv'.length) (h312 : iv.length ≤ 312)
    (hne : iv ≠ iv') (g g' : MT64) : g.seedIV iv ≠ g'.seedIV iv' :=
  C63_MT64_injective iv iv' (by rw [hl]) h312 (fun h => hne (List.append_inj_left h hl)) g g'

/-- C63, the limit: the zero padding itself is invisible. -/
theorem C63_MT64_padding (iv : List Byte) (h0 : iv ≠ []) (g : MT64) : g.seedIV (zeroPad iv) = g.seedIV iv := by
  have hpos : 0 < iv.length := List.length_pos_iff.mpr h0
  have hz : (zeroPad iv).length % 8 = 0 := by simp [zeroPad]; omega
  have hz' : (zeroPad iv).length ≠ 0 := by rw [zeroPad, List.length_append]; omega
  have hid : MT64.pad8 (zeroPad iv) = zeroPad iv := by
    unfold MT64.pad8; rw [if_neg (by simpa using hz)]
  unfold MT64.seedIV
  rw [MT64.seed_eq]
  simp only [bind, Except.bind, pure, Except.pure]
  rw [if_neg hz', if_neg (show ¬ iv.length = 0 by omega), hid, MT64.pad8_eq]

theorem MT64.loop1_collide (a : U64) (k i j : Nat) (s : Vector U64 312) (hi0 : 1 ≤ i) (hi : i < 312) (hj : j < 2) :
    MT64.seedLoop1 (bytesOf [a]) k i 0 s = MT64.seedLoop1 (bytesOf [a, a - 1#64]) k i j s := by
  induction k generalizing i j s with
  | zero => rfl
  | succ k ih =>
    rw [MT64.loop1_step [a] k i 0 s hi0 hi (by simp), MT64.loop1_step [a, a - 1#64] k i j s hi0 hi hj]
    have e : MT64.keyAdd [a] 0 = MT64.keyAdd [a, a - 1#64] j := by
      match j, hj with
      | 0, _ => rfl
      | 1, _ => simp [MT64.keyAdd, BitVec.sub_add_cancel]
    rw [e, show (0 + 1) % [a].length = 0 from Nat.mod_one _]
    obtain ⟨i', s', h1, h2, h3⟩ := MT64.incI_total i (s.set i (MT64.mixStep 3935559000370003845#64 s[i] s[i - 1] +
      MT64.keyAdd [a, a - 1#64] j)) hi
    rw [h1]
    exact ih i' _ s' h2 h3 (Nat.mod_lt _ (by simp))

/-- C63, the limit: ivs with different numbers of words can collide. For every word `a` the 8-byte iv `a` and the 16-byte
iv `a, a-1` seed the same state. -/
theorem C63_MT64_collision (a : U64) (g : MT64) : g.seedIV (bytesOf [a]) = g.seedIV (bytesOf [a, a - 1#64]) := by
  have p1 : MT64.pad8 (bytesOf [a]) = bytesOf [a] := by
    unfold MT64.pad8; rw [if_neg (by simp [bytesOf_length])]
  have p2 : MT64.pad8 (bytesOf [a, a - 1#64]) = bytesOf [a, a - 1#64] := by
    unfold MT64.pad8; rw [if_neg (by simp [bytesOf_length])]
  have k1 : (if mt64N < (bytesOf [a]).length then (bytesOf [a]).length else mt64N) = mt64N :=
    if_neg (by rw [bytesOf_length, mt64N]; simp only [List.length_cons, List.length_nil]; omega)
  have k2 : (if mt64N < (bytesOf [a, a - 1#64]).length then (bytesOf [a, a - 1#64]).length else mt64N) = mt64N :=
    if_neg (by rw [bytesOf_length, mt64N]; simp only [List.length_cons, List.length_nil]; omega)
  unfold MT64.seedIV
  rw [MT64.seed_eq]
  simp only [bind, Except.bind, pure, Except.pure]
  rw [if_neg (show ¬ (bytesOf [a]).length = 0 by rw [bytesOf_length]; exact Nat.succ_ne_zero _),
    if_neg (show ¬ (bytesOf [a, a - 1#64]).length = 0 by rw [bytesOf_length]; exact Nat.succ_ne_zero _), p1, p2, k1, k2,
    MT64.loop1_collide a mt64N 1 0 _ (by decide) (by decide) (by decide)]

/-- Non-vacuity of C63. -/
example : ∃ iv iv' : List Byte, (iv.length + 7) / 8 = (iv'.length + 7) / 8 ∧ iv.length ≤ 312 ∧ iv.length ≠ iv'.length ∧
    zeroPad iv ≠ zeroPad iv' := ⟨[1#8, 2#8], [1#8, 2#8, 3#8], by decide⟩

end Crazy
