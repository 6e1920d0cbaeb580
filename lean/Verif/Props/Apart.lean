/-
C113: how the output streams of two seeds compare.
-/
import Verif.Spec.Apart
import Verif.Props.Predict
import Verif.Props.SeedBits
import Verif.Props.SeedRef
import Verif.Props.MtSeed
import Verif.Props.SeedAlive
import Verif.Props.LfgSeed
import Verif.Props.Period2
import Verif.Props.DeadState
namespace Crazy
set_option exponentiation.threshold 20000

theorem apart_iff {σ : Type} {next : σ → Go (U64 × σ)} {s t : σ} {k : Nat} (f g : Nat → U64) (hf : ∀ n w, Emits next s n [w] ↔ f n = w)
    (hg : ∀ n w, Emits next t n [w] ↔ g n = w) : Apart next k s t ↔ ¬ ∀ n < k, f n = g n := by
  unfold Apart
  simp only [hf, hg]
  constructor
  · rintro ⟨n, hn, x, y, rfl, rfl, h⟩ h1
    exact h (h1 n hn)
  · intro h
    by_contra hc
    refine h fun n hn => ?_
    by_contra he
    exact hc ⟨n, hn, _, _, rfl, rfl, he⟩

theorem shiftOf_iff {σ : Type} {next : σ → Go (U64 × σ)} {s t : σ} {d : Nat} (f g : Nat → U64) (hf : ∀ n w, Emits next s n [w] ↔ f n = w)
    (hg : ∀ n w, Emits next t n [w] ↔ g n = w) : ShiftOf next d s t ↔ ∀ n, g n = f (d + n) := by
  unfold ShiftOf
  simp only [hf, hg]
  constructor
  · intro h n
    exact ((h n _).mp rfl).symm
  · intro h n x
    rw [h n]

/-! ### Xoroshiro and Rexoroshiro -/

/-- C113: two states of Xoroshiro give different outputs within 128 calls, unless they are equal. -/
theorem C113_Xoroshiro (s t : Xoroshiro) : Apart Xoroshiro.uint64 128 s t ↔ s ≠ t := by
  rw [apart_iff _ _ (fun n w => Xoroshiro.emits_val s n w) (fun n w => Xoroshiro.emits_val t n w)]
  refine not_congr ⟨fun h => ?_, fun h n _ => by rw [h]⟩
  exact Xoroshiro.eq_of_low s t fun n hn => by rw [h n hn]

/-- C113: the same for Rexoroshiro. -/
theorem C113_Rexoroshiro (s t : Rexoroshiro) : Apart Rexoroshiro.uint64 128 s t ↔ s ≠ t := by
  have he : ∀ (g : Rexoroshiro) n w, Emits Rexoroshiro.uint64 g n [w] ↔ reverseBytes64 (Xoroshiro.out (Xoroshiro.step^[n] g.xoro)) = w :=
    fun g n w => by rw [emits_one Rexoroshiro.uint64_pure, Rexoroshiro.iter]
  rw [apart_iff _ _ (he s) (he t)]
  refine not_congr ⟨fun h => ?_, fun h n _ => by rw [h]⟩
  obtain ⟨s⟩ := s
  obtain ⟨t⟩ := t
  refine congrArg Rexoroshiro.mk (Xoroshiro.eq_of_low s t fun n hn => ?_)
  rw [Rexoroshiro.reverse_inj.mp (h n hn)]

/-- C113: `SeedIV` with different ivs of one length up to 16 bytes. -/
theorem C113_Xoroshiro_SeedIV (iv iv' : List Byte) (hl : iv.length = iv'.length) (h16 : iv.length ≤ 16) (hne : iv ≠ iv') (g g' : Xoroshiro) :
    ∃ s t, g.seedIV iv = .ok s ∧ g'.seedIV iv' = .ok t ∧ Apart Xoroshiro.uint64 128 s t := by
  obtain ⟨s, hs⟩ := Xoroshiro.seedIV_total iv
  obtain ⟨t, ht⟩ := Xoroshiro.seedIV_total iv'
  refine ⟨s, t, hs g, ht g', (C113_Xoroshiro s t).mpr ?_⟩
  rintro rfl
  exact C50_Xoroshiro_injective iv iv' hl h16 hne g g' ((hs g).trans (ht g').symm)

/-- C113: `SeedIV` with ivs of any length that differ in one 8-byte block. -/
theorem C113_Xoroshiro_block (u m m' v : List Byte) (hu : 8 ∣ u.length) (hl : m.length = m'.length)
    (h8 : m.length ≤ 8) (hv : v ≠ [] → m.length = 8) (hne : m ≠ m') (g g' : Xoroshiro) :
    ∃ s t, g.seedIV (u ++ m ++ v) = .ok s ∧ g'.seedIV (u ++ m' ++ v) = .ok t ∧ Apart Xoroshiro.uint64 128 s t := by
  obtain ⟨s, hs⟩ := Xoroshiro.seedIV_total (u ++ m ++ v)
  obtain ⟨t, ht⟩ := Xoroshiro.seedIV_total (u ++ m' ++ v)
  refine ⟨s, t, hs g, ht g', (C113_Xoroshiro s t).mpr ?_⟩
  rintro rfl
  exact C50_Xoroshiro_block u m m' v hu hl h8 hv hne g g' ((hs g).trans (ht g').symm)

theorem Rexoroshiro.seedIV_of (iv : List Byte) (s : Xoroshiro) (g : Rexoroshiro) (h : g.xoro.seedIV iv = .ok s) : g.seedIV iv = .ok ⟨s⟩ := by
  show (do let x ← g.xoro.seedIV iv; return Rexoroshiro.mk x) = _
  rw [h]
  rfl

/-- C113: the same two for Rexoroshiro. -/
theorem C113_Rexoroshiro_SeedIV (iv iv' : List Byte) (hl : iv.length = iv'.length) (h16 : iv.length ≤ 16) (hne : iv ≠ iv') (g g' : Rexoroshiro) :
    ∃ s t, g.seedIV iv = .ok s ∧ g'.seedIV iv' = .ok t ∧ Apart Rexoroshiro.uint64 128 s t := by
  obtain ⟨s, t, hs, ht, h⟩ := C113_Xoroshiro_SeedIV iv iv' hl h16 hne g.xoro g'.xoro
  refine ⟨⟨s⟩, ⟨t⟩, Rexoroshiro.seedIV_of _ _ _ hs, Rexoroshiro.seedIV_of _ _ _ ht, (C113_Rexoroshiro _ _).mpr fun h1 => ?_⟩
  exact (C113_Xoroshiro s t).mp h (congrArg Rexoroshiro.xoro h1)

theorem C113_Rexoroshiro_block (u m m' v : List Byte) (hu : 8 ∣ u.length) (hl : m.length = m'.length)
    (h8 : m.length ≤ 8) (hv : v ≠ [] → m.length = 8) (hne : m ≠ m') (g g' : Rexoroshiro) :
    ∃ s t, g.seedIV (u ++ m ++ v) = .ok s ∧ g'.seedIV (u ++ m' ++ v) = .ok t ∧ Apart Rexoroshiro.uint64 128 s t := by
  obtain ⟨s, t, hs, ht, h⟩ := C113_Xoroshiro_block u m m' v hu hl h8 hv hne g.xoro g'.xoro
  refine ⟨⟨s⟩, ⟨t⟩, Rexoroshiro.seedIV_of _ _ _ hs, Rexoroshiro.seedIV_of _ _ _ ht, (C113_Rexoroshiro _ _).mpr fun h1 => ?_⟩
  exact (C113_Xoroshiro s t).mp h (congrArg Rexoroshiro.xoro h1)

/-- C113: after `Seed` the first output already differs. -/
theorem C113_Xoroshiro_Seed (x y : U64) (hne : x ≠ y) (g : Xoroshiro) :
    ∃ s t, g.seed x = .ok s ∧ g.seed y = .ok t ∧ Apart Xoroshiro.uint64 1 s t := by
  refine ⟨_, _, Xoroshiro.seed_eq g x, Xoroshiro.seed_eq g y, ?_⟩
  rw [apart_iff _ _ (fun n w => Xoroshiro.emits_val _ n w) (fun n w => Xoroshiro.emits_val _ n w)]
  intro h
  refine hne ((C76_Xoroshiro_Seed_first g _).unique ⟨_, Xoroshiro.seed_eq g x, (Xoroshiro.emits_val _ 0 _).mpr (h 0 (by decide))⟩
    ⟨_, Xoroshiro.seed_eq g y, (Xoroshiro.emits_val _ 0 _).mpr rfl⟩)

theorem C113_Rexoroshiro_Seed (x y : U64) (hne : x ≠ y) (g : Rexoroshiro) :
    ∃ s t, g.seed x = .ok s ∧ g.seed y = .ok t ∧ Apart Rexoroshiro.uint64 1 s t := by
  obtain ⟨s, t, hs, ht, n, hn, a, b, h1, h2, h3⟩ := C113_Xoroshiro_Seed x y hne g.xoro
  have e : ∀ (g : Rexoroshiro) n w, Emits Rexoroshiro.uint64 g n [w] ↔ reverseBytes64 (Xoroshiro.out (Xoroshiro.step^[n] g.xoro)) = w :=
    fun g n w => by rw [emits_one Rexoroshiro.uint64_pure, Rexoroshiro.iter]
  have hseed : ∀ z u, g.xoro.seed z = .ok u → g.seed z = .ok ⟨u⟩ := fun z u h => by
    show (do let x ← g.xoro.seed z; return Rexoroshiro.mk x) = _
    rw [h]
    rfl
  refine ⟨⟨s⟩, ⟨t⟩, hseed _ _ hs, hseed _ _ ht, n, hn, _, _, (e _ _ _).mpr rfl, (e _ _ _).mpr rfl, fun h => h3 ?_⟩
  rw [← (Xoroshiro.emits_val s n a).mp h1, ← (Xoroshiro.emits_val t n b).mp h2]
  exact Rexoroshiro.reverse_inj.mp h

/-- C113: all seedings that do not kill the generator give one and the same cyclic stream, from different places. -/
theorem C113_Xoroshiro_shift (s t : Xoroshiro) (hs : s ≠ ⟨0#64, 0#64⟩) (ht : t ≠ ⟨0#64, 0#64⟩) :
    ∃! d, d < 2 ^ 128 - 1 ∧ ShiftOf Xoroshiro.uint64 d s t := by
  have key : ∀ d, ShiftOf Xoroshiro.uint64 d s t ↔ Xoroshiro.step^[d] s = t := fun d => by
    rw [shiftOf_iff _ _ (fun n w => Xoroshiro.emits_val s n w) (fun n w => Xoroshiro.emits_val t n w)]
    constructor
    · intro h
      refine Xoroshiro.eq_of_low _ _ fun n _ => ?_
      rw [h n, Nat.add_comm, Function.iterate_add_apply]
    · rintro rfl n
      rw [← Function.iterate_add_apply, Nat.add_comm]
  simp only [key]
  exact Xoroshiro.cycle.existsUnique hs ht

theorem C113_Rexoroshiro_shift (s t : Rexoroshiro) (hs : s ≠ ⟨⟨0#64, 0#64⟩⟩) (ht : t ≠ ⟨⟨0#64, 0#64⟩⟩) :
    ∃! d, d < 2 ^ 128 - 1 ∧ ShiftOf Rexoroshiro.uint64 d s t := by
  have e : ∀ (g : Rexoroshiro) n w, Emits Rexoroshiro.uint64 g n [w] ↔ reverseBytes64 (Xoroshiro.out (Xoroshiro.step^[n] g.xoro)) = w :=
    fun g n w => by rw [emits_one Rexoroshiro.uint64_pure, Rexoroshiro.iter]
  have key : ∀ d, ShiftOf Rexoroshiro.uint64 d s t ↔ ShiftOf Xoroshiro.uint64 d s.xoro t.xoro := fun d => by
    rw [shiftOf_iff _ _ (e s) (e t), shiftOf_iff _ _ (fun n w => Xoroshiro.emits_val s.xoro n w) (fun n w => Xoroshiro.emits_val t.xoro n w)]
    exact forall_congr' fun n => Rexoroshiro.reverse_inj
  simp only [key]
  exact C113_Xoroshiro_shift _ _ (fun h => hs (by rw [← h])) (fun h => ht (by rw [← h]))

/-! ### Xoshiro -/

theorem Xoshiro.eq_of_four (s t : Xoshiro) (h : ∀ n < 4, out (step^[n] s) = out (step^[n] t)) : s = t := by
  refine Xoshiro.outs_inj ?_
  simp only [Xoshiro.outs, Prod.mk.injEq]
  exact ⟨h 0 (by decide), h 1 (by decide), h 2 (by decide), h 3 (by decide)⟩

/-- C113: two states of Xoshiro give different outputs within 4 calls, unless they are equal. -/
theorem C113_Xoshiro (s t : Xoshiro) : Apart Xoshiro.uint64 4 s t ↔ s ≠ t := by
  rw [apart_iff _ _ (fun n w => Xoshiro.emits_val s n w) (fun n w => Xoshiro.emits_val t n w)]
  exact not_congr ⟨fun h => Xoshiro.eq_of_four s t h, fun h n _ => by rw [h]⟩

theorem C113_Xoshiro_SeedIV (iv iv' : List Byte) (hl : iv.length = iv'.length) (h32 : iv.length ≤ 32) (hne : iv ≠ iv') (g g' : Xoshiro) :
    ∃ s t, g.seedIV iv = .ok s ∧ g'.seedIV iv' = .ok t ∧ Apart Xoshiro.uint64 4 s t := by
  obtain ⟨s, hs⟩ := Xoshiro.seedIV_total iv
  obtain ⟨t, ht⟩ := Xoshiro.seedIV_total iv'
  refine ⟨s, t, hs g, ht g', (C113_Xoshiro s t).mpr ?_⟩
  rintro rfl
  exact C52_Xoshiro_injective iv iv' hl h32 hne g g' ((hs g).trans (ht g').symm)

theorem C113_Xoshiro_block (u m m' v : List Byte) (hu : 32 ∣ u.length) (hl : m.length = m'.length)
    (h32 : m.length ≤ 32) (hv : v ≠ [] → m.length = 32) (hne : m ≠ m') (g g' : Xoshiro) :
    ∃ s t, g.seedIV (u ++ m ++ v) = .ok s ∧ g'.seedIV (u ++ m' ++ v) = .ok t ∧ Apart Xoshiro.uint64 4 s t := by
  obtain ⟨s, hs⟩ := Xoshiro.seedIV_total (u ++ m ++ v)
  obtain ⟨t, ht⟩ := Xoshiro.seedIV_total (u ++ m' ++ v)
  refine ⟨s, t, hs g, ht g', (C113_Xoshiro s t).mpr ?_⟩
  rintro rfl
  exact C52_Xoshiro_block u m m' v hu hl h32 hv hne g g' ((hs g).trans (ht g').symm)

/-- C113: after `Seed` the second output differs, and the first never does. -/
theorem C113_Xoshiro_Seed (x y : U64) (hne : x ≠ y) (g : Xoshiro) :
    ∃ s t, g.seed x = .ok s ∧ g.seed y = .ok t ∧ Apart Xoshiro.uint64 2 s t ∧ ¬ Apart Xoshiro.uint64 1 s t := by
  obtain ⟨s, hs, -⟩ := C51_Xoshiro_Seed_alive x g
  obtain ⟨t, ht, -⟩ := C51_Xoshiro_Seed_alive y g
  refine ⟨s, t, hs, ht, ?_, ?_⟩
  · rw [apart_iff _ _ (fun n w => Xoshiro.emits_val s n w) (fun n w => Xoshiro.emits_val t n w)]
    intro h
    exact hne ((C76_Xoshiro_Seed_second g _).unique ⟨s, hs, (Xoshiro.emits_val _ 1 _).mpr (h 1 (by decide))⟩
      ⟨t, ht, (Xoshiro.emits_val _ 1 _).mpr rfl⟩)
  · rw [apart_iff _ _ (fun n w => Xoshiro.emits_val s n w) (fun n w => Xoshiro.emits_val t n w), not_not]
    intro n hn
    obtain rfl : n = 0 := by omega
    exact ((Xoshiro.emits_val _ 0 _).mp (C76_Xoshiro_Seed_first g s x hs)).trans
      ((Xoshiro.emits_val _ 0 _).mp (C76_Xoshiro_Seed_first g t y ht)).symm

theorem C113_Xoshiro_shift (s t : Xoshiro) (hs : s ≠ ⟨0#64, 0#64, 0#64, 0#64⟩) (ht : t ≠ ⟨0#64, 0#64, 0#64, 0#64⟩) :
    ∃! d, d < 2 ^ 256 - 1 ∧ ShiftOf Xoshiro.uint64 d s t := by
  have key : ∀ d, ShiftOf Xoshiro.uint64 d s t ↔ Xoshiro.step^[d] s = t := fun d => by
    rw [shiftOf_iff _ _ (fun n w => Xoshiro.emits_val s n w) (fun n w => Xoshiro.emits_val t n w)]
    constructor
    · intro h
      refine Xoshiro.eq_of_four _ _ fun n _ => ?_
      rw [h n, Nat.add_comm, Function.iterate_add_apply]
    · rintro rfl n
      rw [← Function.iterate_add_apply, Nat.add_comm]
  simp only [key]
  exact Xoshiro.cycle.existsUnique hs ht

/-! ### MT64 -/

namespace MT64

/-- Blocks whose first new 312 words agree agree in all words but the first, and in the used bits of the first. -/
theorem eq_of_block (s t : Vector U64 312) (h : ∀ n < 312, seq s (312 + n) = seq t (312 + n)) :
    (∀ i, 1 ≤ i → ∀ hi : i < 312, s[i] = t[i]) ∧ top s[0] = top t[0] := by
  have h0 : ∀ n, 312 ≤ n → seq s (n + 0) = seq t n := by
    intro n hn
    rw [Nat.add_zero]
    induction n using Nat.strong_induction_on with
    | _ n ih =>
      rcases Nat.lt_or_ge n 624 with h1 | h1
      · have := h (n - 312) (by omega)
        rwa [show 312 + (n - 312) = n by omega] at this
      · obtain ⟨m, rfl⟩ : ∃ m, n = m + 312 := ⟨n - 312, by omega⟩
        rw [seq_ge, seq_ge, ih m (by omega) (by omega), ih (m + 1) (by omega) (by omega), ih (m + 156) (by omega) (by omega)]
  have h1 := seq_back_all s t 0 312 h0
  constructor
  · intro i h2 hi
    have h3 := h1 i h2
    rwa [Nat.add_zero, seq_lt _ hi, seq_lt _ hi] at h3
  · have h3 := (seq_back s t 0 0 fun n => by
      have := h1 (n + 1) (by omega)
      rwa [Nat.add_zero] at this).1
    rwa [seq_lt _ (by decide), seq_lt _ (by decide)] at h3

theorem apart_blocks (s t : Vector U64 312) (h : ¬ Apart uint64 312 (⟨312, s⟩ : MT64) ⟨312, t⟩) :
    (∀ i, 1 ≤ i → ∀ hi : i < 312, s[i] = t[i]) ∧ top s[0] = top t[0] := by
  rw [apart_iff _ _ (fun n w => emits_one _ n w) (fun n w => emits_one _ n w), not_not] at h
  exact eq_of_block s t fun n hn => temper_inj (h n hn)

end MT64

/-- C113: MT64 after `Seed` with different seeds. -/
theorem C113_MT64_Seed (x y : U64) (hne : x ≠ y) (g g' : MT64) :
    ∃ s t, g.seed x = .ok s ∧ g'.seed y = .ok t ∧ Apart MT64.uint64 312 s t := by
  refine ⟨_, _, MT64.seed_eq x g, MT64.seed_eq y g', ?_⟩
  by_contra hc
  obtain ⟨h1, -⟩ := MT64.apart_blocks _ _ hc
  have h2 := h1 1 (by decide) (by decide)
  rw [Vector.getElem_ofFn, Vector.getElem_ofFn] at h2
  have h2 : MT64.seedSeq x 1 = MT64.seedSeq y 1 := h2
  rw [MT64.seedSeq, MT64.seedSeq] at h2
  have h3 := add_right_inj' _ h2
  rw [BitVec.mul_comm, BitVec.mul_comm _ (MT64.seedSeq y 0 ^^^ _)] at h3
  exact hne (xorshr_inj 62 (by decide) x y (mul_inj _ 0xc097ef87329e28a5#64 (by decide) _ _ h3))

/-- C113: MT64 after `SeedIV` with at most 312 bytes. -/
theorem C113_MT64_SeedIV (iv iv' : List Byte) (hl : (iv.length + 7) / 8 = (iv'.length + 7) / 8)
    (h312 : iv.length ≤ 312) (hne : zeroPad iv ≠ zeroPad iv') (g g' : MT64) :
    ∃ s t, g.seedIV iv = .ok s ∧ g'.seedIV iv' = .ok t ∧ Apart MT64.uint64 312 s t := by
  by_cases h0 : iv = []
  · subst h0
    have : iv' = [] := by
      apply List.length_eq_zero_iff.mp
      simp at hl; omega
    exact absurd (by rw [this]) hne
  have hpos : 0 < iv.length := List.length_pos_iff.mpr h0
  have h0' : iv' ≠ [] := by
    rintro rfl
    simp at hl; omega
  obtain ⟨ws, e1, l1, c, u, f, i, hc, a1, a2, a3, a4⟩ := MT64.seedIV_words iv h0 h312
  obtain ⟨ws', e1', l1', c', u', f', i', hc', b1, b2, b3, b4⟩ := MT64.seedIV_words iv' h0' (by omega)
  refine ⟨_, _, a4 g, b4 g', ?_⟩
  by_contra hap
  obtain ⟨h1, -⟩ := MT64.apart_blocks _ _ hap
  obtain ⟨_, w, hw, d0, -⟩ := MT64.loop2_eq u
  obtain ⟨_, w', hw', d0', -⟩ := MT64.loop2_eq u'
  rw [a3] at hw
  rw [b3] at hw'
  obtain ⟨-, rfl⟩ := Prod.mk.inj (Except.ok.inj hw)
  obtain ⟨-, rfl⟩ := Prod.mk.inj (Except.ok.inj hw')
  have hf : f = f' := by
    apply Vector.ext
    intro m hm
    by_cases h2 : 1 ≤ m
    · exact h1 m h2 hm
    · obtain rfl : m = 0 := by omega
      rw [d0, d0', h1 311 (by decide) (by decide)]
  refine C63_MT64_injective iv iv' hl h312 hne g g' ?_
  rw [a4, b4, hf]

/-- C113: two live states of MT64 give the same cyclic stream, from different places. -/
theorem C113_MT64_shift (s t : MT64) (hs : s.Alive) (hs' : s.Begun) (ht : t.Alive) (ht' : t.Begun) :
    ∃! d, d < 2 ^ 19937 - 1 ∧ ShiftOf MT64.uint64 d s t := by
  obtain ⟨p, hp⟩ : ∃ p, p + 1 = 2 ^ 19937 := ⟨2 ^ 19937 - 1, Nat.sub_add_cancel Nat.one_le_two_pow⟩
  rw [show 2 ^ 19937 - 1 = p from Nat.sub_eq_of_eq_add hp.symm]
  have p1 := MT64.pos_of_begun hs'
  have p2 := MT64.pos_of_begun ht'
  have key : ∀ d, ShiftOf MT64.uint64 d s t ↔ MT64.estep^[d] (MT64.effOf s.s (s.pos - 1)) = MT64.effOf t.s (t.pos - 1) := fun d => by
    rw [shiftOf_iff _ _ (fun n w => MT64.emits_one s n w) (fun n w => MT64.emits_one t n w), MT64.iter_effOf]
    constructor
    · intro h
      have h1 : ∀ n, MT64.seq s.s (s.pos + (d + n)) = MT64.seq t.s (t.pos + n) := fun n => (MT64.temper_inj (h n)).symm
      refine Prod.ext ?_ (funext fun i => ?_)
      · refine (MT64.seq_back s.s t.s (s.pos - 1 + d) (t.pos - 1) fun n => ?_).1
        have h2 := h1 n
        rwa [show s.pos + (d + n) = n + (s.pos - 1 + d) + 1 by omega, show t.pos + n = n + (t.pos - 1) + 1 by omega] at h2
      · show MT64.seq s.s (s.pos - 1 + d + 1 + i.val) = MT64.seq t.s (t.pos - 1 + 1 + i.val)
        rw [show s.pos - 1 + d + 1 + i.val = s.pos + (d + i.val) by omega, show t.pos - 1 + 1 + i.val = t.pos + i.val by omega, h1]
    · intro h n
      have h2 := MT64.seq_dep _ _ _ _ h (1 + n) (by omega)
      rw [show s.pos - 1 + d + (1 + n) = s.pos + (d + n) by omega, show t.pos - 1 + (1 + n) = t.pos + n by omega] at h2
      rw [h2]
  simp only [key]
  exact (MT64.eff_cycle p hp).existsUnique (MT64.eff_ne_zero s hs p _ hp) (MT64.eff_ne_zero t ht p _ hp)

/-! ### LFG -/

theorem apart_of_draws {xs ys : List U64} {s t : LFG} (hs : LFG.Inv s) (ht : LFG.Inv t) {k : Nat} {s' t' : LFG}
    (h1 : draws LFG.uint64 k s = .ok (xs, s')) (h2 : draws LFG.uint64 k t = .ok (ys, t')) (hne : xs ≠ ys) : Apart LFG.uint64 k s t := by
  rw [apart_iff _ _ (fun n w => LFG.emits_iff s hs n w) (fun n w => LFG.emits_iff t ht n w)]
  intro h
  rw [LFG.draws_eq k s hs] at h1
  rw [LFG.draws_eq k t ht] at h2
  have e1 := congrArg Prod.fst (Except.ok.inj h1)
  have e2 := congrArg Prod.fst (Except.ok.inj h2)
  refine hne (Eq.trans e1.symm (Eq.trans ?_ e2))
  exact List.map_congr_left fun n hn => h n (List.mem_range.mp hn)

/-- C113: LFG has exactly 256 different streams after `Seed`: seeds with the same low byte give the same, others differ within 335
outputs. -/
theorem C113_LFG_Seed (x y : U64) (g g' : LFG) :
    ∃ s t, g.seed x = .ok s ∧ g'.seed y = .ok t ∧ (x.toNat % 256 = y.toNat % 256 → s = t) ∧
      (x.toNat % 256 ≠ y.toNat % 256 → Apart LFG.uint64 335 s t) := by
  have hx : g.seed x = .ok (LFG.nexts 4856 (LFG.seedStart (le64 x))) := LFG.seedIV_eq (le64 x) g
  have hy : g'.seed y = .ok (LFG.nexts 4856 (LFG.seedStart (le64 y))) := LFG.seedIV_eq (le64 y) g'
  refine ⟨_, _, hx, hy, fun h => ?_, fun h => ?_⟩
  · have := C53_LFG_Seed x y h g g'
    rw [hx, hy] at this
    exact Except.ok.inj this
  · obtain ⟨xs, ys, s', t', h1, h2, h3⟩ := C53_LFG_live (le64 x) (le64 y) rfl (by rw [show (le64 x).length = 8 from rfl]; decide) 0
      (by unfold LfgLive; omega) (by
        simp only [le64, List.getElem?_cons_zero, ne_eq, Option.some.injEq]
        intro he
        apply h
        have := congrArg BitVec.toNat he
        simpa using this) g g' _ _ hx hy
    exact apart_of_draws (LFG.inv_nexts 4856 _ (LFG.inv_seedStart _)) (LFG.inv_nexts 4856 _ (LFG.inv_seedStart _)) h1 h2 h3

/-- C113: LFG after `SeedIV`, ivs of any length that differ in one byte which is not ignored (C53). -/
theorem C113_LFG_one_byte (u v : List Byte) (b b' : Byte) (hi : LfgLive u.length) (hne : b ≠ b') (g g' : LFG) :
    ∃ s t, g.seedIV (u ++ b :: v) = .ok s ∧ g'.seedIV (u ++ b' :: v) = .ok t ∧ Apart LFG.uint64 335 s t := by
  have hx := LFG.seedIV_eq (u ++ b :: v) g
  have hy := LFG.seedIV_eq (u ++ b' :: v) g'
  obtain ⟨xs, ys, s', t', h1, h2, h3⟩ := C53_LFG_one_byte u v b b' hi hne g g' _ _ hx hy
  exact ⟨_, _, hx, hy, apart_of_draws (LFG.inv_nexts 4856 _ (LFG.inv_seedStart _)) (LFG.inv_nexts 4856 _ (LFG.inv_seedStart _)) h1 h2 h3⟩

/-! ### Non-vacuity -/

example : ∃ s t, Xoroshiro.new.seedIV [1#8, 2#8, 3#8] = .ok s ∧ Xoroshiro.new.seedIV [1#8, 2#8, 4#8] = .ok t ∧ Apart Xoroshiro.uint64 128 s t :=
  C113_Xoroshiro_SeedIV [1#8, 2#8, 3#8] [1#8, 2#8, 4#8] rfl (by decide) (by decide) _ _
example : ∃ s t, MT64.new.seedIV [1#8, 2#8, 3#8] = .ok s ∧ MT64.new.seedIV [1#8, 2#8, 3#8, 4#8] = .ok t ∧ Apart MT64.uint64 312 s t :=
  C113_MT64_SeedIV [1#8, 2#8, 3#8] [1#8, 2#8, 3#8, 4#8] (by decide) (by decide) (by decide) _ _
example (x y : U64) : ∃ s t, Xoshiro.new.seed x = .ok s ∧ Xoshiro.new.seed y = .ok t ∧ ∃! d, d < 2 ^ 256 - 1 ∧ ShiftOf Xoshiro.uint64 d s t := by
  obtain ⟨s, hs, h1⟩ := C51_Xoshiro_Seed_alive x Xoshiro.new
  obtain ⟨t, ht, h2⟩ := C51_Xoshiro_Seed_alive y Xoshiro.new
  exact ⟨s, t, hs, ht, C113_Xoshiro_shift s t h1 h2⟩
example (x y : U64) : ∃ s t, MT64.new.seed x = .ok s ∧ MT64.new.seed y = .ok t ∧ ∃! d, d < 2 ^ 19937 - 1 ∧ ShiftOf MT64.uint64 d s t := by
  obtain ⟨s, hs, h1, h1'⟩ := C61_MT64_Seed_alive x MT64.new
  obtain ⟨t, ht, h2, h2'⟩ := C61_MT64_Seed_alive y MT64.new
  exact ⟨s, t, hs, ht, C113_MT64_shift s t h1 h1' h2 h2'⟩

end Crazy
