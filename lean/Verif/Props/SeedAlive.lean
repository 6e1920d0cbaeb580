/-
C67: seeding `LFG` or `MT64` never leaves a dead generator, for ivs that are not too long; an unseeded one is dead.
-/
import Verif.Props.LfgPeriod
import Verif.Props.LfgSeed
import Verif.Props.MtSeed
import Verif.Props.MtPeriod
namespace Crazy

/-! ### LFG -/

theorem LFG.seq_new (n : Nat) : LFG.new.seq n = 0#64 := by
  induction n using Nat.strongRecOn with
  | ind n ih =>
    by_cases h : n < 607
    · rw [LFG.seq_lt _ h]
      unfold LFG.hist LFG.new
      simp
    · rw [LFG.seq_ge _ (by omega), ih _ (by omega), ih _ (by omega)]; rfl

/-- C67: a new `LFG` that has not been seeded gives zeros for ever. -/
theorem C67_LFG_unseeded (n : Nat) : ∃ g, draws LFG.uint64 n LFG.new = .ok (List.replicate n 0#64, g) := by
  refine ⟨LFG.nexts n LFG.new, ?_⟩
  rw [LFG.draws_eq n LFG.new LFG.inv_new]
  refine congrArg Except.ok (Prod.ext ?_ rfl)
  simp only [LFG.seq_new]
  rw [List.map_const', List.length_range]

/-- Word 333 of the table is not 0 and not the negation of another word. -/
theorem lfgS0_333 : lfgS0Nat.all (fun x => !((lfgS0Nat.getD 333 0 + x) % 2 ^ 64).beq 0) = true ∧
    lfgS0Nat.getD 333 0 ≠ 0 := by
  decide +kernel

theorem lfgS0_333_add (i : Nat) (h : i < 607) : lfgS0[333] + lfgS0[i] ≠ 0#64 := by
  intro e
  have e1 := congrArg BitVec.toNat e
  rw [BitVec.toNat_add, lfgS0_get i h, lfgS0_get 333 (by decide)] at e1
  have h1 := List.all_eq_true.mp lfgS0_333.1 (lfgS0Nat[i]'(by rw [lfgS0Nat_length]; exact h)) (List.getElem_mem _)
  rw [List.getD_eq_getElem?_getD, List.getElem?_eq_getElem (by rw [lfgS0Nat_length]; decide), Option.getD_some, e1] at h1
  exact absurd h1 (by decide)

theorem lfgS0_333_ne : lfgS0[333] ≠ 0#64 := by
  intro e
  have e1 := congrArg BitVec.toNat e
  rw [lfgS0_get 333 (by decide)] at e1
  have h1 := lfgS0_333.2
  rw [List.getD_eq_getElem?_getD, List.getElem?_eq_getElem (by rw [lfgS0Nat_length]; decide), Option.getD_some, e1] at h1
  exact h1 rfl

/-- C67: after `SeedIV` with at most 607 bytes, an `LFG` (whatever its state before) does not give 335 zeros in a row. -/
theorem C67_LFG_SeedIV_alive (iv : List Byte) (h607 : iv.length ≤ 607) (g : LFG) :
    ∃ s, g.seedIV iv = .ok s ∧ ∃ n < 335, ¬ Emits LFG.uint64 s n [0#64] := by
  have hi := LFG.inv_seedStart iv
  refine ⟨_, LFG.seedIV_eq iv g, ?_⟩
  refine Classical.byContradiction fun hc => ?_
  have hz : ∀ n < 335, Emits LFG.uint64 (LFG.nexts 4856 (LFG.seedStart iv)) n [0#64] := fun n hn =>
    Classical.byContradiction fun h => hc ⟨n, hn, h⟩
  have hseq : ∀ k < 335, (LFG.seedStart iv).seq (5463 + k) = LFG.new.seq (5463 + k) := by
    intro k hk
    have h1 := (LFG.emits_iff _ (LFG.inv_nexts 4856 _ hi) k 0#64).mp (hz k hk)
    rw [LFG.seq_nexts] at h1
    rw [LFG.seq_new, ← h1]
    congr 1; omega
  have h2 := LFG.seq_back _ _ 5463 hseq 605 (by omega) (by omega)
  rw [LFG.seq_new, LFG.seq_lt _ (by omega), LFG.seedStart_hist _ _ (by omega) (by omega)] at h2
  simp only [show 605 - 272 = 333 from rfl] at h2
  by_cases h6 : iv.length = 607
  · rw [LFG.contrib_single iv 0 333 606 (by omega) (by omega) (by decide)] at h2
    exact lfgS0_333_add _ (Nat.mod_lt _ (by decide)) h2
  · rw [LFG.contrib_zero iv 0 333 (fun j hj => by omega)] at h2
    rw [BitVec.add_zero] at h2
    exact lfgS0_333_ne h2

/-- C67: the same after `Seed`, for every seed. -/
theorem C67_LFG_Seed_alive (x : U64) (g : LFG) :
    ∃ s, g.seed x = .ok s ∧ ∃ n < 335, ¬ Emits LFG.uint64 s n [0#64] :=
  C67_LFG_SeedIV_alive (le64 x) (by rw [show (le64 x).length = 8 from rfl]; decide) g

/-! ### MT64 -/

namespace MT64

/-- `pass2` gives zeros only from one array. -/
theorem pass2_zero (u : Vector U64 312) (h : ∀ i, 1 ≤ i → i < 312 → pass2 u i = 0#64 ∨ i = 1) (i : Nat) (h3 : 3 ≤ i)
    (hi : i < 312) : u[i] = BitVec.ofNat 64 i * 0xdfe66807999cec55#64 := by
  obtain ⟨k, rfl⟩ : ∃ k, i = k + 2 := ⟨i - 2, by omega⟩
  have h1 : pass2 u (k + 2) = 0#64 := (h (k + 2) (by omega) hi).resolve_right (by omega)
  have h2 : pass2 u (k + 1) = 0#64 := (h (k + 1) (by omega) (by omega)).resolve_right (by omega)
  rw [pass2, h2, List.getD_eq_getElem?_getD, List.getElem?_eq_getElem (by simpa using hi)] at h1
  simp only [Option.getD_some, Vector.getElem_toList] at h1
  have e : u[k + 2] * 2862933555777941757#64 = BitVec.ofNat 64 (k + 2) := by
    have := congrArg (· + BitVec.ofNat 64 (k + 2)) h1
    simp only [BitVec.sub_add_cancel, BitVec.zero_add] at this
    rw [← this]
    unfold mixStep
    simp
  rw [← e, BitVec.mul_assoc, inv2, BitVec.mul_one]

/-- What the first loop would have to add at iteration `m` to end in that array. -/
def wanted (m : Nat) : U64 :=
  BitVec.ofNat 64 (m + 1) * 0xdfe66807999cec55#64 -
    mixStep 3935559000370003845#64 (seedSeq 19650218#64 (m + 1)) (BitVec.ofNat 64 m * 0xdfe66807999cec55#64)

/-- Iterations 3 and 3 + n would need different additions, although with `n` key words they have the same one. -/
theorem wanted_ne : (List.range 39).all (fun n => !(wanted 3).toNat.beq (wanted (n + 4)).toNat) = true := by
  decide +kernel

end MT64

/-- C67: after `SeedIV` with at most 312 bytes, an `MT64` (whatever its state before) is alive, so that its outputs have period
`2^19937 - 1` (C61). -/
theorem C67_MT64_SeedIV_alive (iv : List Byte) (h312 : iv.length ≤ 312) (g : MT64) :
    ∃ s, g.seedIV iv = .ok s ∧ s.Alive ∧ s.Begun ∧
      ∀ q, OutputPeriod MT64.uint64 s q ↔ 2 ^ 19937 - 1 ∣ q := by
  have key : ∃ s, g.seedIV iv = .ok s ∧ s.Alive ∧ s.Begun := by
    by_cases h0 : iv = []
    · subst h0
      obtain ⟨s, h1, h2⟩ := C61_MT64_Seed_alive 19650218#64 g
      refine ⟨s, ?_, h2⟩
      rw [MT64.seedIV, h1]
      rfl
    · obtain ⟨ws, e1, l1, c, u, f, i, hc, a1, a2, a3, a4⟩ := MT64.seedIV_words iv h0 h312
      have hpos : 0 < iv.length := List.length_pos_iff.mpr h0
      refine ⟨_, a4 g, Classical.byContradiction fun hd => ?_, by show 1 ≤ 312; decide⟩
      have hz : ∀ i, 1 ≤ i → ∀ hi : i < 312, f[i] = 0#64 := fun i h1 hi =>
        Classical.byContradiction fun h => hd (Or.inr ⟨i, hi, h1, h⟩)
      obtain ⟨j, f', b1, b2, b3, b4⟩ := MT64.loop2_eq u
      rw [a3] at b1
      obtain ⟨-, rfl⟩ := Prod.mk.inj (Except.ok.inj b1)
      have hu := MT64.pass2_zero u (fun i h1 hi => by
        by_cases h : i = 1
        · exact Or.inr h
        · exact Or.inl (by rw [← b4 i (by omega) hi, hz i h1 hi]))
      obtain ⟨u', c1, -, c3⟩ := MT64.loop1_eq c ws (by omega)
      rw [a1] at c1
      obtain ⟨-, rfl⟩ := Prod.mk.inj (Except.ok.inj c1)
      have hw : ∀ m, 3 ≤ m → m < 311 → MT64.keyAdd ws (m % ws.length) = MT64.wanted m := by
        intro m h3 hm
        have h1 := c3 (m + 1) (by omega) (by omega)
        rw [MT64.pass1, ← c3 m (by omega) (by omega), hu m h3 (by omega), hu (m + 1) (by omega) (by omega)] at h1
        rw [MT64.wanted, h1]
        rw [List.getD_eq_getElem?_getD, List.getElem?_eq_getElem (by simp; omega)]
        simp only [Option.getD_some, Vector.getElem_toList, hc, Vector.getElem_ofFn]
        rw [BitVec.add_comm, BitVec.add_sub_cancel]
      have h3 := hw 3 (by omega) (by omega)
      have h4 := hw (ws.length - 1 + 4) (by omega) (by omega)
      rw [show ws.length - 1 + 4 = 3 + ws.length by omega, Nat.add_mod_right, h3] at h4
      have h5 := List.all_eq_true.mp MT64.wanted_ne (ws.length - 1) (List.mem_range.mpr (by omega))
      rw [show ws.length - 1 + 4 = 3 + ws.length by omega, ← h4, Nat.beq_refl] at h5
      exact absurd h5 (by decide)
  obtain ⟨s, h1, h2, h3⟩ := key
  exact ⟨s, h1, h2, h3, C61_MT64_period s h2 h3⟩

theorem MT64.seq_new (n : Nat) : MT64.seq MT64.new.s n = 0#64 := by
  induction n using Nat.strongRecOn with
  | ind n ih =>
    by_cases h : n < 312
    · rw [MT64.seq_lt _ h]
      unfold MT64.new
      simp
    · have h1 := MT64.twist_seq MT64.new.s (n - 312)
      rw [ih (n - 312) (by omega), ih (n - 312 + 1) (by omega), ih (n - 312 + 156) (by omega),
        show n - 312 + 312 = n by omega, show MT64.twist 0#64 0#64 = 0#64 by decide] at h1
      simpa using h1.symm

/-- C67: a new `MT64` that has not been seeded gives zeros for ever. -/
theorem C67_MT64_unseeded (n : Nat) : ∃ g, draws MT64.uint64 n MT64.new = .ok (List.replicate n 0#64, g) := by
  refine ⟨MT64.nexts n MT64.new, ?_⟩
  rw [MT64.draws_eq n MT64.new]
  refine congrArg Except.ok (Prod.ext ?_ rfl)
  simp only [MT64.seq_new]
  rw [show MT64.temper 0#64 = 0#64 by decide, List.map_const', List.length_range]

/-- Non-vacuity of C67: ivs of the two lengths in question. -/
example : (zeros 607).length ≤ 607 ∧ (zeros 312).length ≤ 312 := by simp

end Crazy
