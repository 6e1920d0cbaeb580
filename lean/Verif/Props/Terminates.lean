/-
C13: Uintn terminates on the bundled generators.
-/
import Verif.Props.Uintn
import Verif.Props.RngInts
import Verif.Props.Period2
import Verif.Proofs.LFGState
import Verif.Proofs.Gens
import Verif.Proofs.Api
namespace Crazy

/-- `RNG{src}.Uintn(max)`, called in state `s`, returns: some number of rejected draws is enough, and what is returned
does not depend on how many more would have been tolerated. -/
def UintnReturnsFrom {σ : Type} (src : Source σ) (s : σ) (max : U64) : Prop :=
  ∃ n r s', ∀ fuel, n ≤ fuel → RNG.uintn src fuel max s = .ok (r, s')

theorem uintn_returns' {σ : Type} (src : Source σ) (s : σ) (seq : Nat → U64) (st : Nat → σ)
    (hd : ∀ n, rngDraws src n s = .ok ((List.range n).map seq, st n)) (h : ∃ n, (seq n).toNat < 2 ^ 63)
    (max : U64) (h0 : max ≠ 0#64) :
    ∃ n r, ∀ fuel, n ≤ fuel → RNG.uintn src fuel max s = .ok (r, st (n + 1)) := by
  obtain ⟨B, hB⟩ := C10_B_exists max h0
  have hp : 0 < max.toNat := by
    rcases Nat.eq_zero_or_pos max.toNat with h | h
    · exact absurd (BitVec.eq_of_toNat_eq (by simpa using h)) h0
    · exact h
  have hB2 : 2 ^ 63 ≤ B := by
    have h1 := (largestMultiple_iff _ _ hp).mp hB
    have h2 := Nat.div_add_mod (2 ^ 64 - 1) max.toNat
    have h3 := Nat.mod_lt (2 ^ 64 - 1) hp
    have h4 : max.toNat ≤ B := hB.2.2 _ dvd_rfl max.isLt
    omega
  have hex : ∃ n, (seq n).toNat ≤ B := by
    obtain ⟨n, hn⟩ := h
    exact ⟨n, by omega⟩
  classical
  have hspec := Nat.find_spec hex
  have hmin : ∀ m, m < Nat.find hex → ¬ (seq m).toNat ≤ B := fun m hm => Nat.find_min hex hm
  generalize Nat.find hex = n at hspec hmin
  refine ⟨n, _, fun fuel hf => C10_first_accepted src max h0 B hB s _ ((List.range n).map seq) (seq n) ?_ ?_
    hspec fuel (by simpa using hf)⟩
  · rw [List.length_map, List.length_range, hd, List.range_succ, List.map_append]
    rfl
  · intro y hy
    obtain ⟨m, hm, rfl⟩ := List.mem_map.mp hy
    have := hmin m (List.mem_range.mp hm)
    omega

theorem uintn_returns {σ : Type} (src : Source σ) (s : σ) (seq : Nat → U64) (st : Nat → σ)
    (hd : ∀ n, rngDraws src n s = .ok ((List.range n).map seq, st n)) (h : ∃ n, (seq n).toNat < 2 ^ 63)
    (max : U64) (h0 : max ≠ 0#64) : UintnReturnsFrom src s max := by
  obtain ⟨n, r, h⟩ := uintn_returns' src s seq st hd h max h0
  exact ⟨n, r, _, h⟩

/-- C13 for Xoshiro: `Uintn` returns from every state, also the zero state. -/
theorem C13_Xoshiro (g : Xoshiro) (max : U64) (h0 : max ≠ 0#64) : UintnReturnsFrom Xoshiro.source g max := by
  refine uintn_returns _ _ (fun k => (Xoshiro.step^[k] g).out) (fun k => Xoshiro.step^[k] g) (fun n => ?_) ?_ max h0
  · rw [show rngDraws Xoshiro.source n g = _ from (C06_Xoshiro g).1 n]
    exact draws_pure Xoshiro.uint64_pure n g
  · by_cases hg : g = ⟨0#64, 0#64, 0#64, 0#64⟩
    · subst hg
      exact ⟨0, by decide +kernel⟩
    · obtain ⟨n, ⟨-, hn⟩, -⟩ := Xoshiro.cycle.existsUnique hg (t := ⟨1#64, 0#64, 0#64, 0#64⟩) (by decide)
      exact ⟨n, by rw [hn]; decide +kernel⟩

/-- C13 for Rexoroshiro: `Uintn` returns from every state, also the zero state. -/
theorem C13_Rexoroshiro (g : Rexoroshiro) (max : U64) (h0 : max ≠ 0#64) :
    UintnReturnsFrom Rexoroshiro.source g max := by
  refine uintn_returns _ _ (fun k => reverseBytes64 (Xoroshiro.step^[k] g.xoro).out)
    (fun k => ⟨Xoroshiro.step^[k] g.xoro⟩) (fun n => ?_) ?_ max h0
  · rw [show rngDraws Rexoroshiro.source n g = _ from (C06_Rexoroshiro g).1 n, draws_pure Rexoroshiro.uint64_pure n g]
    simp only [Rexoroshiro.iter]
  · obtain ⟨g⟩ := g
    by_cases hg : g = ⟨0#64, 0#64⟩
    · subst hg
      exact ⟨0, by decide +kernel⟩
    · obtain ⟨n, ⟨-, hn⟩, -⟩ := Xoroshiro.cycle.existsUnique hg (t := ⟨1#64, 0xffffffffffffffff#64⟩) (by decide)
      exact ⟨n, by rw [hn]; decide +kernel⟩

/-- C13 for Xoroshiro, of which `RNG` sees only every second output. -/
theorem C13_Xoroshiro (g : Xoroshiro) (max : U64) (h0 : max ≠ 0#64) : UintnReturnsFrom Xoroshiro.source g max := by
  refine uintn_returns _ _ (fun k => (Xoroshiro.step^[2 * k] g).out) (fun k => Xoroshiro.step^[2 * k] g)
    (fun n => rng_draws_Xoroshiro g n) ?_ max h0
  by_cases hg : g = ⟨0#64, 0#64⟩
  · subst hg
    exact ⟨0, by decide +kernel⟩
  · obtain ⟨n, ⟨-, hn⟩, -⟩ := Xoroshiro.cycle.existsUnique hg (t := ⟨1#64, 0xffffffffffffffff#64⟩) (by decide)
    refine ⟨n * 2 ^ 127, ?_⟩
    have h1 : Xoroshiro.step^[2 * (n * 2 ^ 127)] g = Xoroshiro.step^[n] g := by
      rw [Xoroshiro.cycle.iter_inj hg]
      have : 2 * (n * 2 ^ 127) = n + (2 ^ 128 - 1) * n := by
        rw [show (2 : Nat) ^ 128 - 1 = 2 * 2 ^ 127 - 1 from rfl, Nat.sub_mul]
        have : n ≤ 2 * 2 ^ 127 * n := Nat.le_mul_of_pos_left _ (by decide)
        rw [Nat.one_mul, show 2 * (n * 2 ^ 127) = 2 * 2 ^ 127 * n by ring]
        omega
      rw [this]
      exact Nat.ModEq.symm ((Nat.modEq_iff_dvd' (by omega)).mpr ⟨n, by omega⟩)
    rw [h1, hn]
    decide +kernel

/-- Outputs that all have their top bit set would have to decrease for ever. -/
theorem LFG.seq_small (g : LFG) : ∃ n, (g.seq (607 + n)).toNat < 2 ^ 63 := by
  by_contra hne
  simp only [not_exists, Nat.not_lt] at hne
  have key : ∀ n, (g.seq (607 + (334 + n))).toNat + n ≤ 2 ^ 64 := by
    intro n
    induction n with
    | zero => exact (g.seq _).isLt.le
    | succ n ih =>
      have h1 := hne (334 + n)
      have h2 := hne n
      have h3 := (g.seq (607 + n)).isLt
      have h4 := (g.seq (607 + (334 + n))).isLt
      have e : g.seq (607 + (334 + (n + 1))) = g.seq (607 + (334 + n)) + g.seq (607 + n) := by
        rw [LFG.seq_ge (n := 607 + (334 + (n + 1))) g (by omega), show 607 + (334 + (n + 1)) - 1 = 607 + (334 + n) by omega,
          show 607 + (334 + (n + 1)) - 335 = 607 + n by omega]
      rw [e, BitVec.toNat_add]
      omega
  have h5 := key (2 ^ 64)
  have h6 := hne (334 + 2 ^ 64)
  omega

theorem LFG.uintn_returns_inv (g : LFG) (hi : LFG.Inv g) (max : U64) (h0 : max ≠ 0#64) :
    ∃ n r s', LFG.Inv s' ∧ ∀ fuel, n ≤ fuel → RNG.uintn LFG.source fuel max g = .ok (r, s') := by
  obtain ⟨n, r, h⟩ := uintn_returns' LFG.source g (fun k => g.seq (607 + k)) (fun k => LFG.nexts k g) (fun n => by
    rw [show rngDraws LFG.source n g = _ from (C06_LFG g).1 n]
    exact LFG.draws_eq n g hi) (LFG.seq_small g) max h0
  exact ⟨n, r, _, LFG.inv_nexts _ g hi, h⟩

/-- C13 for LFG: `Uintn` returns from every state a `NewLFG` generator can get into. -/
theorem C13_LFG (g : LFG) (hg : Reachable LFG.methods.api LFG.new g) (max : U64) (h0 : max ≠ 0#64) :
    UintnReturnsFrom LFG.source g max := by
  obtain ⟨n, r, s', -, h⟩ := LFG.uintn_returns_inv g (LFG.safe.reachable LFG.inv_new hg) max h0
  exact ⟨n, r, s', h⟩

end Crazy
