/-
C68: everything built on `Uintn` returns on the bundled generators: `RandString` and the shuffles.
-/
import Verif.Props.Terminates
import Verif.Props.MtPeriod
import Verif.Props.Shuffle
import Verif.Props.RandString
namespace Crazy

/-- A call whose loops are bounded by `fuel` returns: some bound is enough, and a larger one makes no difference. -/
def Returns {α : Type} (f : Nat → Go α) : Prop := ∃ n r, ∀ fuel, n ≤ fuel → f fuel = .ok r

/-- What C68 says about a source in state `s`: the three slice shuffles (and `Shuffle` on a slice) return for every slice,
and `RandString` for every alphabet that is not empty and every length that can be allocated. -/
def HelpersReturnFrom {σ : Type} (src : Source σ) (s : σ) : Prop :=
  (∀ (α : Type) (data : List α), data.length < 2 ^ 63 → Returns (fun fuel => shuffleSlice src fuel data s)) ∧
  (∀ (α : Type) (data : List α), data.length < 2 ^ 63 → Returns (fun fuel => shuffle (sliceSwapper α) src fuel data s)) ∧
  (∀ (alphabet : List Byte) (n : Nat), alphabet ≠ [] → alphabet.length < 2 ^ 63 → n ≤ 2 ^ 46 →
    Returns (fun fuel => randString src fuel alphabet n s))

theorem draws_returns {σ : Type} (f : Nat → σ → Go (U64 × σ)) (I : σ → Prop)
    (hI : ∀ s, I s → ∃ n r s', I s' ∧ ∀ fuel, n ≤ fuel → f fuel s = .ok (r, s')) (k : Nat) :
    ∀ s, I s → ∃ n rs s', I s' ∧ ∀ fuel, n ≤ fuel → draws (f fuel) k s = .ok (rs, s') := by
  induction k with
  | zero => exact fun s hs => ⟨0, [], s, hs, fun _ _ => rfl⟩
  | succ k ih =>
    intro s hs
    obtain ⟨n, r, s1, h1, h2⟩ := hI s hs
    obtain ⟨m, rs, s2, h3, h4⟩ := ih s1 h1
    refine ⟨max n m, r :: rs, s2, h3, fun fuel hf => ?_⟩
    simp only [draws, bind, Except.bind, h2 fuel (by omega), h4 fuel (by omega), pure, Except.pure]

theorem helpers_return {σ : Type} (src : Source σ) (I : σ → Prop)
    (hI : ∀ max : U64, max ≠ 0#64 → ∀ s, I s → ∃ n r s', I s' ∧ ∀ fuel, n ≤ fuel → RNG.uintn src fuel max s = .ok (r, s'))
    (s : σ) (hs : I s) : HelpersReturnFrom src s := by
  have hne : ∀ n : Nat, 0 < n → n < 2 ^ 63 → BitVec.ofNat 64 n ≠ 0#64 := by
    intro n h0 h1 h
    have := congrArg BitVec.toNat h
    simp only [BitVec.toNat_ofNat] at this
    omega
  have hsl : ∀ (α : Type) (data : List α), data.length < 2 ^ 63 → Returns (fun fuel => shuffleSlice src fuel data s) := by
    intro α data hn
    by_cases h0 : data.length = 0
    · obtain rfl := List.length_eq_zero_iff.mp h0
      exact ⟨0, ([], s), fun fuel _ => C29_slice_empty src fuel s⟩
    · obtain ⟨m, rs, s', -, h⟩ := draws_returns (fun fuel => RNG.uintn src fuel (BitVec.ofNat 64 data.length)) I
        (hI _ (hne _ (by omega) hn)) data.length s hs
      obtain ⟨j, hj, -⟩ := (C29_slice src m data hn s).1 rs s' (h m (Nat.le_refl _))
      refine ⟨m, (permuted data (shufflePerm j), s'), fun fuel hf => ?_⟩
      obtain ⟨j', hj', e⟩ := (C29_slice src fuel data hn s).1 rs s' (h fuel hf)
      have hjj : j' = j := by
        funext i
        have h1 := (hj i).symm.trans (hj' i)
        have h2 := congrArg BitVec.toNat (Option.some.inj h1)
        simp only [BitVec.toNat_ofNat] at h2
        apply Fin.ext
        have := (j i).isLt
        have := (j' i).isLt
        omega
      exact e.trans (by rw [hjj])
  refine ⟨hsl, fun α data hn => ?_, fun alphabet n h0 hal hn => ?_⟩
  · obtain ⟨m, r, h⟩ := hsl α data hn
    exact ⟨m, r, fun fuel hf => (C29_swapper_slice src fuel data hn s).trans (h fuel hf)⟩
  · have h1 : runes alphabet ≠ [] := fun h => h0 ((C28_alphabet.2.2 alphabet).mp h)
    have h2 := runes_length_le alphabet
    have h3 : 0 < (runes alphabet).length := List.length_pos_iff.mpr h1
    obtain ⟨m, rs, s', -, h⟩ := draws_returns (fun fuel => RNG.uintn src fuel (BitVec.ofNat 64 (runes alphabet).length)) I
      (hI _ (hne _ h3 (by omega))) n s hs
    refine ⟨m, (stringOf (rs.map fun j => (runes alphabet)[j.toNat]?.getD 0), s'), fun fuel hf => ?_⟩
    have hm : makeRunes (n : Int) = .ok (List.replicate n 0) := by
      unfold makeRunes RNG.maxAlloc
      rw [if_neg (by omega)]; simp
    have key := (randLoop (RNG.uintn src fuel (BitVec.ofNat 64 (runes alphabet).length)) (runes alphabet)
      (uintn_lt src fuel _ (by omega)) (by omega) n s n (Nat.le_refl _) _ rfl).1 rs s' (h fuel hf)
    obtain ⟨k1, -⟩ := key
    rw [Nat.sub_self, List.replicate_zero, List.append_nil] at k1
    simp only [randString, hm, bind, Except.bind, List.length_replicate]
    simp only [bind, Except.bind] at k1
    rw [k1]
    rfl

/-- C68 for Xoshiro. -/
theorem C68_Xoshiro (g : Xoshiro) : HelpersReturnFrom Xoshiro.source g :=
  helpers_return _ (fun _ => True) (fun max h0 s _ => by
    obtain ⟨n, r, s', h⟩ := C13_Xoshiro s max h0
    exact ⟨n, r, s', trivial, h⟩) g trivial

/-- C68 for Xoroshiro. -/
theorem C68_Xoroshiro (g : Xoroshiro) : HelpersReturnFrom Xoroshiro.source g :=
  helpers_return _ (fun _ => True) (fun max h0 s _ => by
    obtain ⟨n, r, s', h⟩ := C13_Xoroshiro s max h0
    exact ⟨n, r, s', trivial, h⟩) g trivial

/-- C68 for Rexoroshiro. -/
theorem C68_Rexoroshiro (g : Rexoroshiro) : HelpersReturnFrom Rexoroshiro.source g :=
  helpers_return _ (fun _ => True) (fun max h0 s _ => by
    obtain ⟨n, r, s', h⟩ := C13_Rexoroshiro s max h0
    exact ⟨n, r, s', trivial, h⟩) g trivial

/-- C68 for MT64. -/
theorem C68_MT64 (g : MT64) : HelpersReturnFrom MT64.source g :=
  helpers_return _ (fun _ => True) (fun max h0 s _ => by
    obtain ⟨n, r, s', h⟩ := C13_MT64 s max h0
    exact ⟨n, r, s', trivial, h⟩) g trivial

/-- C68 for LFG, in every state a `NewLFG` generator can get into. -/
theorem C68_LFG (g : LFG) (hg : Reachable LFG.methods.api LFG.new g) : HelpersReturnFrom LFG.source g :=
  helpers_return _ LFG.Inv (fun max h0 s hs => by
    obtain ⟨n, r, s', h⟩ := LFG.uintn_returns_inv s hs max h0
    exact ⟨n, r, s', h.1, h.2⟩) g (LFG.safe.reachable LFG.inv_new hg)

/-- Non-vacuity of C68: arguments the statement covers. -/
example : [3, 1, 2].length < 2 ^ 63 ∧ [0x61#8, 0x62#8] ≠ [] ∧ 12 ≤ 2 ^ 46 ∧ Reachable LFG.methods.api LFG.new LFG.new :=
  ⟨by decide, by decide, by decide, ⟨[], rfl⟩⟩

end Crazy
