/-
C121: what the first draw after seeding gives: with Xoshiro, always the same; and how few results an LFG can give after seeding.
-/
import Verif.Spec.FirstDraw
import Verif.Props.SeedRef
import Verif.Props.LfgSeed
import Verif.Props.ZigAccept
import Verif.Props.Uintn
import Verif.Props.Uniform
import Verif.Props.RandString
import Verif.Props.RngInts
import Verif.Props.Read
namespace Crazy

/-- The word a freshly seeded Xoshiro gives first. -/
theorem Xoshiro.Fresh.uint64 {s : Xoshiro} (h : s.Fresh) : RNG.uint64 Xoshiro.source s = .ok (BitVec.ofNat 64 xoshiroFirst, s.step) := by
  obtain ⟨g, iv, h0, h8, hs⟩ := h
  have he := C76_Xoshiro_first_constant g s iv h0 h8 hs
  rw [emits_one (next := Xoshiro.uint64) (out := Xoshiro.out) (step := Xoshiro.step) (fun _ => rfl)] at he
  have h1 := (C06_Xoshiro s).1 1
  have h2 : Xoshiro.uint64 s = .ok (s.out, s.step) := rfl
  simp only [draws, h2, bind, Except.bind, pure, Except.pure] at h1
  cases h3 : RNG.uint64 Xoshiro.source s with
  | error e => rw [h3] at h1; cases h1
  | ok q =>
    rw [h3] at h1
    simp only [Except.ok.injEq, Prod.mk.injEq, List.cons.injEq, and_true] at h1
    have he' : s.out = 0x3af8419d9287d417#64 := he
    rw [← Prod.mk.eta (p := q), h1.1, h1.2, he']
    rfl

/-- C121: whatever is read from a freshly seeded Xoshiro begins with the same eight bytes. -/
theorem C121_read (s : Xoshiro) (h : s.Fresh) (p : List Byte) :
    ∃ r s', s.read p = .ok (r, s') ∧ r.n = p.length ∧ r.buf.take 8 = (le64 (BitVec.ofNat 64 xoshiroFirst)).take p.length := by
  obtain ⟨g, iv, h0, h8, hs⟩ := h
  have he := C76_Xoshiro_first_constant g s iv h0 h8 hs
  rw [emits_one (next := Xoshiro.uint64) (out := Xoshiro.out) (step := Xoshiro.step) (fun _ => rfl)] at he
  have he' : s.out = BitVec.ofNat 64 xoshiroFirst := he
  obtain ⟨ws, s', h1, h2, h3, h4⟩ := C04_Xoshiro s p
  refine ⟨_, s', h4, rfl, ?_⟩
  obtain ⟨k, hk⟩ : ∃ k, max 1 ((p.length + 7) / 8) = k + 1 := ⟨max 1 ((p.length + 7) / 8) - 1, by omega⟩
  dsimp only at h1
  rw [hk, draws] at h1
  have h5 : Xoshiro.uint64 s = .ok (s.out, s.step) := rfl
  simp only [h5, bind, Except.bind] at h1
  cases h6 : draws Xoshiro.uint64 k s.step with
  | error e => rw [h6] at h1; cases h1
  | ok q =>
    rw [h6] at h1
    simp only [pure, Except.pure, Except.ok.injEq, Prod.mk.injEq] at h1
    rw [← h1.1, he']
    show ((bytesOf (BitVec.ofNat 64 xoshiroFirst :: q.1)).take p.length).take 8 = _
    have : bytesOf (BitVec.ofNat 64 xoshiroFirst :: q.1) = le64 (BitVec.ofNat 64 xoshiroFirst) ++ bytesOf q.1 := rfl
    rw [this, List.take_take, Nat.min_comm, ← List.take_take, List.take_left' (by rfl)]

/-- C121: the first `RNG{x}.Uint64()` after seeding a Xoshiro with 1 to 8 bytes. -/
theorem C121_uint64 (s : Xoshiro) (h : s.Fresh) : ∃ s', RNG.uint64 Xoshiro.source s = .ok (BitVec.ofNat 64 xoshiroFirst, s') := ⟨_, h.uint64⟩

/-- C121: the first `Uintn(max)` is the same number for all seeds, and never needs a second draw. -/
theorem C121_uintn (s : Xoshiro) (h : s.Fresh) (fuel : Nat) (max : U64) (h0 : max ≠ 0#64) :
    ∃ s', RNG.uintn Xoshiro.source fuel max s = .ok (BitVec.ofNat 64 (xoshiroFirst % max.toNat), s') := by
  obtain ⟨B, hB⟩ := C10_B_exists max h0
  have hm : 0 < max.toNat := by
    rcases Nat.eq_zero_or_pos max.toNat with h | h
    · exact absurd (BitVec.eq_of_toNat_eq (by simpa using h)) h0
    · exact h
  have hBig : 2 ^ 63 ≤ B + 1 := by
    have hBeq := (largestMultiple_iff _ _ hm).mp hB
    have hlt := max.isLt
    by_cases hc : max.toNat ≤ 2 ^ 63
    · have hm' : (2 ^ 64 - 1) % max.toNat < max.toNat := Nat.mod_lt _ hm
      have hd := Nat.div_add_mod (2 ^ 64 - 1) max.toNat
      omega
    · have := hB.2.2 max.toNat (Nat.dvd_refl _) (by omega)
      omega
  have hc : (BitVec.ofNat 64 xoshiroFirst).toNat = xoshiroFirst := by decide +kernel
  have hd : rngDraws Xoshiro.source 1 s = .ok ([] ++ [BitVec.ofNat 64 xoshiroFirst], s.step) := by
    unfold rngDraws
    simp only [draws, h.uint64, bind, Except.bind, pure, Except.pure, List.nil_append]
  refine ⟨s.step, ?_⟩
  have := C10_first_accepted Xoshiro.source max h0 B hB s s.step [] (BitVec.ofNat 64 xoshiroFirst) hd (by simp)
    (by rw [hc]; have : xoshiroFirst < 2 ^ 62 := by decide
        omega) fuel (Nat.zero_le _)
  rwa [hc] at this

/-- C121: and so is the first `Intn(max)`. -/
theorem C121_intn (s : Xoshiro) (h : s.Fresh) (fuel : Nat) (max : Int) (h0 : 0 < max) (hmax : max < 2 ^ 63) :
    ∃ s', RNG.intn Xoshiro.source fuel max s = .ok ((xoshiroFirst : Int) % max, s') := by
  have hof : (BitVec.ofNat 64 max.toNat).toNat = max.toNat := by rw [BitVec.toNat_ofNat]; omega
  obtain ⟨s', h1⟩ := C121_uintn s h fuel (BitVec.ofNat 64 max.toNat) fun hh => by
    have := congrArg BitVec.toNat hh
    rw [hof] at this
    have : max.toNat = 0 := this
    omega
  refine ⟨s', ?_⟩
  rw [C14_uintn _ _ _ h0 hmax, h1, hof]
  have hlt : xoshiroFirst % max.toNat < 2 ^ 64 := Nat.lt_of_le_of_lt (Nat.mod_le _ _) (by decide)
  simp only [Except.map, BitVec.toNat_ofNat, Nat.mod_eq_of_lt hlt]
  have : ((xoshiroFirst % max.toNat : Nat) : Int) = (xoshiroFirst : Int) % max := by
    rw [Int.natCast_mod, Int.toNat_of_nonneg h0.le]
  rw [this]

/-- C121: the first result of `Uniform0_1` is always about 0.758. -/
theorem C121_uniform01 (s : Xoshiro) (h : s.Fresh) :
    ∃ r s', uniform01 Xoshiro.source s = .ok (r, s') ∧ r.IsFin ∧ r.val = ((xoshiroFirst % 2 ^ 53 : Nat) : ℚ) / 2 ^ 53 := by
  have h1 := h.uint64
  rw [RNG.uint64_eq] at h1
  cases h3 : Xoshiro.source.read (zeros 8) s with
  | error e => rw [h3] at h1; cases h1
  | ok q =>
    obtain ⟨q, s2⟩ := q
    rw [h3] at h1
    simp only [Except.map, Except.ok.injEq, Prod.mk.injEq] at h1
    obtain ⟨x, h4, -, h5, h6⟩ := C36_value Xoshiro.source s s2 q h3
    refine ⟨x, s2, h4, h5, ?_⟩
    have hl := Xoshiro.source.len_buf _ _ _ _ h3
    rw [zeros_length] at hl
    have hb := leNat_lt q.buf
    rw [hl] at hb
    have hx : leNat q.buf = xoshiroFirst := by
      have := congrArg BitVec.toNat h1.1
      rw [BitVec.toNat_ofNat, Nat.mod_eq_of_lt (Nat.lt_of_lt_of_le hb (by decide)), BitVec.toNat_ofNat] at this
      rw [this]
      decide
    rw [h6, hx]

/-- C121: the first result of `Exponential` depends on the rate only. -/
theorem C121_exponential (rate : F64) : ∃ r, ∀ (s : Xoshiro), s.Fresh → ∀ (lib : MathLib) (fused : Bool) (n : Nat),
    ∃ s', exponential lib fused rate Xoshiro.source (n + 1) s = .ok (r, s') := by
  refine ⟨F64.div (F64.mul (F64.ofInt (zoffset false (BitVec.ofNat 64 xoshiroFirst))) (expoW[zlayer (BitVec.ofNat 64 xoshiroFirst)]'(zlayer_lt _))) rate,
    fun s h lib fused n => ⟨s.step, ?_⟩⟩
  have hg := genNext_word (expoZig lib) fused Xoshiro.source n s s.step _ h.uint64
  have hk : (zoffset false (BitVec.ofNat 64 xoshiroFirst)).natAbs < (expoK[zlayer (BitVec.ofNat 64 xoshiroFirst)]'(zlayer_lt _)).toNat := by decide +kernel
  unfold exponential
  rw [hg, if_pos (show (zoffset (expoZig lib : Ziggurat Xoshiro).mirrored (BitVec.ofNat 64 xoshiroFirst)).natAbs <
    ((expoZig lib : Ziggurat Xoshiro).K[zlayer (BitVec.ofNat 64 xoshiroFirst)]'(zlayer_lt _)).toNat from hk)]
  rfl

/-- C121: the first result of `Normal` depends on the parameters only (and on whether the compiler fuses the last multiplication and addition). -/
theorem C121_normal (mean stddev : F64) (fused' : Bool) : ∃ r, ∀ (s : Xoshiro), s.Fresh → ∀ (lib : MathLib) (fused : Bool) (n : Nat),
    ∃ s', normal lib fused fused' mean stddev Xoshiro.source (n + 1) s = .ok (r, s') := by
  refine ⟨F64.mulAdd fused' (F64.mul (F64.ofInt (zoffset true (BitVec.ofNat 64 xoshiroFirst))) (normalW[zlayer (BitVec.ofNat 64 xoshiroFirst)]'(zlayer_lt _)))
    stddev mean, fun s h lib fused n => ⟨s.step, ?_⟩⟩
  have hg := genNext_word (normalZig lib) fused Xoshiro.source n s s.step _ h.uint64
  have hk : (zoffset true (BitVec.ofNat 64 xoshiroFirst)).natAbs < (normalK[zlayer (BitVec.ofNat 64 xoshiroFirst)]'(zlayer_lt _)).toNat := by decide +kernel
  unfold normal
  rw [hg, if_pos (show (zoffset (normalZig lib : Ziggurat Xoshiro).mirrored (BitVec.ofNat 64 xoshiroFirst)).natAbs <
    ((normalZig lib : Ziggurat Xoshiro).K[zlayer (BitVec.ofNat 64 xoshiroFirst)]'(zlayer_lt _)).toNat from hk)]
  rfl

/-- C121: every string that `RandString` returns right after seeding begins with the same letter of the alphabet. -/
theorem C121_randString (s : Xoshiro) (h : s.Fresh) (fuel : Nat) (alphabet : List Byte) (h0 : alphabet ≠ []) (halpha : alphabet.length < 2 ^ 63)
    (n : Nat) (hn0 : 0 < n) (hn : n ≤ 2 ^ 46) (str : List Byte) (s' : Xoshiro) (hr : randString Xoshiro.source fuel alphabet n s = .ok (str, s')) :
    (runes str)[0]? = (runes alphabet)[xoshiroFirst % (runes alphabet).length]? := by
  have hle := runes_length_le alphabet
  have hpos : 0 < (runes alphabet).length := List.length_pos_iff.mpr (mt (runes_eq_nil alphabet).mp h0)
  have hof : (BitVec.ofNat 64 (runes alphabet).length).toNat = (runes alphabet).length := by rw [BitVec.toNat_ofNat]; omega
  have hne : BitVec.ofNat 64 (runes alphabet).length ≠ 0#64 := fun h => by
    have := congrArg BitVec.toNat h
    rw [hof] at this
    have : (runes alphabet).length = 0 := this
    omega
  have hcc := C28_randString Xoshiro.source fuel alphabet halpha n hn s
  cases hd : draws (RNG.uintn Xoshiro.source fuel (BitVec.ofNat 64 (runes alphabet).length)) n s with
  | error e => rw [hcc.2 e hd] at hr; cases hr
  | ok q =>
    obtain ⟨js, t⟩ := q
    obtain ⟨str', h3, -, -, h4⟩ := hcc.1 js t hd
    rw [h3, Except.ok.injEq, Prod.mk.injEq] at hr
    obtain ⟨j, h5, h6⟩ := h4 0 hn0
    rw [← hr.1, ← h6]
    obtain ⟨m, rfl⟩ : ∃ m, n = m + 1 := ⟨n - 1, by omega⟩
    obtain ⟨s1, h7⟩ := C121_uintn s h fuel _ hne
    rw [draws, h7] at hd
    simp only [bind, Except.bind] at hd
    cases h8 : draws (RNG.uintn Xoshiro.source fuel (BitVec.ofNat 64 (runes alphabet).length)) m s1 with
    | error e => rw [h8] at hd; cases hd
    | ok q =>
      rw [h8] at hd
      simp only [pure, Except.pure, Except.ok.injEq, Prod.mk.injEq] at hd
      rw [← hd.1, List.getElem?_cons_zero, Option.some.injEq] at h5
      rw [← h5, hof, BitVec.toNat_ofNat, Nat.mod_eq_of_lt]
      exact Nat.lt_of_le_of_lt (Nat.mod_le _ _) (by decide)

/-! ### LFG -/

/-- C121: whatever is computed with an LFG after `Seed`, of any length, there are 256 results at most, whatever the seed and whatever was done before. -/
theorem C121_LFG_Seed {α : Type} (call : LFG → Go (α × LFG)) : ∃ l : List α, l.length ≤ 256 ∧
    ∀ (g s : LFG) (x : U64) (r : α) (s' : LFG), g.seed x = .ok s → call s = .ok (r, s') → r ∈ l := by
  classical
  refine ⟨(List.range 256).filterMap fun k => match LFG.new.seed (BitVec.ofNat 64 k) with
    | .ok s => match call s with
      | .ok (r, _) => some r
      | .error _ => none
    | .error _ => none, (List.length_filterMap_le _ _).trans (by simp), fun g s x r s' h1 h2 => ?_⟩
  rw [List.mem_filterMap]
  refine ⟨x.toNat % 256, List.mem_range.mpr (Nat.mod_lt _ (by decide)), ?_⟩
  have e := C53_LFG_Seed (BitVec.ofNat 64 (x.toNat % 256)) x (by rw [BitVec.toNat_ofNat]; omega) LFG.new g
  rw [e, h1]
  dsimp only
  rw [h2]

/-- C121: the same after `SeedIV`, with ivs of any one length up to 273 bytes. -/
theorem C121_LFG_SeedIV {α : Type} (call : LFG → Go (α × LFG)) (L : Nat) (h273 : L ≤ 273) : ∃ l : List α, l.length ≤ 256 ∧
    ∀ (g s : LFG) (iv : List Byte) (r : α) (s' : LFG), iv.length = L → g.seedIV iv = .ok s → call s = .ok (r, s') → r ∈ l := by
  classical
  refine ⟨(List.range 256).filterMap fun k => match LFG.new.seedIV ((BitVec.ofNat 8 k :: List.replicate (L - 1) 0#8).take L) with
    | .ok s => match call s with
      | .ok (r, _) => some r
      | .error _ => none
    | .error _ => none, (List.length_filterMap_le _ _).trans (by simp), fun g s iv r s' hL h1 h2 => ?_⟩
  rw [List.mem_filterMap]
  refine ⟨(iv.headD 0#8).toNat, List.mem_range.mpr (iv.headD 0#8).isLt, ?_⟩
  have e : LFG.new.seedIV ((BitVec.ofNat 8 (iv.headD 0#8).toNat :: List.replicate (L - 1) 0#8).take L) = g.seedIV iv := by
    refine C53_LFG_ignored _ iv (by rw [List.length_take, List.length_cons, List.length_replicate]; omega) (fun k hk => ?_) LFG.new g
    by_cases hkL : L ≤ k
    · rw [List.getElem?_eq_none (by rw [List.length_take]; omega), List.getElem?_eq_none (by omega)]
    · obtain rfl : k = 0 := by unfold LfgLive at hk; omega
      cases iv with
      | nil => rw [← hL] at hkL; exact absurd (Nat.zero_le _) hkL
      | cons b iv =>
        rw [List.getElem?_take_of_lt (by omega), List.getElem?_cons_zero, List.headD_cons, BitVec.ofNat_toNat, BitVec.setWidth_eq]
        rfl
  rw [e, h1]
  dsimp only
  rw [h2]

/-! ### Non-vacuity -/

/-- Seeding gives such states, and different ones; the first roll of a die is always a four (counting from 0: 3). -/
example : (∀ (g : Xoshiro) (x : U64), ∃ s, g.seed x = .ok s ∧ s.Fresh) ∧ ∀ s : Xoshiro, s.Fresh → ∃ s', RNG.intn Xoshiro.source 0 6 s = .ok (3, s') := by
  refine ⟨fun g x => ?_, fun s h => C121_intn s h 0 6 (by decide) (by decide)⟩
  obtain ⟨s, hs⟩ : ∃ s, g.seed x = .ok s := ⟨_, Xoshiro.seed_short g (le64 x) (by simp [le64]) x (by simp [zeros]) (by simp)⟩
  exact ⟨s, hs, g, le64 x, by simp [le64], by simp, hs⟩

end Crazy
