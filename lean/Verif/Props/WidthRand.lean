/-
C90: the lengths `RandString` accepts.
-/
import Verif.Props.Width
namespace Crazy

variable {σ : Type}

theorem maxAlloc32 : RNG.maxAllocW 32 = 2 ^ 32 - 1 := by decide

theorem maxAlloc64 : RNG.maxAllocW 64 = 2 ^ 48 := by decide

/-- C90: on 32-bit platforms `RandString` panics for a negative length and for lengths from 2^30 on, before it draws anything ... -/
theorem C90_RandString_32_panics (src : Source σ) (fuel : Nat) (alphabet : List Byte) (length : Int) (h : length < 0 ∨ 2 ^ 30 ≤ length) (s : σ) :
    randStringW 32 src fuel alphabet length s = .error .makeslice := by
  have hm : makeRunesW 32 length = .error .makeslice := by
    unfold makeRunesW
    rw [if_pos (by rw [maxAlloc32]; omega)]
  unfold randStringW
  rw [hm]
  rfl

/-- ... and for any other length it makes `length` calls `Uintn(len(a))`, `a` being the runes of the alphabet, and puts together the runes
they select. -/
theorem C90_RandString_32 (src : Source σ) (fuel : Nat) (alphabet : List Byte) (halpha : alphabet.length < 2 ^ 31) (length : Int)
    (h0 : 0 ≤ length) (h1 : length < 2 ^ 30) (s : σ) :
    (∀ js s', draws (widen (RNG.uintnW 32 src fuel (BitVec.ofNat 32 (runes alphabet).length))) length.toNat s = .ok (js, s') →
      ∃ str, randStringW 32 src fuel alphabet length s = .ok (str, s') ∧
        runes str = js.map (fun j => (runes alphabet)[j.toNat]?.getD 0) ∧ ∀ j ∈ js, j.toNat < (runes alphabet).length) ∧
    (∀ e, draws (widen (RNG.uintnW 32 src fuel (BitVec.ofNat 32 (runes alphabet).length))) length.toNat s = .error e →
      randStringW 32 src fuel alphabet length s = .error e) := by
  obtain ⟨n, rfl⟩ := Int.eq_ofNat_of_zero_le h0
  have hn : 4 * n ≤ RNG.maxAllocW 32 := by rw [maxAlloc32]; omega
  obtain ⟨k1, k2⟩ := C90_randString 32 (by decide) (by decide) src fuel alphabet halpha n hn s
  refine ⟨fun js s' h => ?_, fun e h => k2 e h⟩
  obtain ⟨str, e1, _, e2, e3⟩ := k1 js s' h
  exact ⟨str, e1, e2, e3⟩

/-- C90: on 64-bit platforms the limit is 2^46. -/
theorem C90_RandString_64_panics (src : Source σ) (fuel : Nat) (alphabet : List Byte) (length : Int) (h : length < 0 ∨ 2 ^ 46 < length) (s : σ) :
    randStringW 64 src fuel alphabet length s = .error .makeslice := by
  have hm : makeRunesW 64 length = .error .makeslice := by
    unfold makeRunesW
    rw [if_pos (by rw [maxAlloc64]; omega)]
  unfold randStringW
  rw [hm]
  rfl

/-- C90: and up to there it works. -/
theorem C90_RandString_64 (src : Source σ) (fuel : Nat) (alphabet : List Byte) (halpha : alphabet.length < 2 ^ 63) (length : Int)
    (h0 : 0 ≤ length) (h1 : length ≤ 2 ^ 46) (s : σ) :
    (∀ js s', draws (widen (RNG.uintnW 64 src fuel (BitVec.ofNat 64 (runes alphabet).length))) length.toNat s = .ok (js, s') →
      ∃ str, randStringW 64 src fuel alphabet length s = .ok (str, s') ∧
        runes str = js.map (fun j => (runes alphabet)[j.toNat]?.getD 0) ∧ ∀ j ∈ js, j.toNat < (runes alphabet).length) ∧
    (∀ e, draws (widen (RNG.uintnW 64 src fuel (BitVec.ofNat 64 (runes alphabet).length))) length.toNat s = .error e →
      randStringW 64 src fuel alphabet length s = .error e) := by
  obtain ⟨n, rfl⟩ := Int.eq_ofNat_of_zero_le h0
  have hn : 4 * n ≤ RNG.maxAllocW 64 := by
    rw [maxAlloc64]
    omega
  obtain ⟨k1, k2⟩ := C90_randString 64 (by decide) (by decide) src fuel alphabet halpha n hn s
  refine ⟨fun js s' h => ?_, fun e h => k2 e h⟩
  obtain ⟨str, e1, _, e2, e3⟩ := k1 js s' h
  exact ⟨str, e1, e2, e3⟩

/-- Non-vacuity: three bytes over the two-letter alphabet "ab" on a 32-bit platform. -/
example : ∃ m str s', (runes str).length = 3 ∧ ∀ fuel, m ≤ fuel →
    randStringW 32 MT64.source fuel [97#8, 98#8] ((3 : Nat) : Int) MT64.new = .ok (str, s') := by
  obtain ⟨m, str, s', h1, _, h2⟩ := ((C90_helpers 32 (by decide) (by decide)).2.2.2.1 MT64.new).2 [97#8, 98#8] 3 (by decide) (by decide) (by decide)
  exact ⟨m, str, s', h1, h2⟩

/-- And too many of them. -/
example : randStringW 32 MT64.source 9 [97#8, 98#8] (2 ^ 30) MT64.new = .error .makeslice :=
  C90_RandString_32_panics _ _ _ _ (.inr (le_refl _)) _

end Crazy
