/-
C34: SeedInt64 and CryptoSeeded.
-/
import Verif.Model.Util
import Verif.Proofs.RNG
import Verif.Model.GenObjs
import Verif.Spec.CountBytes
namespace Crazy

variable {σ : Type}

/-- C34: `SeedInt64(src, x)` is one call `SeedIV(iv)`, `iv` being eight bytes long and the little-endian form of `x`. -/
theorem C34_seedInt64 (x : U64) : ∃ iv : List Byte, iv.length = 8 ∧ leNat iv = x.toNat ∧
    ∀ {σ : Type} (src : Obj σ) (s : σ), seedInt64 src x s = src.seedIV iv s := by
  refine ⟨le64 x, rfl, leNat_le64 x, fun src s => ?_⟩
  have : putU64 (zeros 8) x = .ok (le64 x) := by simp [putU64, zeros]
  simp only [seedInt64, this, bind, Except.bind]

/-- A Seeder that only records the ivs it is seeded with. -/
def recorder : Obj (List (List Byte)) where
  read? := some fun p s => .ok (⟨p, p.length, none⟩, s)
  seedIV? := some fun iv s => .ok (iv :: s)
  int63? := none
  uint64? := none
  seed? := none
  len_buf f hf p s r s' h := by
    cases hf
    simp only [Except.ok.injEq, Prod.mk.injEq] at h
    rw [← h.1]

/-- C34: distinct `int64`s give distinct ivs. -/
theorem C34_seedInt64_injective (x y : U64) (h : seedInt64 recorder x [] = seedInt64 recorder y []) : x = y := by
  obtain ⟨iv, -, hx, h1⟩ := C34_seedInt64 x
  obtain ⟨iv', -, hy, h2⟩ := C34_seedInt64 y
  rw [h1, h2] at h
  simp only [Obj.seedIV, recorder, Except.ok.injEq, List.cons.injEq, and_true] at h
  rw [h] at hx
  exact BitVec.eq_of_toNat_eq (by omega)

/-- C34: `SeedInt64` on the generators of the package is their `Seed`. (MT64 is not listed: its `Seed` is the
reference initialisation from one word, not `SeedIV`.) -/
theorem C34_is_seed (x : U64) :
    (∀ g, seedInt64 LFG.obj x g = LFG.seed x g) ∧ (∀ g, seedInt64 Xoroshiro.obj x g = Xoroshiro.seed x g) ∧
    (∀ g, seedInt64 Rexoroshiro.obj x g = Rexoroshiro.seed x g) ∧ (∀ g, seedInt64 Xoshiro.obj x g = Xoshiro.seed x g) := by
  have : putU64 (zeros 8) x = .ok (le64 x) := by simp [putU64, zeros]
  refine ⟨fun g => ?_, fun g => ?_, fun g => ?_, fun g => ?_⟩ <;>
    (simp only [seedInt64, this, bind, Except.bind]; rfl)

/-- C34: `CryptoSeeded(src, n)` reads `n` bytes from `crypto/rand` into a zeroed buffer, calls `SeedIV` once with the buffer
(whatever count and error the reader returned), and returns `src` itself. -/
theorem C34_cryptoSeeded (crypto : Source σ) (src : Obj σ) (n : Nat) (hn : n ≤ RNG.maxAlloc) (s s1 : σ) (r : ReadRes)
    (hr : crypto.read (List.replicate n 0#8) s = .ok (r, s1)) :
    r.buf.length = n ∧
    (∀ s2, src.seedIV r.buf s1 = .ok s2 → cryptoSeeded crypto src n s = .ok (src, s2)) ∧
    (∀ e, src.seedIV r.buf s1 = .error e → cryptoSeeded crypto src n s = .error e) := by
  have hl := crypto.len_buf _ _ _ _ hr
  rw [List.length_replicate] at hl
  have hm : RNG.makeBytes n = .ok (zeros n) := by unfold RNG.makeBytes; rw [if_neg (by omega)]
  refine ⟨hl, fun s2 h => ?_, fun e h => ?_⟩
  · simp only [cryptoSeeded, bind, Except.bind, if_neg (show ¬ (n : Int) < 0 by omega), Int.toNat_natCast, hm, zeros, hr, h,
      pure, Except.pure]
  · simp only [cryptoSeeded, bind, Except.bind, if_neg (show ¬ (n : Int) < 0 by omega), Int.toNat_natCast, hm, zeros, hr, h,
      pure, Except.pure]

/-- C34: it panics for a negative length (and for one that cannot be allocated) without touching anything; if neither
`crypto/rand` nor `SeedIV` panics, these are the only lengths for which it does. -/
theorem C34_cryptoSeeded_panics (crypto : Source σ) (src : Obj σ) (n : Int) (s : σ)
    (hc : ∀ p s, ∃ r, crypto.read p s = .ok r) (hs : ∀ iv s, ∃ r, src.seedIV iv s = .ok r) :
    (∃ e, cryptoSeeded crypto src n s = .error e) ↔ (n < 0 ∨ (RNG.maxAlloc : Int) < n) := by
  constructor
  · rintro ⟨e, he⟩
    by_contra hcon
    obtain ⟨m, rfl⟩ : ∃ m : Nat, n = m := ⟨n.toNat, by omega⟩
    obtain ⟨r, hr⟩ := hc (List.replicate m 0#8) s
    obtain ⟨t, ht⟩ := hs r.1.buf r.2
    have := (C34_cryptoSeeded crypto src m (by omega) s r.2 r.1 hr).2.1 t ht
    rw [this] at he
    contradiction
  · intro h
    refine ⟨.makeslice, ?_⟩
    by_cases h0 : n < 0
    · simp only [cryptoSeeded, bind, Except.bind, if_pos h0]
    · have hm : RNG.makeBytes n.toNat = .error .makeslice := by unfold RNG.makeBytes; rw [if_pos (by omega)]
      simp only [cryptoSeeded, bind, Except.bind, if_neg h0, hm, pure, Except.pure]

/-- Non-vacuity of C34: a crypto reader that always delivers 7s, and the recording Seeder. -/
example : ∃ crypto : Source (List (List Byte)), (∀ p s, ∃ r, crypto.read p s = .ok r) ∧
    (∀ iv s, ∃ r, recorder.seedIV iv s = .ok r) ∧
    (cryptoSeeded crypto recorder 3 []).map (·.2) = .ok [[7, 7, 7]] :=
  ⟨⟨fun p s => .ok (⟨List.replicate p.length 7#8, p.length, none⟩, s), fun p s r s' h => by
      simp only [Except.ok.injEq, Prod.mk.injEq] at h
      rw [← h.1]; simp⟩, fun p s => ⟨_, rfl⟩, fun iv s => ⟨_, rfl⟩, rfl⟩

end Crazy
