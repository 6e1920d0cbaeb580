/-
C86: Bign returns on the bundled generators.
-/
import Verif.Props.Big
import Verif.Props.Terminates2
import Verif.Props.LfgExact
import Verif.Props.Recover
import Verif.Props.Leap
import Mathlib.Data.Nat.ChineseRemainder
namespace Crazy

/-- A draw whose value is below `2^k` is accepted. -/
theorem bign_accepts (max : Nat) (hmax : 0 < max) : 2 ^ RNG.bitLen max ≤ max * ((2 ^ (RNG.bitLen max + 1) - 1) / max) + 1 := by
  have h := (bitLen_spec max hmax).2
  have hd := Nat.div_add_mod (2 ^ (RNG.bitLen max + 1) - 1) max
  have hm := Nat.mod_lt (2 ^ (RNG.bitLen max + 1) - 1) hmax
  rw [Nat.pow_succ] at hd hm ⊢
  omega

/-- `Bign` on a source whose successive draws are known, one of them acceptable. -/
theorem bign_returns {σ : Type} (src : Source σ) (max : Nat) (hmax : 0 < max) (hm : (RNG.bitLen max + 8) / 8 ≤ RNG.maxAlloc) (buf : Nat → List Byte)
    (st : Nat → σ) (hread : ∀ j, ∃ r, src.read (zeros ((RNG.bitLen max + 8) / 8)) (st j) = .ok (r, st (j + 1)) ∧ r.buf = buf j)
    (hex : ∃ j, RNG.setBytes (buf j) % 2 ^ RNG.bigBits (RNG.bitLen max + 1) < 2 ^ RNG.bitLen max) :
    Returns (fun fuel => RNG.bign src fuel max (st 0)) := by
  have hbig : ∀ j, RNG.big src ((RNG.bitLen max + 1 : Nat) : Int) (st j) =
      .ok (((RNG.setBytes (buf j) % 2 ^ RNG.bigBits (RNG.bitLen max + 1) : Nat) : Int), st (j + 1)) := by
    intro j
    obtain ⟨r, hr, hb⟩ := hread j
    rw [RNG.big_eq src (RNG.bitLen max + 1) (by omega) hm, show (RNG.bitLen max + 1 + 7) / 8 = (RNG.bitLen max + 8) / 8 from rfl, hr, ← hb]
    rfl
  have hK : ∀ j, RNG.setBytes (buf j) % 2 ^ RNG.bigBits (RNG.bitLen max + 1) < 2 ^ RNG.bitLen max →
      ((RNG.setBytes (buf j) % 2 ^ RNG.bigBits (RNG.bitLen max + 1) : Nat) : Int) ≤
        (2 : Int) ^ (RNG.bitLen max + 1) - 1 - ((2 : Int) ^ (RNG.bitLen max + 1) - 1).tmod max := by
    intro j hj
    generalize RNG.setBytes (buf j) % 2 ^ RNG.bigBits (RNG.bitLen max + 1) = X at hj
    have h1 := (bitLen_spec max hmax).2
    have e : (2 : Int) ^ (RNG.bitLen max + 1) = 2 * ((2 ^ RNG.bitLen max : Nat) : Int) := by
      rw [pow_succ, mul_comm]; push_cast; rfl
    have h0 : (0 : Int) ≤ 2 * ((2 ^ RNG.bitLen max : Nat) : Int) - 1 := by
      have := Nat.two_pow_pos (RNG.bitLen max)
      omega
    have h2 := Int.tmod_lt_of_pos (2 * ((2 ^ RNG.bitLen max : Nat) : Int) - 1) (show (0 : Int) < max by omega)
    rw [e]
    omega
  classical
  have hspec := Nat.find_spec hex
  generalize Nat.find hex = n at hspec
  have loop : ∀ i ≤ n, ∃ r, ∀ fuel, i ≤ fuel →
      RNG.bignLoop src max ((2 : Int) ^ (RNG.bitLen max + 1) - 1 - ((2 : Int) ^ (RNG.bitLen max + 1) - 1).tmod max) (RNG.bitLen max + 1) fuel
        ((RNG.setBytes (buf (n - i)) % 2 ^ RNG.bigBits (RNG.bitLen max + 1) : Nat) : Int) (st (n - i + 1)) = .ok r := by
    intro i
    induction i with
    | zero =>
      intro _
      refine ⟨(Int.tmod ((RNG.setBytes (buf (n - 0)) % 2 ^ RNG.bigBits (RNG.bitLen max + 1) : Nat) : Int) max, st (n - 0 + 1)), fun fuel _ => ?_⟩
      unfold RNG.bignLoop
      rw [if_neg (by have := hK n hspec; rw [Nat.sub_zero]; omega)]
    | succ i ih =>
      intro hi
      obtain ⟨r, hr⟩ := ih (by omega)
      by_cases hc : (2 : Int) ^ (RNG.bitLen max + 1) - 1 - ((2 : Int) ^ (RNG.bitLen max + 1) - 1).tmod max <
          ((RNG.setBytes (buf (n - (i + 1))) % 2 ^ RNG.bigBits (RNG.bitLen max + 1) : Nat) : Int)
      · refine ⟨r, fun fuel hf => ?_⟩
        obtain ⟨f, rfl⟩ : ∃ f, fuel = f + 1 := ⟨fuel - 1, by omega⟩
        unfold RNG.bignLoop
        rw [if_pos hc, show n - (i + 1) + 1 = n - i by omega]
        simp only [bind, Except.bind, hbig]
        exact hr f (by omega)
      · refine ⟨(Int.tmod ((RNG.setBytes (buf (n - (i + 1))) % 2 ^ RNG.bigBits (RNG.bitLen max + 1) : Nat) : Int) max, st (n - (i + 1) + 1)),
          fun fuel _ => ?_⟩
        unfold RNG.bignLoop
        rw [if_neg hc]
  obtain ⟨r, hr⟩ := loop n (Nat.le_refl _)
  refine ⟨n, r, fun fuel hf => ?_⟩
  have h := hr fuel hf
  rw [Nat.sub_self] at h
  unfold RNG.bign
  simp only [if_neg (show ¬ (max : Int) ≤ 0 by omega), bind, Except.bind, Int.natAbs_natCast, hbig]
  exact h

/-- The value of a draw whose first byte has a zero in the place of the top bit. -/
theorem draw_small (k : Nat) (c : Byte) (rest : List Byte) (hl : (c :: rest).length = (k + 8) / 8)
    (hc : k % 8 ≠ 7 → c.toNat / 2 ^ (k % 8) % 2 = 0) :
    RNG.setBytes (c :: rest) % 2 ^ RNG.bigBits (k + 1) < 2 ^ k := by
  rw [RNG.bigBits_eq _ (by omega)]
  by_cases h7 : k % 8 = 7
  · rw [if_pos (by omega)]
    exact (Nat.mod_lt _ (Nat.two_pow_pos _)).trans (Nat.pow_lt_pow_right (by decide) (by omega))
  · rw [if_neg (by omega)]
    have hc := hc h7
    have hr := RNG.setBytes_lt rest
    rw [List.length_cons] at hl
    have e : 256 ^ rest.length * 2 ^ (k % 8) = 2 ^ k := by
      rw [show (256 : Nat) = 2 ^ 8 from rfl, ← Nat.pow_mul, ← Nat.pow_add]
      exact congrArg _ (by omega)
    have e2 : 2 ^ (k + 1) = 256 ^ rest.length * (2 ^ (k % 8) * 2) := by rw [← Nat.mul_assoc, e, Nat.pow_succ]
    rw [RNG.setBytes_cons, e2, Nat.mul_comm c.toNat, Nat.mod_mul, Nat.mul_add_mod, Nat.mod_eq_of_lt hr,
      Nat.mul_add_div (Nat.pow_pos (by decide)), Nat.div_eq_of_lt hr, Nat.add_zero, Nat.mod_mul, hc, Nat.mul_zero, Nat.add_zero, ← e]
    have h1 : c.toNat % 2 ^ (k % 8) + 1 ≤ 2 ^ (k % 8) := Nat.mod_lt _ (Nat.two_pow_pos _)
    calc RNG.setBytes rest + 256 ^ rest.length * (c.toNat % 2 ^ (k % 8))
        < 256 ^ rest.length + 256 ^ rest.length * (c.toNat % 2 ^ (k % 8)) := by omega
      _ = 256 ^ rest.length * (c.toNat % 2 ^ (k % 8) + 1) := by ring
      _ ≤ 256 ^ rest.length * 2 ^ (k % 8) := Nat.mul_le_mul_left _ h1

/-- What is true once in every period is true at some multiple of a number that has no factor in common with the period. -/
theorem hits (f : Nat → Prop) (P L n0 : Nat) (hL : 0 < L) (hP : 0 < P) (hc : Nat.Coprime L P) (hper : ∀ n, 1 ≤ n → f n → f (n + P)) (h1 : 1 ≤ n0)
    (h0 : f n0) : ∃ j, f (j * L) := by
  obtain ⟨x, hx1, hx2⟩ := Nat.chineseRemainder hc 0 n0
  have hmul : ∀ m, f (n0 + m * P) := by
    intro m
    induction m with
    | zero => rwa [Nat.zero_mul, Nat.add_zero]
    | succ m ih =>
      rw [Nat.succ_mul, ← Nat.add_assoc]
      exact hper _ (by omega) ih
  obtain ⟨q, hq⟩ := (Nat.modEq_zero_iff_dvd.mp hx1)
  have hle : n0 ≤ x + n0 * (L * P) := (Nat.le_mul_of_pos_right n0 (Nat.mul_pos hL hP)).trans (Nat.le_add_left _ _)
  have hmod : x + n0 * (L * P) ≡ n0 [MOD P] := by
    have : n0 * (L * P) ≡ 0 [MOD P] := Nat.modEq_zero_iff_dvd.mpr ⟨n0 * L, by ring⟩
    exact (hx2.add this)
  obtain ⟨m, hm⟩ := (Nat.modEq_iff_dvd' hle).mp hmod.symm
  refine ⟨q + n0 * P, ?_⟩
  have e : (q + n0 * P) * L = n0 + m * P := by
    have : (q + n0 * P) * L = x + n0 * (L * P) := by rw [hq]; ring
    rw [this, Nat.mul_comm m P]
    omega
  rw [e]
  exact hmul m

/-- `Bign` on a generator with the outputs `seq` that uses `words n` of them for `n` bytes. -/
theorem bign_returns_gen {σ : Type} (src : Source σ) (next : σ → Go (U64 × σ)) (words : Nat → Nat) (max : Nat) (hmax : 0 < max)
    (hm : (RNG.bitLen max + 8) / 8 ≤ RNG.maxAlloc) (seq : Nat → U64) (st : Nat → σ) (hd : ∀ n, draws next n (st 0) = .ok ((List.range n).map seq, st n))
    (hs : ∀ n, ReadsStream next src.read words (st n))
    (hex : ∃ j, (seq (j * words ((RNG.bitLen max + 8) / 8))).toNat / 2 ^ (RNG.bitLen max % 8) % 2 = 0) :
    Returns (fun fuel => RNG.bign src fuel max (st 0)) := by
  generalize hn : (RNG.bitLen max + 8) / 8 = n at hex
  have hn1 : 1 ≤ n := by omega
  generalize hw : words n = L at hex
  have hstep : ∀ a b, draws next b (st a) = .ok ((List.range b).map (fun i => seq (a + i)), st (a + b)) := by
    intro a b
    have h := hd (a + b)
    rw [draws_add, hd a] at h
    simp only [bind, Except.bind] at h
    cases hx : draws next b (st a) with
    | error e => rw [hx] at h; cases h
    | ok r =>
      rw [hx] at h
      have h := Except.ok.inj h
      have h1 : (List.range a).map seq ++ r.1 = (List.range (a + b)).map seq := congrArg Prod.fst h
      have h2 : r.2 = st (a + b) := congrArg Prod.snd h
      rw [List.range_add, List.map_append, List.map_map] at h1
      have h3 := List.append_cancel_left h1
      exact congrArg Except.ok (Prod.ext h3 h2)
  have hL : 1 ≤ L := by
    obtain ⟨ws, s', h1, h2, h3, -⟩ := hs 0 (zeros n)
    have : (zeros n).length = n := List.length_replicate
    rw [this, hw] at h2
    omega
  have key : ∀ j, ∃ c rest r, src.read (zeros n) (st (j * L)) = .ok (r, st ((j + 1) * L)) ∧ r.buf = c :: rest ∧ (c :: rest).length = n ∧
      c = (seq (j * L)).setWidth 8 := by
    intro j
    obtain ⟨ws, s', h1, h2, h3, h4⟩ := hs (j * L) (zeros n)
    have hz : (zeros n).length = n := List.length_replicate
    rw [hz] at h1 h2 h3 h4
    rw [hw, hstep] at h1
    have h1 := Except.ok.inj h1
    have e1 : (List.range L).map (fun i => seq (j * L + i)) = ws := congrArg Prod.fst h1
    have e2 : st (j * L + L) = s' := congrArg Prod.snd h1
    obtain ⟨m, rfl⟩ : ∃ m, L = m + 1 := ⟨L - 1, by omega⟩
    obtain ⟨p, rfl⟩ : ∃ p, n = p + 1 := ⟨n - 1, by omega⟩
    rw [List.range_succ_eq_map, List.map_cons] at e1
    rw [← e1, bytesOf_cons, Nat.add_zero] at h4
    have hl : ((le64 (seq (j * (m + 1))) ++ bytesOf ((List.map Nat.succ (List.range m)).map fun i => seq (j * (m + 1) + i))).take (p + 1)).length = p + 1 := by
      rw [List.length_take, ← bytesOf_cons, bytesOf_length]
      have : ws.length = (seq (j * (m + 1)) :: (List.map Nat.succ (List.range m)).map fun i => seq (j * (m + 1) + i)).length := by
        rw [← e1]; rfl
      rw [← this]
      omega
    rw [← e2] at h4
    refine ⟨(seq (j * (m + 1))).setWidth 8, ((le64 (seq (j * (m + 1)))).tail ++
      bytesOf ((List.map Nat.succ (List.range m)).map fun i => seq (j * (m + 1) + i))).take p,
      ⟨_, ((p + 1 : Nat) : Int), none⟩, h4.trans ?_, rfl, hl, rfl⟩
    rw [Nat.succ_mul]
    rfl
  choose c rest r h1 h2 h3 h4 using key
  have e0 : st 0 = st (0 * L) := by rw [Nat.zero_mul]
  rw [e0]
  refine bign_returns src max hmax hm (fun j => c j :: rest j) (fun j => st (j * L)) (fun j => ⟨r j, ?_, h2 j⟩) ?_
  · rw [hn]
    exact h1 j
  · obtain ⟨j, hj⟩ := hex
    refine ⟨j, draw_small _ _ _ ((h3 j).trans hn.symm) fun h7 => ?_⟩
    rw [h4, BitVec.toNat_setWidth]
    have h8 : RNG.bitLen max % 8 < 7 := by omega
    generalize RNG.bitLen max % 8 = b at h8 hj
    generalize (seq (j * L)).toNat = w at hj
    interval_cases b <;> omega

/-- C86: on every source, if the number `k` of bits of `max` is 7 modulo 8, `Bign(max)` needs only one draw: it returns if `Read` does. -/
theorem C86_one_draw {σ : Type} (src : Source σ) (max k : Nat) (hmax : 0 < max) (hk : NeedsBits max k) (h7 : k % 8 = 7)
    (hm : (k + 8) / 8 ≤ RNG.maxAlloc) (s s' : σ) (r : ReadRes) (hr : src.read (zeros ((k + 8) / 8)) s = .ok (r, s')) :
    ∃ v, ∀ fuel, RNG.bign src fuel max s = .ok (v, s') := by
  obtain rfl := (needsBits_iff max k).mp hk
  have hb : RNG.big src ((RNG.bitLen max + 1 : Nat) : Int) s = .ok (((RNG.setBytes r.buf % 2 ^ (RNG.bitLen max + 1 - 8) : Nat) : Int), s') := by
    rw [RNG.big_eq src (RNG.bitLen max + 1) (by omega) hm s, show (RNG.bitLen max + 1 + 7) / 8 = (RNG.bitLen max + 8) / 8 from rfl, hr,
      RNG.bigBits_eq _ (by omega), if_pos (by omega)]
    rfl
  have hx : RNG.setBytes r.buf % 2 ^ (RNG.bitLen max + 1 - 8) < 2 ^ RNG.bitLen max :=
    (Nat.mod_lt _ (Nat.two_pow_pos _)).trans (Nat.pow_lt_pow_right (by decide) (by omega))
  generalize RNG.setBytes r.buf % 2 ^ (RNG.bitLen max + 1 - 8) = X at hx hb
  have h1 := (bitLen_spec max hmax).2
  have e : (2 : Int) ^ (RNG.bitLen max + 1) = 2 * ((2 ^ RNG.bitLen max : Nat) : Int) := by
    rw [pow_succ, mul_comm]; push_cast; rfl
  have h0 : (0 : Int) ≤ 2 * ((2 ^ RNG.bitLen max : Nat) : Int) - 1 := by
    have := Nat.two_pow_pos (RNG.bitLen max)
    omega
  have h2 := Int.tmod_lt_of_pos (2 * ((2 ^ RNG.bitLen max : Nat) : Int) - 1) (show (0 : Int) < max by omega)
  refine ⟨Int.tmod (X : Int) max, fun fuel => ?_⟩
  unfold RNG.bign
  simp only [if_neg (show ¬ (max : Int) ≤ 0 by omega), bind, Except.bind, Int.natAbs_natCast]
  rw [hb]
  simp only []
  unfold RNG.bignLoop
  rw [if_neg (by rw [e]; omega)]

theorem returns_of_stream {σ : Type} (src : Source σ) (next : σ → Go (U64 × σ)) (words : Nat → Nat) (g : σ) (hs : ReadsStream next src.read words g)
    (max : Nat) (hmax : 0 < max) (hm : (RNG.bitLen max + 8) / 8 ≤ RNG.maxAlloc) (h7 : RNG.bitLen max % 8 = 7) :
    Returns (fun fuel => RNG.bign src fuel max g) := by
  obtain ⟨ws, s', -, -, -, h4⟩ := hs (zeros ((RNG.bitLen max + 8) / 8))
  obtain ⟨v, hv⟩ := C86_one_draw src max _ hmax ((needsBits_iff max _).mpr rfl) h7 hm g s' _ h4
  exact ⟨0, _, fun fuel _ => hv fuel⟩

theorem bign_returns_pure {σ : Type} (src : Source σ) {next : σ → Go (U64 × σ)} {out : σ → U64} {step : σ → σ}
    (hp : ∀ s, next s = .ok (out s, step s)) (words : Nat → Nat) (hs : ∀ s, ReadsStream next src.read words s) (g : σ)
    (max : Nat) (hmax : 0 < max) (hm : (RNG.bitLen max + 8) / 8 ≤ RNG.maxAlloc)
    (hz : ∃ j, (out (step^[j * words ((RNG.bitLen max + 8) / 8)] g)).toNat % 256 = 0) : Returns (fun fuel => RNG.bign src fuel max g) := by
  by_cases h7 : RNG.bitLen max % 8 = 7
  · exact returns_of_stream src next words g (hs g) max hmax hm h7
  refine bign_returns_gen src next words max hmax hm (fun k => out (step^[k] g)) (fun k => step^[k] g) (fun n => draws_pure hp n g) (fun n => hs _) ?_
  obtain ⟨j, hj⟩ := hz
  refine ⟨j, ?_⟩
  generalize (out (step^[j * words ((RNG.bitLen max + 8) / 8)] g)).toNat = w at hj
  have h8 : RNG.bitLen max % 8 < 7 := by omega
  generalize RNG.bitLen max % 8 = b at h8
  interval_cases b <;> omega

/-- C86 for Xoshiro: `Bign(max)`, for `max` of `k` bits, returns from every state, also the zero state. -/
theorem C86_Xoshiro (g : Xoshiro) (max k : Nat) (hmax : 0 < max) (hk : NeedsBits max k) (hm : (k + 8) / 8 ≤ RNG.maxAlloc) :
    Returns (fun fuel => RNG.bign Xoshiro.source fuel max g) := by
  obtain rfl := (needsBits_iff max k).mp hk
  refine bign_returns_pure Xoshiro.source Xoshiro.uint64_pure _ C04_Xoshiro g max hmax hm ?_
  have hA : RNG.maxAlloc = 2 ^ 48 := rfl
  have hL : 0 < Max.max 1 (((RNG.bitLen max + 8) / 8 + 7) / 8) := by omega
  have hL' : Max.max 1 (((RNG.bitLen max + 8) / 8 + 7) / 8) < 2 ^ 64 := by omega
  by_cases hg : g = ⟨0#64, 0#64, 0#64, 0#64⟩
  · refine ⟨0, ?_⟩
    rw [hg, Nat.zero_mul]
    decide +kernel
  · obtain ⟨j, hj⟩ := C88_Xoshiro_every g hg 0 _ hL hL' 0#64
    rw [emits_one Xoshiro.uint64_pure, Nat.zero_add] at hj
    exact ⟨j, by rw [hj]; rfl⟩

/-- C86 for Xoroshiro, which uses an output more than it needs when the number of bytes is a multiple of 8. -/
theorem C86_Xoroshiro (g : Xoroshiro) (max k : Nat) (hmax : 0 < max) (hk : NeedsBits max k) (hm : (k + 8) / 8 ≤ RNG.maxAlloc) :
    Returns (fun fuel => RNG.bign Xoroshiro.source fuel max g) := by
  obtain rfl := (needsBits_iff max k).mp hk
  refine bign_returns_pure Xoroshiro.source Xoroshiro.uint64_pure _ C04_Xoroshiro g max hmax hm ?_
  have hA : RNG.maxAlloc = 2 ^ 48 := rfl
  by_cases hg : g = ⟨0#64, 0#64⟩
  · refine ⟨0, ?_⟩
    rw [hg, Nat.zero_mul]
    decide +kernel
  · obtain ⟨j, hj⟩ := Xoroshiro.leap_byte g hg ((RNG.bitLen max + 8) / 8 / 8 + 1) (by omega) (by omega) 0 (by decide) 0 (by decide)
    rw [Nat.pow_zero, Nat.div_one] at hj
    exact ⟨j, hj⟩

/-- C86 for Rexoroshiro. -/
theorem C86_Rexoroshiro (g : Rexoroshiro) (max k : Nat) (hmax : 0 < max) (hk : NeedsBits max k) (hm : (k + 8) / 8 ≤ RNG.maxAlloc) :
    Returns (fun fuel => RNG.bign Rexoroshiro.source fuel max g) := by
  obtain rfl := (needsBits_iff max k).mp hk
  refine bign_returns_pure Rexoroshiro.source Rexoroshiro.uint64_pure _ C04_Rexoroshiro g max hmax hm ?_
  have hA : RNG.maxAlloc = 2 ^ 48 := rfl
  by_cases hg : g = ⟨⟨0#64, 0#64⟩⟩
  · refine ⟨0, ?_⟩
    rw [hg, Nat.zero_mul]
    decide +kernel
  · obtain ⟨j, x, hj, hx⟩ := C88_Rexoroshiro_bytes g hg 0 (Max.max 1 (((RNG.bitLen max + 8) / 8 + 7) / 8)) (by omega) (by omega) 0 (by decide) 0 (by decide)
    rw [emits_one Rexoroshiro.uint64_pure, Nat.zero_add] at hj
    rw [Nat.pow_zero, Nat.div_one] at hx
    exact ⟨j, by rw [hj]; exact hx⟩

/-- Every word sequence of `MT64` has a zero, after its first word. -/
theorem MT64.seq_has_zero (s : Vector U64 312) : ∃ n, 1 ≤ n ∧ MT64.seq s n = 0#64 := by
  have hp : (⟨1, s⟩ : MT64).pos = 1 := rfl
  by_cases ha : (⟨1, s⟩ : MT64).Alive
  · obtain ⟨n, hn⟩ := (C84_MT64_zeros ⟨1, s⟩ ha (Nat.le_refl 1)).2
    rw [MT64.emits_iff, MT64.map_range_eq_iff] at hn
    have h := hn 0 (by rw [List.length_replicate]; decide)
    rw [List.getElem_replicate] at h
    exact ⟨_, by rw [hp]; omega, MT64.temper_inj (h.trans MT64.temper_zero.symm)⟩
  · have h := (MT64.emits_zero_iff _ _).mp (C61_MT64_dead ⟨1, s⟩ ha (Nat.le_refl 1) 0)
    exact ⟨1, Nat.le_refl 1, h⟩

/-- C86 for MT64: `Bign(max)` returns for every `max` from every state: the period is a prime number. -/
theorem C86_MT64 (g : MT64) (max k : Nat) (hmax : 0 < max) (hk : NeedsBits max k) (hm : (k + 8) / 8 ≤ RNG.maxAlloc) :
    Returns (fun fuel => RNG.bign MT64.source fuel max g) := by
  obtain rfl := (needsBits_iff max k).mp hk
  refine bign_returns_gen MT64.source MT64.uint64 _ max hmax hm (fun k => MT64.temper (MT64.seq g.s (g.pos + k))) (fun k => MT64.nexts k g)
    (fun n => MT64.draws_eq n g) (fun n => C04_MT64 _) ?_
  have hL : 1 ≤ ((RNG.bitLen max + 8) / 8 + 7) / 8 := by omega
  have hL2 : ((RNG.bitLen max + 8) / 8 + 7) / 8 < 2 ^ 48 := by
    have : RNG.maxAlloc = 2 ^ 48 := rfl
    omega
  have e : Max.max 1 (((RNG.bitLen max + 8) / 8 + 7) / 8) = ((RNG.bitLen max + 8) / 8 + 7) / 8 := by omega
  rw [e]
  generalize ((RNG.bitLen max + 8) / 8 + 7) / 8 = L at hL hL2
  obtain ⟨p, hp⟩ : ∃ p, p + 1 = 2 ^ 19937 := ⟨2 ^ 19937 - 1, Nat.sub_add_cancel Nat.one_le_two_pow⟩
  have hpp := MT64.prime_of p hp
  have hp48 : 2 ^ 48 ≤ p := by
    have : 2 ^ 49 ≤ 2 ^ 19937 := Nat.pow_le_pow_right (by decide) (by decide)
    omega
  obtain ⟨n, hn1, hn⟩ := MT64.seq_has_zero g.s
  have hpos : g.pos ≤ 312 := Nat.min_le_right _ _
  have hz : MT64.seq g.s (n + p * 1) = 0#64 := (MT64.seq_period_mul g.s p hp 1 n hn1).trans hn
  refine hits (fun n => (MT64.temper (MT64.seq g.s (g.pos + n))).toNat / 2 ^ (RNG.bitLen max % 8) % 2 = 0) p L (n + p * 1 - g.pos) hL hpp.pos
    (Nat.Coprime.symm ((Nat.Prime.coprime_iff_not_dvd hpp).mpr fun hd => ?_)) (fun m hm1 hm => ?_) (by omega) ?_
  · have := Nat.le_of_dvd hL hd
    omega
  · show (MT64.temper (MT64.seq g.s (g.pos + (m + p)))).toNat / _ % 2 = 0
    have := MT64.seq_period_mul g.s p hp 1 (g.pos + m) (by omega)
    rw [Nat.mul_one] at this
    rw [← Nat.add_assoc, this]
    exact hm
  · show (MT64.temper (MT64.seq g.s (g.pos + (n + p * 1 - g.pos)))).toNat / _ % 2 = 0
    rw [show g.pos + (n + p * 1 - g.pos) = n + p * 1 by omega, hz, MT64.temper_zero, BitVec.toNat_ofNat, Nat.zero_mod, Nat.zero_div]

/-- Outputs of LFG that all have bit `b` set would have to decrease for ever in their low `b + 1` bits. -/
theorem LFG.seq_bit (g : LFG) (b : Nat) (hb : b < 7) : ∃ n, (g.seq (607 + n)).toNat / 2 ^ b % 2 = 0 := by
  by_contra hne
  simp only [not_exists] at hne
  have hlow : ∀ n, 2 ^ b ≤ (g.seq (607 + n)).toNat % (2 * 2 ^ b) := by
    intro n
    have h := hne n
    generalize (g.seq (607 + n)).toNat = w at h
    interval_cases b <;> omega
  have key : ∀ n, (g.seq (607 + (334 + n))).toNat % (2 * 2 ^ b) + n ≤ 2 * 2 ^ b := by
    intro n
    induction n with
    | zero => exact (Nat.mod_lt _ (by positivity)).le
    | succ n ih =>
      have h1 := hlow (334 + n)
      have h2 := hlow n
      have h5 := hlow (334 + (n + 1))
      have h3 := (g.seq (607 + n)).isLt
      have h4 := (g.seq (607 + (334 + n))).isLt
      have e : g.seq (607 + (334 + (n + 1))) = g.seq (607 + (334 + n)) + g.seq (607 + n) := by
        rw [LFG.seq_ge (n := 607 + (334 + (n + 1))) g (by omega), show 607 + (334 + (n + 1)) - 1 = 607 + (334 + n) by omega,
          show 607 + (334 + (n + 1)) - 335 = 607 + n by omega]
      rw [e, BitVec.toNat_add] at h5 ⊢
      interval_cases b <;> omega
  have h5 := key (2 * 2 ^ b)
  have h6 := hlow (334 + 2 * 2 ^ b)
  have h7 := Nat.two_pow_pos b
  omega

/-- C86 for LFG, in every state a `NewLFG` generator can get into. -/
theorem C86_LFG (g : LFG) (hg : Reachable LFG.methods.api LFG.new g) (max k : Nat) (hmax : 0 < max) (hk : NeedsBits max k)
    (hm : (k + 8) / 8 ≤ RNG.maxAlloc) (hc : k % 8 ≠ 7 → Nat.Coprime (((k + 8) / 8 + 7) / 8) ((2 ^ 108 - 1) / 65 * (2 ^ 187 - 1) * 2 ^ 63)) :
    Returns (fun fuel => RNG.bign LFG.source fuel max g) := by
  obtain rfl := (needsBits_iff max k).mp hk
  by_cases h7 : RNG.bitLen max % 8 = 7
  · exact returns_of_stream _ _ _ g (C04_LFG g hg) max hmax hm h7
  replace hc := hc h7
  have hi := LFG.safe.reachable LFG.inv_new hg
  have hper := C74_LFG_period g hg
  generalize hP : (2 ^ 108 - 1) / 65 * (2 ^ 187 - 1) * 2 ^ 63 = P at hc hper
  have hP0 : 0 < P := by rw [← hP]; decide
  refine bign_returns_gen LFG.source LFG.uint64 (fun n => Max.max 1 ((n + 7) / 8)) max hmax hm (fun k => g.seq (607 + k)) (fun k => LFG.nexts k g)
    (fun n => LFG.draws_eq n g hi) (fun n => ?_) ?_
  · exact readsStream_of (fun _ _ => rfl) _ fun m => ⟨_, _, LFG.draws_eq m _ (LFG.inv_nexts _ g hi)⟩
  have hL : 1 ≤ ((RNG.bitLen max + 8) / 8 + 7) / 8 := by omega
  have e : Max.max 1 (((RNG.bitLen max + 8) / 8 + 7) / 8) = ((RNG.bitLen max + 8) / 8 + 7) / 8 := by omega
  rw [e]
  obtain ⟨n, hn⟩ := LFG.seq_bit g (RNG.bitLen max % 8) (by omega)
  have hp : ∀ m, g.seq (607 + (m + P)) = g.seq (607 + m) := fun m =>
    (LFG.emits_iff g hi _ _).mp ((hper m _).mp ((LFG.emits_iff g hi _ _).mpr rfl))
  refine hits (fun n => (g.seq (607 + n)).toNat / 2 ^ (RNG.bitLen max % 8) % 2 = 0) P _ (n + P) hL hP0 hc (fun m _ hm => ?_) (by omega) ?_
  · show (g.seq (607 + (m + P))).toNat / _ % 2 = 0
    rw [hp]
    exact hm
  · show (g.seq (607 + (n + P))).toNat / _ % 2 = 0
    rw [hp]
    exact hn

/-- C86: for `max < 2^63` nothing more is needed, on any of the five. -/
theorem C86_below (max : Nat) (hmax : 0 < max) (h63 : max < 2 ^ 63) : (∀ g, Returns (fun fuel => RNG.bign Xoshiro.source fuel max g)) ∧
    (∀ g, Returns (fun fuel => RNG.bign Xoroshiro.source fuel max g)) ∧ (∀ g, Returns (fun fuel => RNG.bign Rexoroshiro.source fuel max g)) ∧
    (∀ g, Returns (fun fuel => RNG.bign MT64.source fuel max g)) ∧
    ∀ g, Reachable LFG.methods.api LFG.new g → Returns (fun fuel => RNG.bign LFG.source fuel max g) := by
  have hk := (needsBits_iff max _).mpr rfl
  have hle : RNG.bitLen max ≤ 63 := hk.2 63 h63
  have hm : (RNG.bitLen max + 8) / 8 ≤ RNG.maxAlloc := by
    have : RNG.maxAlloc = 2 ^ 48 := rfl
    omega
  have h1 : RNG.bitLen max % 8 ≠ 7 → ((RNG.bitLen max + 8) / 8 + 7) / 8 = 1 := by omega
  exact ⟨fun g => C86_Xoshiro g max _ hmax hk hm, fun g => C86_Xoroshiro g max _ hmax hk hm, fun g => C86_Rexoroshiro g max _ hmax hk hm,
    fun g => C86_MT64 g max _ hmax hk hm, fun g hg => C86_LFG g hg max _ hmax hk hm fun h => by rw [h1 h]; exact Nat.coprime_one_left _⟩

/-- Non-vacuity: `max = 2^264` has 265 bits; a draw takes 34 bytes, that is, five words; 5 is a factor of the periods of Xoshiro and Xoroshiro, but
not of that of LFG. -/
example : NeedsBits (2 ^ 264) 265 ∧ 265 % 8 ≠ 7 ∧ ((265 + 8) / 8 + 7) / 8 = 5 ∧ (265 + 8) / 8 ≤ RNG.maxAlloc ∧ 5 ∣ 2 ^ 256 - 1 ∧
    Nat.Coprime 5 ((2 ^ 108 - 1) / 65 * (2 ^ 187 - 1) * 2 ^ 63) := by
  refine ⟨?_, by decide, by decide, by decide, by decide +kernel, by decide +kernel⟩
  rw [needsBits_iff]
  decide +kernel

end Crazy
