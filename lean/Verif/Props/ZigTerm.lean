/-
C69: `Exponential.Next` and `Normal.Next` return on Xoshiro, Xoroshiro, Rexoroshiro and MT64, from every state.
-/
import Verif.Props.Terminates2
import Verif.Props.ZigCount
import Verif.Props.MtEqui
set_option exponentiation.threshold 2200
namespace Crazy

variable {σ : Type}

/-- The source, used in state `st 0`, delivers the words `seq 0`, `seq 1`, ... and is in state `st n` after `n` of them. -/
def Delivers (src : Source σ) (seq : Nat → U64) (st : Nat → σ) : Prop :=
  ∀ n, RNG.uint64 src (st n) = .ok (seq n, st (n + 1))

theorem rngDraws_delivers (src : Source σ) (s : σ) (seq : Nat → U64) (st : Nat → σ)
    (h : ∀ n, rngDraws src n s = .ok ((List.range n).map seq, st n)) : st 0 = s ∧ Delivers src seq st := by
  have h0 := h 0
  have e0 : s = st 0 := congrArg Prod.snd (Except.ok.inj h0)
  refine ⟨e0.symm, fun n => ?_⟩
  have h2 := h (n + 1)
  have hn := h n
  unfold rngDraws at h2 hn
  rw [draws_add, hn] at h2
  simp only [draws_one, bind, Except.bind] at h2
  cases hx : RNG.uint64 src (st n) with
  | error e => rw [hx] at h2; contradiction
  | ok r =>
    rw [hx] at h2
    simp only [pure, Except.pure, Except.ok.injEq, Prod.mk.injEq, List.range_succ, List.map_append] at h2
    have h3 := h2.1
    rw [List.append_cancel_left_eq] at h3
    refine congrArg Except.ok (Prod.ext ?_ h2.2)
    simpa using h3

theorem delivers_uniform {src : Source σ} {seq : Nat → U64} {st : Nat → σ} (h : Delivers src seq st) (n : Nat) :
    uniform01 src (st n) = .ok (.fin false ((seq n).toNat % 2 ^ 53 * 2 ^ 1021), st (n + 1)) := by
  have h1 := h n
  cases hr : src.read (zeros 8) (st n) with
  | error p =>
    unfold RNG.uint64 at h1
    simp only [hr, bind, Except.bind] at h1
    contradiction
  | ok r =>
    have hl := src.len_buf _ _ _ _ hr
    rw [zeros_length] at hl
    unfold RNG.uint64 at h1
    simp only [hr, bind, Except.bind, u64le_leNat _ hl, pure, Except.pure, Except.ok.injEq, Prod.mk.injEq] at h1
    have hx := leNat_lt r.1.buf
    rw [hl] at hx
    rw [uniform01_eq src _ r.2 r.1 hr, ← h1.1, ← h1.2, BitVec.toNat_ofNat, Nat.mod_eq_of_lt (b := 2 ^ 64) (by omega)]

theorem returns_next {α : Type} (f : Nat → Go α) (r : α) (h : ∀ n, f (n + 1) = .ok r) : Returns f :=
  ⟨1, r, fun fuel hf => by
    obtain ⟨k, rfl⟩ : ∃ k, fuel = k + 1 := ⟨fuel - 1, by omega⟩
    exact h k⟩

/-- The word is accepted at once. -/
def Fast (z : Ziggurat σ) (x : U64) : Prop := (zoffset z.mirrored x).natAbs < (z.K[zlayer x]'(zlayer_lt _)).toNat

theorem fast_zero (z : Ziggurat σ) (hK : 0 < (z.K[0]).toNat) : Fast z 0#64 := by
  have e : zlayer 0#64 = 0 := by decide +kernel
  have e2 : (zoffset z.mirrored 0#64).natAbs = 0 := by
    cases z.mirrored
    · exact (by decide +kernel : (zoffset false 0#64).natAbs = 0)
    · exact (by decide +kernel : (zoffset true 0#64).natAbs = 0)
  unfold Fast
  simp only [e, e2]
  exact hK

theorem zig_returns (z : Ziggurat σ) (fused : Bool) {src : Source σ} {seq : Nat → U64} {st : Nat → σ}
    (h : Delivers src seq st) (hz : ∀ n, ∃ k, Fast z (seq (n + 2 * k)))
    (ht : ∀ n, Returns (fun fuel => z.tail src fuel (st n))) (n : Nat) :
    Returns (fun fuel => z.genNext fused src fuel (st n)) := by
  obtain ⟨k, hk⟩ := hz n
  induction k generalizing n with
  | zero =>
    rw [Nat.mul_zero, Nat.add_zero] at hk
    exact returns_next _ _ fun f => genNext_fast z fused src f _ _ _ (h n) hk
  | succ k ih =>
    by_cases hf : (zoffset z.mirrored (seq n)).natAbs < (z.K[zlayer (seq n)]'(zlayer_lt _)).toNat
    · exact returns_next _ _ fun f => genNext_fast z fused src f _ _ _ (h n) hf
    · by_cases h0 : zlayer (seq n) = 0
      · obtain ⟨m, r, hr⟩ := ht (n + 1)
        refine ⟨m + 1, (if zoffset z.mirrored (seq n) < 0 then F64.neg r.1 else r.1, r.2), fun fuel hfu => ?_⟩
        obtain ⟨f, rfl⟩ : ∃ f, fuel = f + 1 := ⟨fuel - 1, by omega⟩
        show z.genNext fused src (f + 1) (st n) = _
        have hr' := hr f (by omega)
        simp only at hr'
        rw [genNext_tail z fused src f _ _ _ (h n) hf h0, hr']
      · obtain ⟨m, r, hr⟩ := ih (n + 2) (by rw [show n + 2 + 2 * k = n + 2 * (k + 1) by omega]; exact hk)
        by_cases hc : F64.lt (F64.mulAdd fused (.fin false ((seq (n + 1)).toNat % 2 ^ 53 * 2 ^ 1021))
            (F64.sub (z.F[zlayer (seq n) - 1]'(by have := zlayer_lt (seq n); omega)) (z.F[zlayer (seq n)]'(zlayer_lt _)))
              (z.F[zlayer (seq n)]'(zlayer_lt _)))
            (z.pdf (F64.mul (F64.ofInt (zoffset z.mirrored (seq n))) (z.W[zlayer (seq n)]'(zlayer_lt _)))) = true
        · refine returns_next _ (F64.mul (F64.ofInt (zoffset z.mirrored (seq n))) (z.W[zlayer (seq n)]'(zlayer_lt _)), st (n + 2))
            fun f => (genNext_wedge z fused src f _ _ _ (h n) hf h0).trans ?_
          rw [delivers_uniform h (n + 1)]
          simp only
          rw [if_pos hc]
        · refine ⟨m + 1, r, fun fuel hfu => ?_⟩
          obtain ⟨f, rfl⟩ : ∃ f, fuel = f + 1 := ⟨fuel - 1, by omega⟩
          refine (genNext_wedge z fused src f _ _ _ (h n) hf h0).trans ?_
          rw [delivers_uniform h (n + 1)]
          simp only
          rw [if_neg hc]
          exact hr f (by omega)

theorem sq_le_inf (x : F64) (h : x ≠ .nan) :
    F64.le (F64.mul x x) (F64.add (F64.neg (.inf true)) (F64.neg (.inf true))) = true := by
  match x, h with
  | .inf b, _ => cases b <;> rfl
  | .fin b m, _ =>
    have h1 : F64.mul (.fin b m) (.fin b m) ≠ .nan := by simp only [F64.mul]; exact rnd_ne_nan _ _ _
    revert h1
    generalize F64.mul (.fin b m) (.fin b m) = y
    intro h1
    match y, h1 with
    | .inf b, _ => cases b <;> rfl
    | .fin b m, _ => rfl

theorem tail_ne_nan (lib : MathLib) (hl : LogOk lib) (src : Source σ) (s s' : σ) (u : F64)
    (hu : uniform01 src s = .ok (u, s')) : F64.div (F64.neg (lib.log u)) normalR ≠ .nan := by
  obtain ⟨e, he⟩ : ∃ e, 1021 = e := ⟨_, rfl⟩
  obtain ⟨c, hR, c1, c2, -⟩ := normalR_eq (e + 3) (by omega)
  have hc : c * 2 ^ (e + 3) ≠ 0 := Nat.mul_ne_zero (by omega) (Nat.pos_iff_ne_zero.mp (Nat.pow_pos (by decide)))
  rw [hR]
  generalize c * 2 ^ (e + 3) = N at hc
  rcases neg_log_uniform lib hl e he src s s' u hu with ⟨h, -⟩ | ⟨n, h, -⟩
  · rw [h]
    exact fun h => by cases h
  · rw [h]
    simp only [F64.div, if_neg hc]
    exact rnd_ne_nan _ _ _

/-- A round of the normal tail whose words are `x` and `y` is the last one. -/
def TailEnds (lib : MathLib) (x y : U64) : Prop :=
  F64.le (F64.mul (F64.div (F64.neg (lib.log (.fin false (x.toNat % 2 ^ 53 * 2 ^ 1021)))) normalR)
      (F64.div (F64.neg (lib.log (.fin false (x.toNat % 2 ^ 53 * 2 ^ 1021)))) normalR))
    (F64.add (F64.neg (lib.log (.fin false (y.toNat % 2 ^ 53 * 2 ^ 1021)))) (F64.neg (lib.log (.fin false (y.toNat % 2 ^ 53 * 2 ^ 1021))))) = true

/-- The loop of the normal tail ends. -/
theorem normalTail_returns (lib : MathLib) {src : Source σ} {seq : Nat → U64} {st : Nat → σ}
    (h : Delivers src seq st) (hz : ∀ n, ∃ k, TailEnds lib (seq (n + 2 * k)) (seq (n + 2 * k + 1))) (n : Nat) :
    Returns (fun fuel => normalTail lib src fuel (st n)) := by
  obtain ⟨k, hk⟩ := hz n
  have step : ∀ n fuel, normalTail lib src (fuel + 1) (st n) =
      if F64.le (F64.mul (F64.div (F64.neg (lib.log (.fin false ((seq n).toNat % 2 ^ 53 * 2 ^ 1021)))) normalR)
          (F64.div (F64.neg (lib.log (.fin false ((seq n).toNat % 2 ^ 53 * 2 ^ 1021)))) normalR))
        (F64.add (F64.neg (lib.log (.fin false ((seq (n + 1)).toNat % 2 ^ 53 * 2 ^ 1021))))
          (F64.neg (lib.log (.fin false ((seq (n + 1)).toNat % 2 ^ 53 * 2 ^ 1021))))) then
        .ok (F64.add (F64.div (F64.neg (lib.log (.fin false ((seq n).toNat % 2 ^ 53 * 2 ^ 1021)))) normalR) normalR, st (n + 2))
      else normalTail lib src fuel (st (n + 2)) := by
    intro n fuel
    rw [normalTail, delivers_uniform h n]
    simp only [bind, Except.bind]
    rw [delivers_uniform h (n + 1)]
    rfl
  induction k generalizing n with
  | zero =>
    rw [Nat.mul_zero, Nat.add_zero] at hk
    exact returns_next _ _ fun f => (step n f).trans (if_pos hk)
  | succ k ih =>
    obtain ⟨m, r, hr⟩ := ih (n + 2) (by rw [show n + 2 + 2 * k = n + 2 * (k + 1) by omega]; exact hk)
    by_cases hc : F64.le (F64.mul (F64.div (F64.neg (lib.log (.fin false ((seq n).toNat % 2 ^ 53 * 2 ^ 1021)))) normalR)
          (F64.div (F64.neg (lib.log (.fin false ((seq n).toNat % 2 ^ 53 * 2 ^ 1021)))) normalR))
        (F64.add (F64.neg (lib.log (.fin false ((seq (n + 1)).toNat % 2 ^ 53 * 2 ^ 1021))))
          (F64.neg (lib.log (.fin false ((seq (n + 1)).toNat % 2 ^ 53 * 2 ^ 1021))))) = true
    · exact returns_next _ _ fun f => (step n f).trans (if_pos hc)
    · refine ⟨m + 1, r, fun fuel hf => ?_⟩
      obtain ⟨f, rfl⟩ : ∃ f, fuel = f + 1 := ⟨fuel - 1, by omega⟩
      exact (step n f).trans ((if_neg hc).trans (hr f (by omega)))

/-- A second uniform of 0 ends the loop. -/
theorem tailEnds_zero (lib : MathLib) (hl : LogOk lib) {src : Source σ} {seq : Nat → U64} {st : Nat → σ}
    (h : Delivers src seq st) (n : Nat) (y : U64) (hy : y.toNat % 2 ^ 53 = 0) : TailEnds lib (seq n) y := by
  unfold TailEnds
  rw [hy, Nat.zero_mul, hl.zero]
  exact sq_le_inf _ (tail_ne_nan lib hl src _ _ _ (delivers_uniform h n))

theorem Returns.bind {α β : Type} {f : Nat → Go α} (h : Returns f) (g : α → Go β) (hg : ∀ a, ∃ b, g a = .ok b) :
    Returns (fun fuel => f fuel >>= g) := by
  obtain ⟨n, r, hr⟩ := h
  obtain ⟨b, hb⟩ := hg r
  exact ⟨n, b, fun fuel hf => by simp only [Bind.bind, Except.bind, hr fuel hf, hb]⟩

/-- What C69 says about a source in state `s`. -/
def DistrReturnFrom (src : Source σ) (s : σ) : Prop :=
  (∀ (lib : MathLib) (fused : Bool) (rate : F64), Returns (fun fuel => exponential lib fused rate src fuel s)) ∧
  (∀ (lib : MathLib), LogOk lib → ∀ (fused fused' : Bool) (mean stddev : F64),
    Returns (fun fuel => normal lib fused fused' mean stddev src fuel s))

theorem distr_return_of {src : Source σ} {seq : Nat → U64} {st : Nat → σ} (hd : Delivers src seq st)
    (he : ∀ (lib : MathLib) n, ∃ k, Fast (expoZig (σ := σ) lib) (seq (n + 2 * k)))
    (hn : ∀ (lib : MathLib) n, ∃ k, Fast (normalZig (σ := σ) lib) (seq (n + 2 * k)))
    (ht : ∀ (lib : MathLib), LogOk lib → ∀ n, ∃ k, TailEnds lib (seq (n + 2 * k)) (seq (n + 2 * k + 1))) :
    DistrReturnFrom src (st 0) := by
  constructor
  · intro lib fused rate
    refine Returns.bind (zig_returns (expoZig lib) fused hd (he lib) (fun n => ?_) 0) _ fun a => ⟨_, rfl⟩
    refine ⟨0, (F64.sub expoR (lib.log (.fin false ((seq n).toNat % 2 ^ 53 * 2 ^ 1021))), st (n + 1)), fun fuel _ => ?_⟩
    show expoTail lib src fuel (st n) = _
    unfold expoTail
    rw [delivers_uniform hd n]
    rfl
  · intro lib hl fused fused' mean stddev
    exact Returns.bind (zig_returns (normalZig lib) fused hd (hn lib) (normalTail_returns lib hd (ht lib hl)) 0) _ fun a => ⟨_, rfl⟩

theorem distr_return {src : Source σ} {s : σ} {seq : Nat → U64} {st : Nat → σ}
    (h : ∀ n, rngDraws src n s = .ok ((List.range n).map seq, st n)) (hz : ∀ n, ∃ k, seq (n + 2 * k) = 0#64) :
    DistrReturnFrom src s := by
  obtain ⟨h0, hd⟩ := rngDraws_delivers src s seq st h
  subst h0
  refine distr_return_of hd (fun lib n => ?_) (fun lib n => ?_) fun lib hl n => ?_
  · obtain ⟨k, hk⟩ := hz n
    exact ⟨k, by rw [hk]; exact fast_zero _ (show 0 < (expoK[0]).toNat by decide +kernel)⟩
  · obtain ⟨k, hk⟩ := hz n
    exact ⟨k, by rw [hk]; exact fast_zero _ (show 0 < (normalK[0]).toNat by decide +kernel)⟩
  · obtain ⟨k, hk⟩ := hz (n + 1)
    refine ⟨k, tailEnds_zero lib hl hd _ _ ?_⟩
    rw [show n + 2 * k + 1 = n + 1 + 2 * k by omega, hk]
    rfl

/-- On a cycle of odd length, steps of `2^c` also get everywhere. -/
theorem FullCycle.hits {step : σ → σ} {z : σ} {N : Nat} (h : FullCycle step z N) (m : Nat) (hm : N + 1 = 2 * m) {s t : σ}
    (hs : s ≠ z) (ht : t ≠ z) (c : Nat) : ∃ k, step^[2 ^ c * k] s = t := by
  obtain ⟨i, ⟨-, hi⟩, -⟩ := h.existsUnique hs ht
  refine ⟨m ^ c * i, ?_⟩
  rw [← hi, h.iter_inj hs, ← Nat.mul_assoc, ← Nat.mul_pow, ← hm]
  have h1 : (N + 1) ^ c ≡ 1 ^ c [MOD N] := Nat.ModEq.pow c (by
    rw [Nat.ModEq, Nat.add_mod_left])
  simpa using h1.mul_right i

/-- C69 for Xoshiro. -/
theorem C69_Xoshiro (g : Xoshiro) : DistrReturnFrom Xoshiro.source g := by
  refine distr_return (seq := fun k => (Xoshiro.step^[k] g).out) (st := fun k => Xoshiro.step^[k] g) (fun n => ?_) fun n => ?_
  · rw [show rngDraws Xoshiro.source n g = _ from (C06_Xoshiro g).1 n]
    exact draws_pure Xoshiro.uint64_pure n g
  · by_cases hg : Xoshiro.step^[n] g = ⟨0#64, 0#64, 0#64, 0#64⟩
    · refine ⟨0, ?_⟩
      simp only [Nat.mul_zero, Nat.add_zero, hg]
      decide +kernel
    · obtain ⟨k, hk⟩ := Xoshiro.cycle.hits (2 ^ 255) (by decide +kernel) hg (t := ⟨1#64, 0#64, 0#64, 0#64⟩) (by decide) 1
      refine ⟨k, ?_⟩
      rw [Nat.pow_one] at hk
      simp only [Nat.add_comm n, Function.iterate_add_apply, hk]
      decide +kernel

/-- C69 for Xoroshiro, of which the distributions see only every second output. -/
theorem C69_Xoroshiro (g : Xoroshiro) : DistrReturnFrom Xoroshiro.source g := by
  refine distr_return (seq := fun k => (Xoroshiro.step^[2 * k] g).out) (st := fun k => Xoroshiro.step^[2 * k] g)
    (fun n => rng_draws_Xoroshiro g n) fun n => ?_
  by_cases hg : Xoroshiro.step^[2 * n] g = ⟨0#64, 0#64⟩
  · refine ⟨0, ?_⟩
    simp only [Nat.mul_zero, Nat.add_zero, hg]
    decide +kernel
  · obtain ⟨k, hk⟩ := Xoroshiro.cycle.hits (2 ^ 127) (by decide +kernel) hg (t := ⟨1#64, 0xffffffffffffffff#64⟩) (by decide) 2
    refine ⟨k, ?_⟩
    rw [show (2 : Nat) ^ 2 = 4 from rfl] at hk
    simp only [show 2 * (n + 2 * k) = 4 * k + 2 * n by omega, Function.iterate_add_apply, hk]
    decide +kernel

/-- C69 for Rexoroshiro. -/
theorem C69_Rexoroshiro (g : Rexoroshiro) : DistrReturnFrom Rexoroshiro.source g := by
  refine distr_return (seq := fun k => reverseBytes64 (Xoroshiro.step^[k] g.xoro).out)
    (st := fun k => ⟨Xoroshiro.step^[k] g.xoro⟩) (fun n => ?_) fun n => ?_
  · rw [show rngDraws Rexoroshiro.source n g = _ from (C06_Rexoroshiro g).1 n, draws_pure Rexoroshiro.uint64_pure n g]
    simp only [Rexoroshiro.iter]
  · by_cases hg : Xoroshiro.step^[n] g.xoro = ⟨0#64, 0#64⟩
    · refine ⟨0, ?_⟩
      simp only [Nat.mul_zero, Nat.add_zero, hg]
      decide +kernel
    · obtain ⟨k, hk⟩ := Xoroshiro.cycle.hits (2 ^ 127) (by decide +kernel) hg (t := ⟨1#64, 0xffffffffffffffff#64⟩) (by decide) 1
      refine ⟨k, ?_⟩
      rw [Nat.pow_one] at hk
      simp only [Nat.add_comm n, Function.iterate_add_apply, hk]
      decide +kernel

theorem MT64.seq_hits_zero (s : Vector U64 312) (n : Nat) : ∃ k, MT64.seq s (n + 2 * k) = 0#64 := by
  by_cases h : MT64.effOf s (n + 1) = 0
  · exact ⟨1, congrFun (congrArg Prod.snd h) ⟨0, by decide⟩⟩
  · obtain ⟨p, hp⟩ : ∃ p, p + 1 = 2 ^ 19937 := ⟨2 ^ 19937 - 1, Nat.sub_add_cancel Nat.one_le_two_pow⟩
    have hm : p + 1 = 2 * 2 ^ 19936 := by rw [hp, Nat.pow_succ 2 19936, Nat.mul_comm]
    have ht : ((0#33, fun i => if i.val = 0 then 0#64 else 1#64) : MT64.Eff) ≠ 0 := by
      intro h
      have := congrFun (congrArg Prod.snd h) ⟨1, by decide⟩
      exact absurd (show (1#64 : U64) = 0#64 from this) (by decide)
    obtain ⟨k, hk⟩ := (MT64.eff_cycle p hp).hits _ hm h ht 1
    rw [MT64.iter_effOf, Nat.pow_one] at hk
    refine ⟨k + 1, ?_⟩
    have := congrFun (congrArg Prod.snd hk) ⟨0, by decide⟩
    rw [show n + 2 * (k + 1) = n + 1 + 2 * k + 1 + 0 by omega]
    exact this

/-- C69 for MT64. -/
theorem C69_MT64 (g : MT64) : DistrReturnFrom MT64.source g := by
  refine distr_return (seq := fun k => MT64.temper (MT64.seq g.s (g.pos + k))) (st := fun k => MT64.nexts k g) (fun n => ?_)
    fun n => ?_
  · rw [show rngDraws MT64.source n g = _ from (C06_MT64 g).1 n]
    exact MT64.draws_eq n g
  · obtain ⟨k, hk⟩ := MT64.seq_hits_zero g.s (g.pos + n)
    refine ⟨k, ?_⟩
    rw [← Nat.add_assoc, hk]
    exact MT64.temper_zero

/-- Non-vacuity of C69: the hypothesis on `math.Log` can be met, and then `Normal.Next` returns on, say, a freshly made
`Xoshiro`. -/
example : ∃ lib, LogOk lib ∧ Returns (fun fuel => normal lib true false (F64.ofNat 3) (F64.ofNat 2) Xoshiro.source fuel ⟨1#64, 2#64, 3#64, 4#64⟩) := by
  obtain ⟨lib, hl⟩ := logOk_exists
  exact ⟨lib, hl, (C69_Xoshiro _).2 lib hl _ _ _ _⟩

end Crazy
