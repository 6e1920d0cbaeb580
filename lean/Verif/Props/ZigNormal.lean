/-
C42: normal variates.
-/
import Verif.Props.ZigExpo
set_option exponentiation.threshold 2200
namespace Crazy
open F64

variable {σ : Type}

/-! ### Signs -/

theorem neg_rnd (s : Bool) (a b : Nat) : F64.neg (F64.rnd s a b) = F64.rnd (!s) a b := by
  unfold F64.rnd
  split <;> rfl

theorem F64.neg_neg (x : F64) : F64.neg (F64.neg x) = x := by
  cases x <;> simp [F64.neg]

theorem mul_neg_left (x y : F64) : F64.mul (F64.neg x) y = F64.neg (F64.mul x y) := by
  match x, y with
  | .nan, .nan => rfl
  | .nan, .inf _ => rfl
  | .nan, .fin _ _ => rfl
  | .inf _, .nan => rfl
  | .fin _ _, .nan => rfl
  | .inf a, .inf b => cases a <;> cases b <;> rfl
  | .inf a, .fin b m =>
    show (if m = 0 then F64.nan else .inf ((!a) ^^ b)) = F64.neg (if m = 0 then F64.nan else .inf (a ^^ b))
    split
    · rfl
    · cases a <;> cases b <;> rfl
  | .fin a n, .inf b =>
    show (if n = 0 then F64.nan else .inf ((!a) ^^ b)) = F64.neg (if n = 0 then F64.nan else .inf (a ^^ b))
    split
    · rfl
    · cases a <;> cases b <;> rfl
  | .fin a n, .fin b m =>
    show F64.rnd ((!a) ^^ b) (n * m) one = F64.neg (F64.rnd (a ^^ b) (n * m) one)
    rw [neg_rnd]
    cases a <;> cases b <;> rfl

theorem mul_neg_right (x y : F64) : F64.mul x (F64.neg y) = F64.neg (F64.mul x y) := by
  match x, y with
  | .nan, .nan => rfl
  | .nan, .inf _ => rfl
  | .nan, .fin _ _ => rfl
  | .inf _, .nan => rfl
  | .fin _ _, .nan => rfl
  | .inf a, .inf b => cases a <;> cases b <;> rfl
  | .inf a, .fin b m =>
    show (if m = 0 then F64.nan else .inf (a ^^ (!b))) = F64.neg (if m = 0 then F64.nan else .inf (a ^^ b))
    split
    · rfl
    · cases a <;> cases b <;> rfl
  | .fin a n, .inf b =>
    show (if n = 0 then F64.nan else .inf (a ^^ (!b))) = F64.neg (if n = 0 then F64.nan else .inf (a ^^ b))
    split
    · rfl
    · cases a <;> cases b <;> rfl
  | .fin a n, .fin b m =>
    show F64.rnd (a ^^ (!b)) (n * m) one = F64.neg (F64.rnd (a ^^ b) (n * m) one)
    rw [neg_rnd]
    cases a <;> cases b <;> rfl

theorem ofInt_neg (j : Int) (h : j ≠ 0) : F64.ofInt (-j) = F64.neg (F64.ofInt j) := by
  unfold F64.ofInt
  rw [neg_rnd, Int.natAbs_neg]
  refine congrArg (fun s => F64.rnd s (j.natAbs * one) 1) ?_
  by_cases h1 : j < 0
  · rw [decide_eq_true h1, decide_eq_false (by omega)]; rfl
  · rw [decide_eq_false h1, decide_eq_true (by omega)]; rfl

/-- C42: the density of the normal distribution is even, also as computed in floating point, whatever `math.Exp` does. -/
theorem C42_even (lib : MathLib) (x : F64) : normalPDF lib (F64.neg x) = normalPDF lib x := by
  unfold normalPDF
  rw [mul_neg_right (F64.neg (F64.ofDec 5 1)) x, mul_neg_right, mul_neg_left, F64.neg_neg]

theorem err_ne_ok {α : Type} (p : Panic) (a : α) : (Except.error p : Go α) ≠ .ok a := fun h => by cases h

theorem uniform01_nil : uniform01 tape [] = .error (.explicit "tape used up") := uniform01_error tape [] _ rfl

theorem uniform01_tape (u : U64) (rest : List U64) : ∃ v, uniform01 tape (u :: rest) = .ok (v, rest) :=
  ⟨_, uniform01_eq tape (u :: rest) rest _ (tape_read u rest)⟩

/-- The word `x` is rejected if the word after it is `u`. -/
def zrej (z : Ziggurat (List U64)) (fused : Bool) (x u : U64) : Prop :=
  ¬ (zoffset z.mirrored x).natAbs < (z.K[zlayer x]'(zlayer_lt x)).toNat ∧ zlayer x ≠ 0 ∧
  ∀ v, uniform01 tape [u] = .ok (v, []) →
    F64.lt (F64.mulAdd fused v (F64.sub (z.F[zlayer x - 1]'(by have := zlayer_lt x; omega)) (z.F[zlayer x]'(zlayer_lt x)))
        (z.F[zlayer x]'(zlayer_lt x)))
      (z.pdf (F64.mul (F64.ofInt (zoffset z.mirrored x)) (z.W[zlayer x]'(zlayer_lt x)))) = false

theorem uniform01_one (u : U64) (rest : List U64) (v : F64) (h : uniform01 tape (u :: rest) = .ok (v, rest)) :
    uniform01 tape [u] = .ok (v, []) := by
  rw [uniform01_eq tape (u :: rest) rest _ (tape_read u rest), Except.ok.injEq, Prod.mk.injEq] at h
  rw [uniform01_eq tape [u] [] _ (tape_read u []), h.1]

theorem round_rej (z : Ziggurat (List U64)) (fused : Bool) (fuel : Nat) (x u : U64) (rest : List U64) (h : zrej z fused x u) :
    z.genNext fused tape (fuel + 1) (x :: u :: rest) = z.genNext fused tape fuel rest := by
  obtain ⟨h1, h2, h3⟩ := h
  obtain ⟨v, hv⟩ := uniform01_tape u rest
  rw [genNext_wedge _ _ _ _ _ _ _ (RNG_uint64_tape x _) h1 h2, hv]
  simp only
  rw [h3 v (uniform01_one u rest v hv), if_neg Bool.false_ne_true]

/-- Two words of the same layer and of opposite offsets. -/
structure Opp (z : Ziggurat (List U64)) (x x' : U64) : Prop where
  l : zlayer x' = zlayer x
  o : zoffset z.mirrored x' = -zoffset z.mirrored x
  o0 : zoffset z.mirrored x ≠ 0

theorem Opp.hM {z : Ziggurat (List U64)} {x x' : U64} (h : Opp z x x') :
    F64.mul (F64.ofInt (zoffset z.mirrored x')) (z.W[zlayer x']'(zlayer_lt x')) =
      F64.neg (F64.mul (F64.ofInt (zoffset z.mirrored x)) (z.W[zlayer x]'(zlayer_lt x))) := by
  have hW : (z.W[zlayer x']'(zlayer_lt x')) = z.W[zlayer x]'(zlayer_lt x) := by simp only [h.l]
  rw [h.o, hW, ofInt_neg _ h.o0, mul_neg_left]

theorem Opp.hk {z : Ziggurat (List U64)} {x x' : U64} (h : Opp z x x') :
    (zoffset z.mirrored x').natAbs < (z.K[zlayer x']'(zlayer_lt x')).toNat ↔
      (zoffset z.mirrored x).natAbs < (z.K[zlayer x]'(zlayer_lt x)).toNat := by
  have hK : (z.K[zlayer x']'(zlayer_lt x')) = z.K[zlayer x]'(zlayer_lt x) := by simp only [h.l]
  rw [h.o, hK, Int.natAbs_neg]

theorem Opp.hF {z : Ziggurat (List U64)} {x x' : U64} (h : Opp z x x') :
    (z.F[zlayer x']'(zlayer_lt x')) = z.F[zlayer x]'(zlayer_lt x) := by simp only [h.l]

theorem Opp.hF1 {z : Ziggurat (List U64)} {x x' : U64} (h : Opp z x x') :
    (z.F[zlayer x' - 1]'(by have := zlayer_lt x'; omega)) = z.F[zlayer x - 1]'(by have := zlayer_lt x; omega) := by
  simp only [h.l]

theorem zrej_opp {z : Ziggurat (List U64)} (hev : ∀ y, z.pdf (F64.neg y) = z.pdf y) {fused : Bool} {x x' u : U64} (h : Opp z x x') :
    zrej z fused x' u ↔ zrej z fused x u := by
  unfold zrej
  rw [h.hk, h.hM, hev, h.hF, h.hF1, h.l]

theorem round_acc (z : Ziggurat (List U64)) (hev : ∀ y, z.pdf (F64.neg y) = z.pdf y) (fused : Bool)
    (fuel : Nat) (x x' : U64) (ho : Opp z x x') (xs : List U64) (hr : ∀ u rest, xs = u :: rest → ¬ zrej z fused x u) :
    z.genNext fused tape (fuel + 1) (x' :: xs) =
      (z.genNext fused tape (fuel + 1) (x :: xs)).map fun r => (F64.neg r.1, r.2) := by
  have hx := RNG_uint64_tape x xs
  have hx' := RNG_uint64_tape x' xs
  by_cases hk : (zoffset z.mirrored x).natAbs < (z.K[zlayer x]'(zlayer_lt x)).toNat
  · rw [genNext_fast _ _ _ _ _ _ _ hx hk, genNext_fast _ _ _ _ _ _ _ hx' (ho.hk.2 hk), ho.hM]
    simp only [Except.map]
  · by_cases hz : zlayer x = 0
    · have h0 := ho.o0
      rw [genNext_tail _ _ _ _ _ _ _ hx hk hz, genNext_tail _ _ _ _ _ _ _ hx' (fun h => hk (ho.hk.1 h)) (ho.l.trans hz), ho.o]
      generalize zoffset z.mirrored x = j at *
      cases z.tail tape fuel xs with
      | error p => simp only [Except.map]
      | ok v =>
        simp only [Except.map]
        by_cases h : j < 0
        · rw [if_pos h, if_neg (by omega), F64.neg_neg]
        · rw [if_neg h, if_pos (by omega)]
    · rw [genNext_wedge _ _ _ _ _ _ _ hx hk hz, genNext_wedge _ _ _ _ _ _ _ hx' (fun h => hk (ho.hk.1 h)) (by rw [ho.l]; exact hz),
        ho.hM, hev, ho.hF, ho.hF1]
      cases xs with
      | nil =>
        rw [uniform01_nil]
        simp only [Except.map]
      | cons u rest =>
        have hnr := hr u rest rfl
        obtain ⟨v, hv⟩ := uniform01_tape u rest
        rw [hv]
        simp only
        split
        · simp only [Except.map]
        · rename_i hlt
          exfalso
          refine hnr ⟨hk, hz, fun w hw => ?_⟩
          rw [uniform01_one u rest v hv, Except.ok.injEq, Prod.mk.injEq] at hw
          rw [← hw.1]
          exact Bool.eq_false_iff.2 hlt

/-- A mirrored round. -/
theorem mirror_round (z : Ziggurat (List U64)) (hev : ∀ y, z.pdf (F64.neg y) = z.pdf y) (fused : Bool)
    (fuel : Nat) (x x' : U64) (ho : Opp z x x') (xs : List U64) :
    (z.genNext fused tape (fuel + 1) (x' :: xs) =
      (z.genNext fused tape (fuel + 1) (x :: xs)).map fun r => (F64.neg r.1, r.2)) ∨
    ∃ u rest, xs = u :: rest ∧ z.genNext fused tape (fuel + 1) (x :: xs) = z.genNext fused tape fuel rest ∧
      z.genNext fused tape (fuel + 1) (x' :: xs) = z.genNext fused tape fuel rest := by
  by_cases h : ∃ u rest, xs = u :: rest ∧ zrej z fused x u
  · obtain ⟨u, rest, rfl, h⟩ := h
    exact Or.inr ⟨u, rest, rfl, round_rej z fused fuel x u rest h, round_rej z fused fuel x' u rest ((zrej_opp hev ho).2 h)⟩
  · left
    refine round_acc z hev fused fuel x x' ho xs fun u rest e hr => h ⟨u, rest, e, hr⟩

/-- C42: let `x` and `x'` be two words of the same layer and of opposite, non-zero offsets. A mirrored ziggurat with an even
density either accepts both in the same round, having consumed the same further words, and returns opposite variates; or it
rejects both and goes on with the same words. -/
theorem C42_mirror (lib : MathLib) (fused : Bool) (fuel : Nat) (x x' : U64) (hl : zlayer x' = zlayer x)
    (ho : zoffset true x' = -zoffset true x) (h0 : zoffset true x ≠ 0) (xs : List U64) :
    ((normalZig lib).genNext fused tape (fuel + 1) (x' :: xs) =
      ((normalZig lib).genNext fused tape (fuel + 1) (x :: xs)).map fun r => (F64.neg r.1, r.2)) ∨
    ∃ u rest, xs = u :: rest ∧ (normalZig lib).genNext fused tape (fuel + 1) (x :: xs) = (normalZig lib).genNext fused tape fuel rest ∧
      (normalZig lib).genNext fused tape (fuel + 1) (x' :: xs) = (normalZig lib).genNext fused tape fuel rest :=
  mirror_round (normalZig lib) (C42_even lib) fused fuel x x' ⟨hl, ho, h0⟩ xs

/-! ### The tail -/

theorem normalR_eq (e : Nat) (he : 1024 = e) :
    ∃ c, normalR = .fin false (c * 2 ^ e) ∧ c < 2 ^ 53 ∧ 2 ^ 53 ≤ c * 2 ^ 3 ∧ c * 2 ^ 3 ≤ 5 * 2 ^ 53 := by
  refine ⟨4547340665486032, ?_, by decide⟩
  have := ofDec_row (40388498461095, 13) (4547340665486032, 64) (by decide +kernel) (by decide)
  rw [← he]
  exact this

/-- Minus the logarithm of a uniform variate: +Inf, or positive and moderate. -/
theorem neg_log_uniform (lib : MathLib) (hl : LogOk lib) (e : Nat) (he : 1021 = e) (src : Source σ) (s s' : σ) (u : F64)
    (hu : uniform01 src s = .ok (u, s')) :
    (F64.neg (lib.log u) = .inf false ∧ rv u = 0) ∨ ∃ n, F64.neg (lib.log u) = .fin false n ∧ n ≤ 54 * 2 ^ (53 + e) := by
  obtain ⟨m, hm, rfl⟩ := uniform01_form e he src s s' u hu
  rcases Nat.eq_zero_or_pos m with rfl | hm0
  · left
    rw [Nat.zero_mul, hl.zero, rv_pos 0 (53 + e) (by omega)]
    exact ⟨rfl, by simp⟩
  · obtain ⟨n, h1, -, -, h4, -⟩ := log_uniform lib hl e m he hm hm0
    exact Or.inr ⟨n, by rw [h1]; rfl, h4⟩

theorem rnd_le_fin (e c a b : Nat) (he : e ≤ 1074) (hb : 0 < b) (hc : c ≤ 128) (h : a ≤ c * 2 ^ e * b) :
    ∃ q, F64.rnd false a b = .fin false q ∧ q ≤ c * 2 ^ e ∧ q = rndNat a b := by
  have hr := rndNat_le a b (c * 2 ^ e) hb (short_small c e (by omega)) h
  have hlim : rndNat a b < limit :=
    lt_limit_of_le _ (7 + e) (hr.trans (by rw [pow_add]; exact Nat.mul_le_mul_right _ (by omega))) (by omega)
  exact ⟨_, by unfold F64.rnd; rw [if_pos hlim], hr, rfl⟩

/-- C42: what the tail of the normal distribution returns: a number that is at least `R`, and at most 64, or +Inf, the latter
only if the two uniform variates drawn last were both 0. -/
theorem normal_tail (lib : MathLib) (hl : LogOk lib) (src : Source σ) (fuel : Nat) (s s' : σ) (t : F64)
    (h : normalTail lib src fuel s = .ok (t, s')) :
    (∃ n, t = .fin false n ∧ rv normalR ≤ rv t ∧ rv t ≤ 64) ∨
      (t = .inf false ∧ ∃ s1 s2 u v, uniform01 src s1 = .ok (u, s2) ∧ rv u = 0 ∧ uniform01 src s2 = .ok (v, s') ∧ rv v = 0) := by
  obtain ⟨e, he⟩ : ∃ e, 1021 = e := ⟨_, rfl⟩
  have hone : F64.one = 2 ^ (53 + e) := by rw [← he]; rfl
  obtain ⟨c, hRe, c1, c2, c3⟩ := normalR_eq (e + 3) (by omega)
  have hRs := short_small c (e + 3) c1
  have hR1 : 2 ^ (53 + e) ≤ c * 2 ^ (e + 3) := by
    rw [Nat.add_comm e 3, pow_add, pow_add, ← Nat.mul_assoc]
    exact Nat.mul_le_mul_right _ c2
  have hR2 : c * 2 ^ (e + 3) ≤ 5 * 2 ^ (53 + e) := by
    rw [Nat.add_comm e 3, pow_add, pow_add, ← Nat.mul_assoc, ← Nat.mul_assoc]
    exact Nat.mul_le_mul_right _ c3
  generalize c * 2 ^ (e + 3) = R at *
  have hp := Nat.two_pow_pos (53 + e)
  have hR0 : 0 < R := by omega
  induction fuel generalizing s with
  | zero => exact (err_ne_ok _ _ h).elim
  | succ fuel ih =>
    unfold normalTail at h
    cases hu : uniform01 src s with
    | error p => simp only [hu, bind, Except.bind] at h; exact (err_ne_ok _ _ h).elim
    | ok w =>
      obtain ⟨u, s1⟩ := w
      cases hv : uniform01 src s1 with
      | error p => simp only [hu, hv, bind, Except.bind] at h; exact (err_ne_ok _ _ h).elim
      | ok w =>
        obtain ⟨v, s2⟩ := w
        simp only [hu, hv, bind, Except.bind, pure, Except.pure] at h
        split at h
        · rename_i hle
          rw [Except.ok.injEq, Prod.mk.injEq] at h
          obtain ⟨h1, rfl⟩ := h
          rw [hRe] at h1 hle
          rcases neg_log_uniform lib hl e he src s s1 u hu with ⟨hx, hu0⟩ | ⟨n, hx, hn⟩
          · right
            rw [hx] at h1 hle
            refine ⟨by rw [← h1]; rfl, s, s1, u, v, hu, hu0, hv, ?_⟩
            rcases neg_log_uniform lib hl e he src s1 s2 v hv with ⟨hy, hv0⟩ | ⟨n, hy, hn⟩
            · exact hv0
            · exfalso
              rw [hy] at hle
              obtain ⟨q, hq, -⟩ := rnd_le_fin (53 + e) 108 (n + n) 1 (by omega) (by decide) (by decide) (by omega)
              have hadd : F64.add (.fin false n) (.fin false n) = .fin false q := by
                show F64.rndInt (false && false) ((n : Int) + (n : Int)) 1 = _
                rw [← Int.natCast_add, ← hq]
                exact rndInt_nat _ _ (by decide)
              rw [hadd] at hle
              have : F64.le (.inf false) (.fin false q) = true := hle
              exact Bool.false_ne_true this
          · left
            rw [hx] at h1
            have hdiv : F64.div (.fin false n) (.fin false R) = F64.rnd false (n * 2 ^ (53 + e)) R := by
              rw [← hone]
              exact if_neg (by omega)
            obtain ⟨q, hq, hq', -⟩ := rnd_le_fin (53 + e) 54 (n * 2 ^ (53 + e)) R (by omega) hR0 (by decide) (Nat.mul_le_mul hn hR1)
            obtain ⟨p, hp1, hp2, hp3⟩ := rnd_le_fin (53 + e) 64 (q + R) 1 (by omega) (by decide) (by decide) (by omega)
            have hadd : F64.add (.fin false q) (.fin false R) = .fin false p := by
              show F64.rndInt (false && false) ((q : Int) + (R : Int)) 1 = _
              rw [← Int.natCast_add, ← hp1]
              exact rndInt_nat _ _ (by decide)
            rw [hdiv, hq, hadd] at h1
            have hge := le_rndNat (q + R) 1 R (by decide) hRs (by omega)
            rw [← hp3] at hge
            have s0 : (0 : ℝ) < 2 ^ (53 + e) := by positivity
            refine ⟨p, h1.symm, ?_, ?_⟩
            · rw [← h1, hRe, rv_pos R (53 + e) (by omega), rv_pos p (53 + e) (by omega)]
              exact div_le_div_of_nonneg_right (by exact_mod_cast hge) s0.le
            · rw [← h1, rv_pos p (53 + e) (by omega), div_le_iff₀ s0]
              exact_mod_cast hp2
        · exact ih s2 h

theorem normalR_pos {c : Nat} (h : 2 ^ 53 ≤ c * 2 ^ 3) : 0 < c := by
  rcases Nat.eq_zero_or_pos c with rfl | h'
  · rw [Nat.zero_mul] at h
    exact absurd (Nat.le_zero.1 h) (Nat.pos_iff_ne_zero.1 (Nat.pow_pos (by decide)))
  · exact h'

theorem normalR_rv_pos : 0 < rv normalR := by
  obtain ⟨e, he⟩ : ∃ e, 1074 = e := ⟨_, rfl⟩
  obtain ⟨e', he'⟩ : ∃ e, 1024 = e := ⟨_, rfl⟩
  obtain ⟨c, h1, -, h2, -⟩ := normalR_eq e' he'
  rw [h1, rv_pos _ e he]
  exact div_pos (Nat.cast_pos.2 (Nat.mul_pos (normalR_pos h2) (Nat.pow_pos (by decide)))) (pow_pos two_pos _)

/-- C42: a word of the base layer whose offset is not below `K[0]` makes `GenNext` return a number of magnitude at least `R` (and
at most 64), or an infinity, with the sign of the offset. -/
theorem C42_tail (lib : MathLib) (hl : LogOk lib) (fused : Bool) (src : Source σ) (fuel : Nat) (s s1 s' : σ) (x : U64) (r : F64)
    (h : RNG.uint64 src s = .ok (x, s1)) (h0 : zlayer x = 0) (hk : (normalK[0]).toNat ≤ (zoffset true x).natAbs)
    (hr : (normalZig lib).genNext fused src (fuel + 1) s = .ok (r, s')) :
    (r.IsFin ∧ rv normalR ≤ |rv r| ∧ |rv r| ≤ 64 ∧ (rv r < 0 ↔ zoffset true x < 0)) ∨ r = .inf (decide (zoffset true x < 0)) := by
  have hk' : ¬ (zoffset true x).natAbs < (normalK[zlayer x]'(zlayer_lt x)).toNat := by
    simp only [h0]
    exact Nat.not_lt.2 hk
  rw [genNext_tail (normalZig lib) fused src fuel s s1 x h hk' h0] at hr
  cases ht : (normalZig lib : Ziggurat σ).tail src fuel s1 with
  | error p => rw [ht] at hr; exact (err_ne_ok _ _ hr).elim
  | ok v =>
    obtain ⟨t, s2⟩ := v
    rw [ht] at hr
    simp only [Except.ok.injEq, Prod.mk.injEq] at hr
    have hr1 : (if zoffset true x < 0 then F64.neg t else t) = r := hr.1
    obtain ⟨e, he⟩ : ∃ e, 1074 = e := ⟨_, rfl⟩
    have hR : 0 < rv normalR := normalR_rv_pos
    rcases normal_tail lib hl src fuel s1 s2 t ht with ⟨n, rfl, h1, h2⟩ | ⟨rfl, -⟩
    · left
      have hn : rv (.fin true n) = -rv (.fin false n) := by rw [rv_pos n e he, rv_neg n e he]
      by_cases hj : zoffset true x < 0
      · rw [if_pos hj] at hr1
        rw [← hr1]
        show True ∧ _ ≤ |rv (.fin true n)| ∧ |rv (.fin true n)| ≤ _ ∧ (rv (.fin true n) < 0 ↔ _)
        rw [hn, abs_neg, abs_of_nonneg (by linarith)]
        exact ⟨trivial, h1, h2, iff_of_true (by linarith) hj⟩
      · rw [if_neg hj] at hr1
        rw [← hr1, abs_of_nonneg (by linarith)]
        exact ⟨trivial, h1, h2, iff_of_false (by linarith) hj⟩
    · right
      rw [← hr1]
      by_cases hj : zoffset true x < 0
      · rw [if_pos hj, decide_eq_true hj]; rfl
      · rw [if_neg hj, decide_eq_false hj]

end Crazy
