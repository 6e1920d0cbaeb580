/-
C41: exponential variates.
-/
import Verif.Props.ZigAccept
import Verif.Spec.MathLib
set_option exponentiation.threshold 2200
namespace Crazy
open F64

variable {σ : Type}

theorem genNext_fast (z : Ziggurat σ) (fused : Bool) (src : Source σ) (fuel : Nat) (s s1 : σ) (x : U64)
    (h : RNG.uint64 src s = .ok (x, s1)) (hk : (zoffset z.mirrored x).natAbs < (z.K[zlayer x]'(zlayer_lt x)).toNat) :
    z.genNext fused src (fuel + 1) s = .ok (F64.mul (F64.ofInt (zoffset z.mirrored x)) (z.W[zlayer x]'(zlayer_lt x)), s1) := by
  rw [genNext_word _ _ _ _ _ _ _ h, if_pos hk]

theorem genNext_tail (z : Ziggurat σ) (fused : Bool) (src : Source σ) (fuel : Nat) (s s1 : σ) (x : U64)
    (h : RNG.uint64 src s = .ok (x, s1)) (hk : ¬ (zoffset z.mirrored x).natAbs < (z.K[zlayer x]'(zlayer_lt x)).toNat)
    (h0 : zlayer x = 0) : z.genNext fused src (fuel + 1) s =
      match z.tail src fuel s1 with
      | .error p => .error p
      | .ok (y, s2) => .ok (if zoffset z.mirrored x < 0 then F64.neg y else y, s2) := by
  rw [genNext_word _ _ _ _ _ _ _ h, if_neg hk, if_neg (not_not.2 h0)]
  cases z.tail src fuel s1 with
  | error p => rfl
  | ok v =>
    simp only [bind, Except.bind, pure, Except.pure]
    split <;> rfl

theorem genNext_wedge (z : Ziggurat σ) (fused : Bool) (src : Source σ) (fuel : Nat) (s s1 : σ) (x : U64)
    (h : RNG.uint64 src s = .ok (x, s1)) (hk : ¬ (zoffset z.mirrored x).natAbs < (z.K[zlayer x]'(zlayer_lt x)).toNat)
    (h0 : zlayer x ≠ 0) : z.genNext fused src (fuel + 1) s =
      match uniform01 src s1 with
      | .error p => .error p
      | .ok (u, s2) =>
        if F64.lt (F64.mulAdd fused u (F64.sub (z.F[zlayer x - 1]'(by have := zlayer_lt x; omega)) (z.F[zlayer x]'(zlayer_lt x)))
              (z.F[zlayer x]'(zlayer_lt x)))
            (z.pdf (F64.mul (F64.ofInt (zoffset z.mirrored x)) (z.W[zlayer x]'(zlayer_lt x)))) then
          .ok (F64.mul (F64.ofInt (zoffset z.mirrored x)) (z.W[zlayer x]'(zlayer_lt x)), s2)
        else z.genNext fused src fuel s2 := by
  rw [genNext_word _ _ _ _ _ _ _ h, if_neg hk, if_pos h0]
  cases uniform01 src s1 <;> rfl

theorem genNext_error (z : Ziggurat σ) (fused : Bool) (src : Source σ) (fuel : Nat) (s : σ) (p : Panic)
    (h : RNG.uint64 src s = .error p) : z.genNext fused src (fuel + 1) s = .error p := by
  unfold Ziggurat.genNext
  simp only [h, bind, Except.bind]

theorem uniform01_form (e : Nat) (he : 1021 = e) (src : Source σ) (s s' : σ) (u : F64) (hu : uniform01 src s = .ok (u, s')) :
    ∃ m, m < 2 ^ 53 ∧ u = .fin false (m * 2 ^ e) := by
  cases hr : src.read (zeros 8) s with
  | error p => rw [uniform01_error src s p hr] at hu; contradiction
  | ok r =>
    rw [uniform01_eq src s r.2 r.1 hr, he, Except.ok.injEq, Prod.mk.injEq] at hu
    exact ⟨_, Nat.mod_lt _ (by decide), hu.1.symm⟩

/-- The logarithm of a positive uniform variate: negative and moderate. -/
theorem log_uniform (lib : MathLib) (hl : LogOk lib) (e m : Nat) (he : 1021 = e) (hm : m < 2 ^ 53) (hm0 : 0 < m) :
    ∃ n, lib.log (.fin false (m * 2 ^ e)) = .fin true n ∧ (F64.fin true n).Valid ∧ 0 < n ∧ n ≤ 54 * 2 ^ (53 + e) ∧
      |(n : ℝ) / 2 ^ (53 + e) - -Real.log ((m : ℝ) / 2 ^ 53)| ≤ -Real.log ((m : ℝ) / 2 ^ 53) / 2 ^ 50 ∧
      -Real.log ((m : ℝ) / 2 ^ 53) ≤ 53 := by
  have hrv : rv (.fin false (m * 2 ^ e)) = (m : ℝ) / 2 ^ 53 := by
    rw [rv_pos _ (53 + e) (by omega), pow_add, Nat.cast_mul, Nat.cast_pow, Nat.cast_ofNat, mul_div_mul_right _ _ (by positivity)]
  have hm' : (1 : ℝ) ≤ m := by exact_mod_cast hm0
  have hm2 : (m : ℝ) < 2 ^ 53 := by exact_mod_cast hm
  have h0 : 0 < (m : ℝ) / 2 ^ 53 := by positivity
  have h1 : (m : ℝ) / 2 ^ 53 < 1 := by rw [div_lt_one (by positivity)]; exact hm2
  obtain ⟨l1, l2, l3⟩ := hl.pos (.fin false (m * 2 ^ e)) trivial (valid_scaled false m e hm (by omega)) (by rw [hrv]; exact h0)
  rw [hrv] at l3
  have hneg := Real.log_neg h0 h1
  have hge : -53 ≤ Real.log ((m : ℝ) / 2 ^ 53) := by
    rw [Real.log_div (by positivity) (by positivity), Real.log_pow]
    have a1 := Real.log_nonneg hm'
    have a2 : Real.log 2 ≤ 1 := by
      have := Real.log_le_sub_one_of_pos (show (0 : ℝ) < 2 by norm_num)
      linarith
    push_cast
    linarith
  generalize Real.log ((m : ℝ) / 2 ^ 53) = L at *
  rw [abs_of_neg hneg] at l3
  have l4 := abs_le.1 l3
  have h50 : -L / 2 ^ 50 ≤ -L / 54 := div_le_div_of_nonneg_left (by linarith) (by norm_num) (by norm_num)
  match hx : lib.log (.fin false (m * 2 ^ e)), l1, l2 with
  | .fin false n, _, _ =>
    exfalso
    rw [hx, rv_pos n (53 + e) (by omega)] at l4
    have : (0 : ℝ) ≤ (n : ℝ) / 2 ^ (53 + e) := by positivity
    linarith
  | .fin true n, _, l2 =>
    have s : (0 : ℝ) < 2 ^ (53 + e) := by positivity
    rw [hx, rv_neg n (53 + e) (by omega)] at l4 l3
    have hn0 : 0 < (n : ℝ) / 2 ^ (53 + e) := by linarith
    have hn1 : (n : ℝ) / 2 ^ (53 + e) ≤ 54 := by linarith
    refine ⟨n, rfl, l2, ?_, ?_, ?_, by linarith⟩
    · rw [div_pos_iff_of_pos_right s] at hn0; exact_mod_cast hn0
    · rw [div_le_iff₀ s] at hn1; exact_mod_cast hn1
    · rw [abs_sub_comm, show -L - (n : ℝ) / 2 ^ (53 + e) = -((n : ℝ) / 2 ^ (53 + e)) - L by ring]
      exact l3

theorem expoR_eq (e : Nat) (he : 1025 = e) : expoR = .fin false (5210757399054285 * 2 ^ e) := by
  have := ofDec_row (925616454426554, 14) (5210757399054285, 65) (by decide +kernel) (by decide)
  rw [← he]
  exact this

/-- `x - y` for positive `x` and negative `y`: a rounded sum. -/
theorem sub_neg_eq (a n : Nat) (h : 0 < n) : F64.sub (.fin false a) (.fin true n) = F64.rnd false (a + n) 1 := by
  show F64.rndInt (false && false) ((a : Int) + (n : Int)) 1 = _
  rw [← Int.natCast_add, rndInt_of_nonneg _ _ _ (by omega)]

theorem short_small (c k : Nat) (hc : c < 2 ^ 53) : Short (c * 2 ^ k) := ⟨c, k, hc, rfl⟩

/-- The tail of the exponential distribution. -/
theorem expo_tail_aux (lib : MathLib) (hl : LogOk lib) (e m : Nat) (he : 1021 = e) (hm : m < 2 ^ 53) (hm0 : 0 < m) :
    ∃ p, F64.sub expoR (lib.log (.fin false (m * 2 ^ e))) = .fin false p ∧ p ≤ 64 * 2 ^ (53 + e) ∧
      5210757399054285 * 2 ^ (e + 4) ≤ p ∧ |(p : ℝ) / 2 ^ (53 + e) - (rv expoR - Real.log ((m : ℝ) / 2 ^ 53))| ≤ 1 / 2 ^ 44 := by
  obtain ⟨n, h1, h2, h3, h4, h5, h6⟩ := log_uniform lib hl e m he hm hm0
  rw [h1, expoR_eq (e + 4) (by omega), sub_neg_eq _ _ h3]
  have ha : 5210757399054285 * 2 ^ (e + 4) ≤ 10 * 2 ^ (53 + e) := by
    rw [pow_add, pow_add, Nat.mul_comm (2 ^ e), ← Nat.mul_assoc, ← Nat.mul_assoc]
    exact Nat.mul_le_mul_right _ (by decide)
  have hS : 2 ^ 53 ≤ 64 * 2 ^ (53 + e) := by
    rw [pow_add]
    have := Nat.two_pow_pos e
    calc 2 ^ 53 = 2 ^ 53 * 1 := (Nat.mul_one _).symm
      _ ≤ 2 ^ 53 * 2 ^ e := Nat.mul_le_mul_left _ this
      _ ≤ _ := Nat.le_mul_of_pos_left _ (by decide)
  have hsum : 5210757399054285 * 2 ^ (e + 4) + n ≤ 64 * 2 ^ (53 + e) * 1 := by omega
  have r1 := rndNat_le _ 1 _ (by decide) (short_small 64 (53 + e) (by decide)) hsum
  have r2 := le_rndNat (5210757399054285 * 2 ^ (e + 4) + n) 1 _ (by decide) (short_small 5210757399054285 (e + 4) (by decide)) (by omega)
  have r3 := err_le (5210757399054285 * 2 ^ (e + 4) + n) 1 (by decide) (64 * 2 ^ (53 + e)) hS hsum
  have hlim : rndNat (5210757399054285 * 2 ^ (e + 4) + n) 1 < limit :=
    lt_limit_of_le _ (6 + (53 + e)) (r1.trans (by rw [pow_add 2 6]; exact Nat.mul_le_mul_right _ (by decide))) (by omega)
  unfold F64.rnd
  rw [if_pos hlim]
  refine ⟨_, rfl, r1, r2, ?_⟩
  generalize rndNat (5210757399054285 * 2 ^ (e + 4) + n) 1 = p at *
  rw [rv_pos _ (53 + e) (by omega)]
  generalize 5210757399054285 * 2 ^ (e + 4) = a at *
  rw [Nat.cast_one, div_one, Nat.cast_add, Nat.cast_mul, Nat.cast_pow, Nat.cast_ofNat, Nat.cast_ofNat] at r3
  have s : (0 : ℝ) < 2 ^ (53 + e) := by positivity
  generalize (2 : ℝ) ^ (53 + e) = B at *
  generalize Real.log ((m : ℝ) / 2 ^ 53) = L at *
  have e1 : (p : ℝ) / B - (a / B - L) = ((n : ℝ) / B - -L) - ((a : ℝ) + n - p) / B := by ring
  have e2 : |((a : ℝ) + n - p) / B| ≤ 64 / 2 ^ 53 := by
    rw [abs_div, abs_of_pos s, div_le_iff₀ s]
    calc _ ≤ 64 * B / 2 ^ 53 := r3
      _ = _ := by ring
  rw [e1]
  refine (abs_sub _ _).trans ?_
  norm_num at *
  linarith

/-- C41, the tail: a word of the base layer whose offset is not below `K[0]` makes `GenNext` return `R - log u` for the next
uniform variate `u`: if `u` is 0, that is +Inf; otherwise a number `t ≥ R` that differs by at most `2^-44` from the exact value. -/
theorem C41_tail (lib : MathLib) (hl : LogOk lib) (fused : Bool) (src : Source σ) (fuel : Nat) (s s1 s2 : σ) (x : U64) (u : F64)
    (h : RNG.uint64 src s = .ok (x, s1)) (h0 : zlayer x = 0) (hk : (expoK[0]).toNat ≤ (zoffset false x).natAbs)
    (hu : uniform01 src s1 = .ok (u, s2)) :
    ∃ t, (expoZig lib).genNext fused src (fuel + 1) s = .ok (t, s2) ∧
      (rv u = 0 → t = .inf false) ∧
      (rv u ≠ 0 → t.IsFin ∧ rv expoR ≤ rv t ∧ rv t ≤ 64 ∧ |rv t - (rv expoR - Real.log (rv u))| ≤ 1 / 2 ^ 44) := by
  obtain ⟨e, he⟩ : ∃ e, 1021 = e := ⟨_, rfl⟩
  obtain ⟨m, hm, rfl⟩ := uniform01_form e he src s1 s2 u hu
  have hrv : rv (.fin false (m * 2 ^ e)) = (m : ℝ) / 2 ^ 53 := by
    rw [rv_pos _ (53 + e) (by omega), pow_add, Nat.cast_mul, Nat.cast_pow, Nat.cast_ofNat, mul_div_mul_right _ _ (by positivity)]
  refine ⟨F64.sub expoR (lib.log (.fin false (m * 2 ^ e))), ?_, fun hz => ?_, fun hz => ?_⟩
  · have hj0 : ¬ zoffset false x < 0 := by
      rw [Int.not_lt]
      show (0 : Int) ≤ ((x.toNat % 2 ^ 53 : Nat) : Int)
      exact Int.natCast_nonneg _
    have hk' : ¬ (zoffset false x).natAbs < (expoK[zlayer x]'(zlayer_lt x)).toNat := by
      simp only [h0]
      exact Nat.not_lt.2 hk
    rw [genNext_tail (expoZig lib) fused src fuel s s1 x h hk' h0]
    have ht : (expoZig lib).tail src fuel s1 = .ok (F64.sub expoR (lib.log (.fin false (m * 2 ^ e))), s2) := by
      show expoTail lib src fuel s1 = _
      unfold expoTail
      simp only [hu, bind, Except.bind, pure, Except.pure]
    have hj1 : ¬ zoffset (expoZig lib : Ziggurat σ).mirrored x < 0 := hj0
    rw [ht]
    simp only
    rw [if_neg hj1]
  · have hm0 : m = 0 := by
      rw [hrv, div_eq_zero_iff] at hz
      rcases hz with hz | hz
      · exact_mod_cast hz
      · exact absurd hz (by positivity)
    rw [hm0, Nat.zero_mul, hl.zero, expoR_eq 1025 rfl]
    rfl
  · have hm0 : 0 < m := by
      rcases Nat.eq_zero_or_pos m with rfl | h
      · rw [hrv] at hz; simp at hz
      · exact h
    obtain ⟨p, p1, p2, p3, p4⟩ := expo_tail_aux lib hl e m he hm hm0
    rw [p1, hrv, rv_pos p (53 + e) (by omega)]
    have s : (0 : ℝ) < 2 ^ (53 + e) := by positivity
    refine ⟨trivial, ?_, ?_, p4⟩
    · rw [expoR_eq (e + 4) (by omega), rv_pos _ (53 + e) (by omega)]
      exact div_le_div_of_nonneg_right (by exact_mod_cast p3) s.le
    · rw [div_le_iff₀ s]
      exact_mod_cast p2

/-- What `GenNext` returns for the exponential distribution: a number in [0, 64], or +Inf after a uniform variate 0. -/
theorem expo_draw (lib : MathLib) (hl : LogOk lib) (fused : Bool) (src : Source σ) (e : Nat) (he : 1074 = e) (fuel : Nat) (s s' : σ) (r : F64)
    (h : (expoZig lib).genNext fused src fuel s = .ok (r, s')) :
    (∃ n, r = .fin false n ∧ n ≤ 64 * 2 ^ e) ∨ (r = .inf false ∧ ∃ s1 u, uniform01 src s1 = .ok (u, s') ∧ rv u = 0) := by
  have key : ∀ i (hi : i < 1024) (j : Int), 0 ≤ j → j.natAbs ≤ 2 ^ 53 →
      ∃ n, F64.mul (F64.ofInt j) (expoW[i]'hi) = .fin false n ∧ n ≤ 64 * 2 ^ e := by
    intro i hi j hj0 hj
    obtain ⟨f1, f2, f3, -⟩ := C40_expo.finite i hi
    obtain ⟨p, c1, -, c3, c4, -⟩ := candidate expoW i hi f1 f2 f3 ((expo_x_le i hi).trans pow53_11) j hj
    rw [decide_eq_false (by omega)] at c1
    refine ⟨p, c1, ?_⟩
    rw [c4, rv_pos p e he] at c3
    have s : (0 : ℝ) < 2 ^ e := by positivity
    have h64 : (p : ℝ) / 2 ^ e ≤ 64 := c3.trans ((expo_x_le i hi).trans (by norm_num))
    rw [div_le_iff₀ s] at h64
    exact_mod_cast h64
  induction fuel generalizing s with
  | zero => contradiction
  | succ fuel ih =>
    cases hx : RNG.uint64 src s with
    | error p =>
      rw [genNext_error _ _ _ _ _ _ hx] at h
      contradiction
    | ok v =>
      obtain ⟨x, s1⟩ := v
      have hj0 : 0 ≤ zoffset false x := by
        show (0 : Int) ≤ ((x.toNat % 2 ^ 53 : Nat) : Int)
        exact Int.natCast_nonneg _
      have hc := key (zlayer x) (zlayer_lt x) _ hj0 (zoffset_le false x)
      by_cases hk : (zoffset false x).natAbs < (expoK[zlayer x]'(zlayer_lt x)).toNat
      · rw [genNext_fast _ _ _ _ _ _ _ hx hk, Except.ok.injEq, Prod.mk.injEq] at h
        rw [← h.1]
        exact Or.inl hc
      · by_cases h0 : zlayer x = 0
        · cases hu : uniform01 src s1 with
          | error p =>
            rw [genNext_tail (expoZig lib) _ _ _ _ _ _ hx hk h0] at h
            exfalso
            have ht : (expoZig lib).tail src fuel s1 = .error p := by
              show expoTail lib src fuel s1 = _
              unfold expoTail
              simp only [hu, bind, Except.bind]
            rw [ht] at h
            contradiction
          | ok v =>
            obtain ⟨u, s2⟩ := v
            have hk' : (expoK[0]).toNat ≤ (zoffset false x).natAbs := by
              simp only [h0] at hk
              omega
            obtain ⟨t, t1, t2, t3⟩ := C41_tail lib hl fused src fuel s s1 s2 x u hx h0 hk' hu
            rw [t1, Except.ok.injEq, Prod.mk.injEq] at h
            obtain ⟨rfl, rfl⟩ := h
            by_cases hz : rv u = 0
            · exact Or.inr ⟨t2 hz, s1, u, hu, hz⟩
            · obtain ⟨q1, q2, q3, -⟩ := t3 hz
              left
              have hR : 0 < rv expoR := by
                obtain ⟨e', he'⟩ : ∃ e', 1025 = e' := ⟨_, rfl⟩
                rw [expoR_eq e' he', rv_pos _ e he]
                positivity
              obtain ⟨n, rfl⟩ := fin_of_pos t q1 (lt_of_lt_of_le hR q2)
              refine ⟨n, rfl, ?_⟩
              have s : (0 : ℝ) < 2 ^ e := by positivity
              rw [rv_pos n e he, div_le_iff₀ s] at q3
              exact_mod_cast q3
        · cases hu : uniform01 src s1 with
          | error p =>
            rw [genNext_wedge (expoZig lib) _ _ _ _ _ _ hx hk h0, hu] at h
            contradiction
          | ok v =>
            rw [genNext_wedge (expoZig lib) _ _ _ _ _ _ hx hk h0, hu] at h
            simp only at h
            split at h
            · rw [Except.ok.injEq, Prod.mk.injEq] at h
              rw [← h.1]
              exact Or.inl hc
            · exact ih v.2 h

/-- C41: for every source and every positive rate, `Exponential.Next` returns a number that is at least 0, or +Inf; never NaN and
never a negative number. -/
theorem C41_nonneg (lib : MathLib) (hl : LogOk lib) (fused : Bool) (rate : F64) (hrate : PosRate rate) (src : Source σ) (fuel : Nat)
    (s s' : σ) (r : F64) (h : exponential lib fused rate src fuel s = .ok (r, s')) :
    (r.IsFin ∧ 0 ≤ rv r) ∨ r = .inf false := by
  obtain ⟨e, he⟩ : ∃ e, 1074 = e := ⟨_, rfl⟩
  obtain ⟨d, rfl⟩ := fin_of_pos rate hrate.1 hrate.2.1
  unfold exponential at h
  cases hg : (expoZig lib).genNext fused src fuel s with
  | error p => rw [hg] at h; contradiction
  | ok v =>
    obtain ⟨x, s1⟩ := v
    simp only [hg, bind, Except.bind, pure, Except.pure, Except.ok.injEq, Prod.mk.injEq] at h
    rcases expo_draw lib hl fused src e he fuel s s1 x hg with ⟨n, rfl, -⟩ | ⟨rfl, -⟩
    · have hd : d ≠ 0 := by
        rintro rfl
        have := hrate.2.1
        rw [rv_pos 0 e he] at this
        simp at this
      rw [← h.1]
      show ((if d = 0 then _ else F64.rnd (false ^^ false) (n * one) d : F64).IsFin ∧ 0 ≤ rv (if d = 0 then _ else _)) ∨
        (if d = 0 then _ else _) = _
      rw [if_neg hd]
      unfold F64.rnd
      split
      · refine Or.inl ⟨trivial, ?_⟩
        rw [show (false ^^ false) = false from rfl, rv_pos _ e he]
        positivity
      · exact Or.inr rfl
    · rw [← h.1]
      exact Or.inr rfl

/-- C41: unless the rate is below `2^-1000` (when the quotient can overflow), +Inf is returned only if the last thing drawn from
the source was a uniform variate 0 in the tail (`C41_tail`), and otherwise the result is at most `128 / rate`. -/
theorem C41_inf (lib : MathLib) (hl : LogOk lib) (fused : Bool) (rate : F64) (hrate : PosRate rate) (hmin : 1 / 2 ^ 1000 ≤ rv rate)
    (src : Source σ) (fuel : Nat) (s s' : σ) (r : F64) (h : exponential lib fused rate src fuel s = .ok (r, s')) :
    (r.IsFin ∧ 0 ≤ rv r ∧ rv r ≤ 128 / rv rate) ∨
      (r = .inf false ∧ ∃ s1 u, uniform01 src s1 = .ok (u, s') ∧ rv u = 0) := by
  obtain ⟨e, he⟩ : ∃ e, 1074 = e := ⟨_, rfl⟩
  obtain ⟨k, hk⟩ : ∃ k, 1000 = k := ⟨_, rfl⟩
  rw [hk] at hmin
  obtain ⟨d, rfl⟩ := fin_of_pos rate hrate.1 hrate.2.1
  have s0 : (0 : ℝ) < 2 ^ e := by positivity
  rw [rv_pos d e he, div_le_div_iff₀ (by positivity) s0, one_mul] at hmin
  have hmin' : 2 ^ e ≤ d * 2 ^ k := by exact_mod_cast hmin
  have hd0 : 0 < d := by
    rcases Nat.eq_zero_or_pos d with rfl | h
    · have := Nat.two_pow_pos e
      rw [Nat.zero_mul] at hmin'
      omega
    · exact h
  unfold exponential at h
  cases hg : (expoZig lib).genNext fused src fuel s with
  | error p => rw [hg] at h; contradiction
  | ok v =>
    obtain ⟨x, s1⟩ := v
    simp only [hg, bind, Except.bind, pure, Except.pure, Except.ok.injEq, Prod.mk.injEq] at h
    obtain ⟨h1, rfl⟩ := h
    rcases expo_draw lib hl fused src e he fuel s s1 x hg with ⟨n, rfl, hn⟩ | ⟨rfl, hx⟩
    · left
      rw [← h1]
      have hone : F64.one = 2 ^ e := by rw [← he]; rfl
      have hdiv : F64.div (.fin false n) (.fin false d) = F64.rnd false (n * 2 ^ e) d := by
        rw [← hone]
        exact if_neg (by omega)
      rw [hdiv]
      have hle : n * 2 ^ e ≤ 64 * 2 ^ (e + k) * d := by
        calc n * 2 ^ e ≤ 64 * 2 ^ e * (d * 2 ^ k) := Nat.mul_le_mul hn hmin'
          _ = _ := by rw [pow_add, Nat.mul_comm d, ← Nat.mul_assoc, ← Nat.mul_assoc]
      have hr := rndNat_le (n * 2 ^ e) d _ hd0 (short_small 64 (e + k) (by decide)) hle
      have hlim : rndNat (n * 2 ^ e) d < limit :=
        lt_limit_of_le _ (6 + (e + k)) (hr.trans (by rw [pow_add 2 6]; exact Nat.mul_le_mul_right _ (by decide))) (by omega)
      have her := rndNat_error (n * 2 ^ e) d hd0
      unfold F64.rnd
      rw [if_pos hlim]
      have hvd := hrate.2.2.2
      obtain ⟨l, hl'⟩ : ∃ l, 2098 = l := ⟨_, rfl⟩
      rw [limit_eq l hl'] at hvd
      have hd2 : d ≤ 2 ^ e * 2 ^ e := hvd.le.trans (by rw [← pow_add]; exact Nat.pow_le_pow_right (by decide) (by omega))
      have hn2 : n * 2 ^ e ≤ 64 * (2 ^ e * 2 ^ e) := by rw [← Nat.mul_assoc]; exact Nat.mul_le_mul_right _ hn
      generalize rndNat (n * 2 ^ e) d = q at *
      have hq : q * d ≤ 128 * (2 ^ e * 2 ^ e) := by
        generalize n * 2 ^ e = a at *
        generalize 2 ^ e * 2 ^ e = B at *
        have : ((q * d : Nat) : ℤ) = q * d := Nat.cast_mul _ _
        rw [← this] at her
        generalize q * d = c at *
        rcases her with h | ⟨h, -⟩ <;> rcases abs_cases ((a : ℤ) - c) with ⟨h3, h4⟩ | ⟨h3, h4⟩ <;> rw [h3] at h <;> omega
      refine ⟨trivial, ?_, ?_⟩
      · rw [rv_pos q e he]; positivity
      · have hd' : (0 : ℝ) < d := by exact_mod_cast hd0
        have hq' : (q * d : ℝ) ≤ 128 * (2 ^ e * 2 ^ e) := by exact_mod_cast hq
        rw [rv_pos q e he, rv_pos d e he, div_div_eq_mul_div, div_le_div_iff₀ s0 hd']
        linarith
    · exact Or.inr ⟨by rw [← h1]; rfl, hx⟩

/-! ### There is a logarithm as accurate as assumed -/

theorem near_real (e : Nat) (he : 1074 = e) (L : ℝ) (h0 : 1 / 2 ^ 60 ≤ |L|) (h1 : |L| ≤ 2 ^ 20) :
    ∃ y : F64, y.IsFin ∧ y.Valid ∧ |rv y - L| ≤ |L| / 2 ^ 50 := by
  have s : (0 : ℝ) < 2 ^ e := by positivity
  obtain ⟨a, ha⟩ : ∃ a, a = ⌊|L| * 2 ^ e⌋₊ := ⟨_, rfl⟩
  have a1 : (a : ℝ) ≤ |L| * 2 ^ e := by rw [ha]; exact Nat.floor_le (by positivity)
  have a2 : |L| * 2 ^ e < a + 1 := by rw [ha]; exact Nat.lt_floor_add_one _
  have hle : a ≤ 2 ^ (20 + e) * 1 := by
    have : (a : ℝ) ≤ 2 ^ 20 * 2 ^ e := a1.trans (mul_le_mul_of_nonneg_right h1 s.le)
    rw [← pow_add] at this
    rw [Nat.mul_one]
    exact_mod_cast this
  have hr := rndNat_le a 1 (2 ^ (20 + e)) (by decide) (by have := short_small 1 (20 + e) (by decide); rwa [Nat.one_mul] at this) hle
  have hlim := lt_limit_of_le _ _ hr (by omega)
  have hs := short_rndNat a 1 (by decide)
  have her := rndNat_error a 1 (by decide)
  have herr : |(rndNat a 1 : ℝ) - a| ≤ a / 2 ^ 53 + 1 := by
    have p1 : (0 : ℝ) ≤ a / 2 ^ 53 := by positivity
    rw [abs_sub_comm]
    rcases her with h | ⟨h, -⟩
    · have h' : |(a : ℝ) - rndNat a 1 * (1 : ℕ)| * 2 ^ 53 ≤ a := by exact_mod_cast h
      rw [Nat.cast_one, mul_one, ← le_div_iff₀ (by positivity)] at h'
      linarith
    · have h' : |(a : ℝ) - rndNat a 1 * (1 : ℕ)| * 2 ≤ (1 : ℕ) := by exact_mod_cast h
      rw [Nat.cast_one, mul_one] at h'
      linarith
  generalize rndNat a 1 = q at *
  have hbig : (4 : ℝ) ≤ |L| * 2 ^ e / 2 ^ 52 := by
    rw [le_div_iff₀ (by positivity)]
    have e1 : e = 60 + (e - 60) := by omega
    have e2 : (2 : ℝ) ^ 60 ≤ 2 ^ (e - 60) := pow_le_pow_right₀ (by norm_num) (by omega)
    rw [e1, pow_add, ← mul_assoc]
    have : (1 : ℝ) ≤ |L| * 2 ^ 60 := by
      have := mul_le_mul_of_nonneg_right h0 (show (0 : ℝ) ≤ 2 ^ 60 by positivity)
      rwa [one_div, inv_mul_cancel₀ (by positivity)] at this
    have p60 : (0 : ℝ) < 2 ^ (e - 60) := by positivity
    nlinarith
  have hq : |(q : ℝ) / 2 ^ e - (|L|)| ≤ |L| / 2 ^ 50 := by
    rw [show (q : ℝ) / 2 ^ e - (|L|) = (q - (|L|) * 2 ^ e) / 2 ^ e by field_simp, abs_div, abs_of_pos s, div_le_iff₀ s,
      div_mul_eq_mul_div]
    generalize |L| * 2 ^ e = M at *
    rw [abs_le] at herr ⊢
    have : (a : ℝ) / 2 ^ 53 ≤ M / 2 ^ 53 := div_le_div_of_nonneg_right a1 (by positivity)
    constructor <;> norm_num at * <;> linarith
  by_cases hL : 0 ≤ L
  · refine ⟨.fin false q, trivial, ⟨hs, hlim⟩, ?_⟩
    rw [rv_pos q e he]
    rw [abs_of_nonneg hL] at hq ⊢
    exact hq
  · refine ⟨.fin true q, trivial, ⟨hs, hlim⟩, ?_⟩
    rw [rv_neg q e he]
    rw [abs_of_neg (not_le.1 hL)] at hq ⊢
    rwa [← abs_neg, show -(-((q : ℝ) / 2 ^ e) - L) = (q : ℝ) / 2 ^ e - -L by ring]

theorem log_range (e n : Nat) (he : 1074 = e) (hv : (F64.fin false n).Valid) (hn : 0 < n) :
    Real.log ((n : ℝ) / 2 ^ e) = 0 ∨ (1 / 2 ^ 60 ≤ |Real.log ((n : ℝ) / 2 ^ e)| ∧ |Real.log ((n : ℝ) / 2 ^ e)| ≤ 2 ^ 20) := by
  obtain ⟨hs, hlim⟩ := hv
  obtain ⟨l, hl⟩ : ∃ l, 2098 = l := ⟨_, rfl⟩
  rw [limit_eq l hl] at hlim
  obtain ⟨k, hk⟩ : ∃ k, 53 + k = e := ⟨1021, by omega⟩
  have hn' : (1 : ℝ) ≤ n := by exact_mod_cast hn
  have hlim' : (n : ℝ) ≤ 2 ^ l := by exact_mod_cast hlim.le
  have l2 : Real.log 2 ≤ 1 := by
    have := Real.log_le_sub_one_of_pos (show (0 : ℝ) < 2 by norm_num)
    linarith
  have l20 : 0 ≤ Real.log 2 := Real.log_nonneg (by norm_num)
  have hup : |Real.log ((n : ℝ) / 2 ^ e)| ≤ 2 ^ 20 := by
    rw [Real.log_div (by positivity) (by positivity), Real.log_pow]
    have b1 := Real.log_nonneg hn'
    have b2 := Real.log_le_log (by positivity) hlim'
    rw [Real.log_pow] at b2
    have b3 : (l : ℝ) * Real.log 2 ≤ l * 1 := mul_le_mul_of_nonneg_left l2 (by positivity)
    have b4 : (e : ℝ) * Real.log 2 ≤ e * 1 := mul_le_mul_of_nonneg_left l2 (by positivity)
    have b5 : (0 : ℝ) ≤ (e : ℝ) * Real.log 2 := by positivity
    have b6 : (l : ℝ) = 2098 := by rw [← hl]; norm_num
    have b7 : (e : ℝ) = 1074 := by rw [← he]; norm_num
    rw [b6] at b2 b3
    rw [b7] at b4 b5 ⊢
    rw [abs_le]
    constructor <;> norm_num <;> linarith
  have sp : (0 : ℝ) < 2 ^ e := by positivity
  rcases Nat.lt_trichotomy n (2 ^ e) with h | h | h
  · right
    refine ⟨?_, hup⟩
    have hg := hs.gap (m := 2 ^ 53 - 1) (k := k) (Or.inr (by decide))
    have h2 : (2 ^ 53 - 1 + 1) * 2 ^ k = 2 ^ e := by rw [← hk, pow_add]; rfl
    rw [h2] at hg
    have h3 : n + 2 ^ k ≤ 2 ^ 53 * 2 ^ k := by
      rcases hg with hg | hg
      · rw [Nat.sub_mul, Nat.one_mul] at hg
        have := Nat.le_mul_of_pos_left (2 ^ k) (show 0 < 2 ^ 53 by decide)
        omega
      · omega
    have h3' : (n : ℝ) + 2 ^ k ≤ 2 ^ 53 * 2 ^ k := by exact_mod_cast h3
    have h4 : (n : ℝ) / 2 ^ e ≤ 1 - 1 / 2 ^ 53 := by
      rw [div_le_iff₀ sp, ← hk, pow_add]
      have : (1 - 1 / 2 ^ 53 : ℝ) * (2 ^ 53 * 2 ^ k) = 2 ^ 53 * 2 ^ k - 2 ^ k := by field_simp
      rw [this]
      linarith
    have h5 := Real.log_le_sub_one_of_pos (show 0 < (n : ℝ) / 2 ^ e by positivity)
    have h6 : Real.log ((n : ℝ) / 2 ^ e) ≤ -(1 / 2 ^ 53) := by linarith
    rw [abs_of_nonpos (h6.trans (by norm_num))]
    norm_num at *
    linarith
  · left
    rw [h, Nat.cast_pow, Nat.cast_ofNat, div_self (by positivity), Real.log_one]
  · right
    refine ⟨?_, hup⟩
    have hk2 : 52 + (k + 1) = e := by omega
    have hg := hs.gap (m := 2 ^ 52) (k := k + 1) (Or.inr (by decide))
    have h2 : 2 ^ 52 * 2 ^ (k + 1) = 2 ^ e := by rw [← hk2, pow_add 2 52]
    rw [h2, Nat.add_mul, h2, Nat.one_mul] at hg
    have h3 : 2 ^ e + 2 ^ (k + 1) ≤ n := by omega
    have h3' : (2 : ℝ) ^ e + 2 ^ (k + 1) ≤ n := by exact_mod_cast h3
    have h4 : 1 + 1 / 2 ^ 52 ≤ (n : ℝ) / 2 ^ e := by
      rw [le_div_iff₀ sp, add_mul, one_mul]
      have : (1 / 2 ^ 52 : ℝ) * 2 ^ e = 2 ^ (k + 1) := by rw [← hk2, pow_add (2 : ℝ) 52]; field_simp
      rw [this]
      exact h3'
    have hx : 0 < (n : ℝ) / 2 ^ e := by positivity
    have h5 := Real.one_sub_inv_le_log_of_pos hx
    have h7 : ((n : ℝ) / 2 ^ e)⁻¹ ≤ (1 + 1 / 2 ^ 52)⁻¹ := inv_anti₀ (by positivity) h4
    have h6 : 1 / 2 ^ 53 ≤ Real.log ((n : ℝ) / 2 ^ e) := by
      have : (1 + 1 / 2 ^ 52 : ℝ)⁻¹ ≤ 1 - 1 / 2 ^ 53 := by norm_num
      linarith
    rw [abs_of_nonneg (le_trans (by positivity) h6)]
    norm_num at *
    linarith

/-- Non-vacuity of `LogOk`. -/
theorem logOk_exists : ∃ lib, LogOk lib := by
  obtain ⟨e, he⟩ : ∃ e, 1074 = e := ⟨_, rfl⟩
  have key : ∀ x : F64, x.IsFin → x.Valid → 0 < rv x →
      ∃ y : F64, y.IsFin ∧ y.Valid ∧ |rv y - Real.log (rv x)| ≤ |Real.log (rv x)| / 2 ^ 50 := by
    intro x hf hv hp
    obtain ⟨n, rfl⟩ := fin_of_pos x hf hp
    rw [rv_pos n e he] at hp ⊢
    have hn : 0 < n := by
      rcases Nat.eq_zero_or_pos n with rfl | h
      · simp at hp
      · exact h
    rcases log_range e n he hv hn with h | ⟨h, h'⟩
    · refine ⟨.fin false 0, trivial, ⟨short_zero, limit_pos⟩, ?_⟩
      rw [h, rv_pos 0 e he]
      simp
    · exact near_real e he _ h h'
  classical
  refine ⟨⟨id, fun x => if h : x.IsFin ∧ x.Valid ∧ 0 < rv x then (key x h.1 h.2.1 h.2.2).choose else .inf true⟩, ?_, ?_⟩
  · intro s
    have : ¬ ((F64.fin s 0).IsFin ∧ (F64.fin s 0).Valid ∧ 0 < rv (.fin s 0)) := by
      rintro ⟨-, -, h⟩
      cases s
      · rw [rv_pos 0 e he] at h; simp at h
      · rw [rv_neg 0 e he] at h; simp at h
    exact dif_neg this
  · intro x h1 h2 h3
    have : (if h : x.IsFin ∧ x.Valid ∧ 0 < rv x then (key x h.1 h.2.1 h.2.2).choose else F64.inf true) =
      (key x h1 h2 h3).choose := dif_pos ⟨h1, h2, h3⟩
    simp only [this]
    exact (key x h1 h2 h3).choose_spec

/-- Non-vacuity of C41: a word that leads to the tail, and rates that satisfy the hypotheses. -/
example : zlayer 0x001fffffffffffff#64 = 0 ∧ (expoK[0]).toNat ≤ (zoffset false 0x001fffffffffffff#64).natAbs := by decide +kernel
example : PosRate (.fin false (3 * 2 ^ 1074)) ∧ 1 / 2 ^ 1000 ≤ rv (.fin false (3 * 2 ^ 1074)) := by
  obtain ⟨e, he⟩ : ∃ e, 1074 = e := ⟨_, rfl⟩
  rw [he]
  have h3 : rv (.fin false (3 * 2 ^ e)) = 3 := by
    rw [rv_pos _ e he, Nat.cast_mul, Nat.cast_pow, Nat.cast_ofNat, Nat.cast_ofNat]
    field_simp
  refine ⟨⟨trivial, by rw [h3]; norm_num, valid_scaled false 3 e (by decide) (by omega)⟩, ?_⟩
  rw [h3]
  have : (1 : ℝ) / 2 ^ 1000 ≤ 1 := by
    rw [div_le_one (by positivity)]
    exact one_le_pow₀ (by norm_num)
  linarith

end Crazy
