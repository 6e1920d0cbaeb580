/-
C70: `Exponential` has the exponential distribution.
-/
import Verif.Proofs.ExpoDist
import Mathlib.Analysis.Complex.ExponentialBounds
set_option exponentiation.threshold 2200
set_option maxRecDepth 4000
namespace Crazy
open Set

theorem exp_49 : Real.exp (-49) ≤ 1 / 2 ^ 49 := by
  have h : (2 : ℝ) ≤ Real.exp 1 := by have := Real.add_one_le_exp (1 : ℝ); linarith
  have h2 : (2 : ℝ) ^ 49 ≤ Real.exp 49 := by
    have : Real.exp 49 = Real.exp 1 ^ 49 := by rw [← Real.exp_nat_mul]; norm_num
    rw [this]
    exact pow_le_pow_left₀ (by norm_num) h 49
  rw [Real.exp_neg, one_div]
  exact inv_anti₀ (by norm_num) h2

theorem exp_close (T a : ℝ) (hT0 : 0 ≤ T) (ha : 0 ≤ a) (h1 : min ((a - 1 / 2 ^ 100) / (1 + 1 / 2 ^ 53)) 100 - 1 / 2 ^ 100 ≤ T)
    (h2 : T ≤ (a + 1 / 2 ^ 100) / (1 - 1 / 2 ^ 53)) : |Real.exp (-T) - Real.exp (-a)| ≤ 1 / 2 ^ 46 := by
  have hd : (0 : ℝ) < 1 + 1 / 2 ^ 53 := by norm_num
  rcases le_total a 50 with h | h
  · have u : T ≤ a + 1 / 2 ^ 47 := by
      refine h2.trans ?_
      rw [div_le_iff₀ (by norm_num)]
      norm_num
      linarith
    have l : a - 1 / 2 ^ 47 ≤ T := by
      refine le_trans ?_ h1
      rw [le_sub_iff_add_le]
      refine le_min ?_ (by norm_num; linarith)
      rw [le_div_iff₀ hd]
      norm_num
      linarith
    have e1 : Real.exp (-a) ≤ 1 := Real.exp_le_one_iff.mpr (by linarith)
    have hl := min_exp_lip T a
    have hT : |T - a| ≤ 1 / 2 ^ 47 := abs_le.mpr ⟨by linarith, by linarith⟩
    rw [min_eq_left e1] at hl
    have e2 := Real.exp_pos (-a)
    rw [min_eq_left (Real.exp_le_one_iff.mpr (by linarith))] at hl
    refine hl.trans (hT.trans ?_)
    norm_num
  · have l : 49 ≤ T := by
      refine le_trans ?_ h1
      rw [le_sub_iff_add_le]
      refine le_min ?_ (by norm_num)
      rw [le_div_iff₀ hd]
      norm_num
      linarith
    have e1 : Real.exp (-T) ≤ Real.exp (-49) := Real.exp_le_exp.mpr (by linarith)
    have e2 : Real.exp (-a) ≤ Real.exp (-49) := Real.exp_le_exp.mpr (by linarith)
    have e3 := exp_49
    have e4 : (1 : ℝ) / 2 ^ 49 ≤ 1 / 2 ^ 46 := by norm_num
    have p1 := Real.exp_pos (-T)
    have p2 := Real.exp_pos (-a)
    rw [abs_le]
    constructor <;> linarith

/-- Dividing by the rate: the outcomes that are at most `t` after the division are those up to about `rate * t`. -/
theorem div_cut (rate : F64) (hrate : PosRate rate) (h1 : 1 / 2 ^ 900 ≤ rv rate) (h2 : rv rate ≤ 2 ^ 900) (t : ℝ) (ht : 0 ≤ t) :
    ∃ T, 0 ≤ T ∧ Cut T (fun x => AtMost t (F64.div x rate)) ∧
      |Real.exp (-T) - Real.exp (-(rv rate * t))| ≤ 1 / 2 ^ 46 := by
  obtain ⟨e, he⟩ : ∃ e, 1074 = e := ⟨_, rfl⟩
  obtain ⟨k, hk⟩ : ∃ k, 900 = k := ⟨_, rfl⟩
  rw [hk] at h1 h2
  obtain ⟨d, rfl⟩ := fin_of_pos rate hrate.1 hrate.2.1
  have hone : F64.one = 2 ^ e := by rw [← he]; rfl
  have s0 : (0 : ℝ) < 2 ^ e := by positivity
  obtain ⟨r, hr⟩ : ∃ r, rv (.fin false d) = r := ⟨_, rfl⟩
  have hrd : r = (d : ℝ) / 2 ^ e := by rw [← hr, rv_pos d e he]
  have hr0 : 0 < r := by rw [← hr]; exact hrate.2.1
  rw [hr] at h1 h2 ⊢
  have hd0 : 0 < d := by
    rcases Nat.eq_zero_or_pos d with rfl | h
    · rw [hrd] at hr0; simp at hr0
    · exact h
  have hdiv : ∀ n, F64.div (.fin false n) (.fin false d) = F64.rnd false (n * 2 ^ e) d := fun n => by
    rw [← hone]; exact if_neg (by omega)
  obtain ⟨l, hl⟩ : ∃ l, 2098 = l := ⟨_, rfl⟩
  have hlim := F64.limit_eq l hl
  -- what the division says
  have hS : ∀ n, AtMost t (F64.div (.fin false n) (.fin false d)) ↔
      F64.rndNat (n * 2 ^ e) d < 2 ^ l ∧ ((F64.rndNat (n * 2 ^ e) d : Nat) : ℝ) / 2 ^ e ≤ t := by
    intro n
    rw [hdiv, F64.rnd, hlim]
    by_cases h : F64.rndNat (n * 2 ^ e) d < 2 ^ l
    · rw [if_pos h]
      constructor
      · rintro (h' | ⟨-, h'⟩)
        · cases h'
        · rw [rv_pos _ e he] at h'; exact ⟨h, h'⟩
      · rintro ⟨-, h'⟩
        exact Or.inr ⟨trivial, by rw [rv_pos _ e he]; exact h'⟩
    · rw [if_neg h]
      constructor
      · rintro (h' | ⟨h', -⟩)
        · cases h'
        · exact h'.elim
      · rintro ⟨h', -⟩; exact absurd h' h
  have herr : ∀ n : Nat, |(n : ℝ) / 2 ^ e - ((F64.rndNat (n * 2 ^ e) d : Nat) : ℝ) / 2 ^ e * r| ≤ (n : ℝ) / 2 ^ e / 2 ^ 53 + 1 / 2 ^ 100 := by
    intro n
    have her := F64.rndNat_error (n * 2 ^ e) d hd0
    generalize F64.rndNat (n * 2 ^ e) d = q at *
    have e1 : (n : ℝ) / 2 ^ e - (q : ℝ) / 2 ^ e * r = ((n : ℝ) * 2 ^ e - q * d) / (2 ^ e * 2 ^ e) := by
      rw [hrd]; field_simp
    have n0 : (0 : ℝ) ≤ (n : ℝ) / 2 ^ e / 2 ^ 53 := by positivity
    rw [e1, abs_div, abs_of_pos (show (0 : ℝ) < 2 ^ e * 2 ^ e by positivity), div_le_iff₀ (by positivity)]
    rcases her with h | ⟨h, -⟩
    · have h' : |(n : ℝ) * 2 ^ e - q * d| * 2 ^ 53 ≤ n * 2 ^ e := by exact_mod_cast h
      rw [← le_div_iff₀ (by norm_num)] at h'
      refine h'.trans ?_
      have : (n : ℝ) * 2 ^ e / 2 ^ 53 = (n : ℝ) / 2 ^ e / 2 ^ 53 * (2 ^ e * 2 ^ e) := by field_simp
      rw [this]
      refine mul_le_mul_of_nonneg_right ?_ (by positivity)
      have : (0 : ℝ) ≤ 1 / 2 ^ 100 := by positivity
      linarith
    · have h' : |(n : ℝ) * 2 ^ e - q * d| * 2 ≤ d := by exact_mod_cast h
      have hd : (d : ℝ) = r * 2 ^ e := by rw [hrd]; field_simp
      have hek : (2 : ℝ) ^ k * 2 ^ 100 ≤ 2 ^ e := by rw [← pow_add]; exact pow_le_pow_right₀ (by norm_num) (by omega)
      have hre : r ≤ 1 / 2 ^ 100 * 2 ^ e := by
        rw [div_mul_eq_mul_div, one_mul, le_div_iff₀ (by positivity)]
        exact (mul_le_mul_of_nonneg_right h2 (by positivity)).trans hek
      have h3 : (d : ℝ) ≤ 1 / 2 ^ 100 * 2 ^ e * 2 ^ e := by rw [hd]; exact mul_le_mul_of_nonneg_right hre s0.le
      have h4 : 0 ≤ |(n : ℝ) * 2 ^ e - q * d| := abs_nonneg _
      have h5 : (0 : ℝ) ≤ (n : ℝ) / 2 ^ e / 2 ^ 53 * (2 ^ e * 2 ^ e) := by positivity
      rw [add_mul, ← mul_assoc (1 / 2 ^ 100 : ℝ)]
      linarith
  have hmono : ∀ n n', n ≤ n' → AtMost t (F64.div (.fin false n') (.fin false d)) → AtMost t (F64.div (.fin false n) (.fin false d)) := by
    intro n n' h
    rw [hS, hS]
    rintro ⟨a, b⟩
    have := F64.rndNat_mono (n * 2 ^ e) (n' * 2 ^ e) d hd0 (Nat.mul_le_mul_right _ h)
    refine ⟨lt_of_le_of_lt this a, le_trans ?_ b⟩
    exact div_le_div_of_nonneg_right (Nat.cast_le.mpr this) s0.le
  -- the set of real numbers up to the threshold
  obtain ⟨Q, hQdef⟩ : ∃ Q : ℝ → Prop, ∀ y, Q y ↔ ∃ n : Nat, y ≤ (n : ℝ) / 2 ^ e ∧ AtMost t (F64.div (.fin false n) (.fin false d)) :=
    ⟨_, fun y => Iff.rfl⟩
  have h53 : (0 : ℝ) < 1 - 1 / 2 ^ 53 := by norm_num
  have hup : ∀ y, Q y → y ≤ (r * t + 1 / 2 ^ 100) / (1 - 1 / 2 ^ 53) := by
    intro y hy
    obtain ⟨n, n1, n2⟩ := (hQdef y).mp hy
    refine n1.trans ?_
    rw [le_div_iff₀ h53]
    have a1 := (abs_le.mp (herr n)).2
    have a2 := mul_le_mul_of_nonneg_right ((hS n).mp n2).2 hr0.le
    rw [mul_sub, mul_one, mul_one_div]
    linarith
  have hzero : Q 0 := (hQdef 0).mpr ⟨0, by simp, (hS 0).mpr (by
    have : F64.rndNat (0 * 2 ^ e) d = 0 := by
      have := F64.rndNat_exact 0 d hd0 F64.short_zero
      rwa [Nat.zero_mul] at this ⊢
    rw [this, Nat.cast_zero, zero_div]
    exact ⟨Nat.two_pow_pos l, ht⟩)⟩
  have hne : {y | Q y}.Nonempty := ⟨0, hzero⟩
  have hbdd : BddAbove {y | Q y} := ⟨_, fun y hy => hup y hy⟩
  obtain ⟨T, hTdef⟩ : ∃ T, T = sSup {y | Q y} := ⟨_, rfl⟩
  have hT0 : 0 ≤ T := by rw [hTdef]; exact le_csSup hbdd hzero
  have hTup : T ≤ (r * t + 1 / 2 ^ 100) / (1 - 1 / 2 ^ 53) := by rw [hTdef]; exact csSup_le hne hup
  have hQT : Upto T Q := by
    refine ⟨fun x hx => ?_, fun x hx hq => ?_⟩
    · rw [hTdef] at hx
      obtain ⟨y, hy, hxy⟩ := exists_lt_of_lt_csSup hne hx
      obtain ⟨n, n1, n2⟩ := (hQdef y).mp hy
      exact (hQdef x).mpr ⟨n, hxy.le.trans n1, n2⟩
    · rw [hTdef] at hx
      exact absurd (le_csSup hbdd hq) (not_le.mpr hx)
  have hTlo : min ((r * t - 1 / 2 ^ 100) / (1 + 1 / 2 ^ 53)) 100 - 1 / 2 ^ 100 ≤ T := by
    by_contra hc
    rw [not_le] at hc
    obtain ⟨y0, hy0⟩ : ∃ y0, y0 = min ((r * t - 1 / 2 ^ 100) / (1 + 1 / 2 ^ 53)) 100 := ⟨_, rfl⟩
    rw [← hy0] at hc
    have hy0p : 0 < y0 := by
      have : (0 : ℝ) < 1 / 2 ^ 100 := by positivity
      linarith
    obtain ⟨n, hn⟩ : ∃ n, ⌈y0 * 2 ^ e⌉₊ = n + 1 := ⟨⌈y0 * 2 ^ e⌉₊ - 1, by
      have : 0 < ⌈y0 * 2 ^ e⌉₊ := Nat.ceil_pos.mpr (by positivity)
      omega⟩
    have n1 : (n : ℝ) < y0 * 2 ^ e := by
      rw [← Nat.lt_ceil, hn]; omega
    have n2 : y0 * 2 ^ e ≤ n + 1 := by
      have := Nat.le_ceil (y0 * 2 ^ e)
      rw [hn] at this
      exact_mod_cast this
    have n3 : (n : ℝ) / 2 ^ e < y0 := by rwa [div_lt_iff₀ s0]
    have hA : AtMost t (F64.div (.fin false n) (.fin false d)) := by
      rw [hS]
      have a1 := (abs_le.mp (herr n)).1
      have hp53 : (0 : ℝ) < 1 + 1 / 2 ^ 53 := by positivity
      have hx0 : 0 ≤ (n : ℝ) / 2 ^ e := by positivity
      have b1 : (n : ℝ) / 2 ^ e ≤ (r * t - 1 / 2 ^ 100) / (1 + 1 / 2 ^ 53) := n3.le.trans (by rw [hy0]; exact min_le_left _ _)
      have b2 : (n : ℝ) / 2 ^ e ≤ 100 := n3.le.trans (by rw [hy0]; exact min_le_right _ _)
      rw [le_div_iff₀ hp53, mul_add, mul_one, mul_one_div] at b1
      generalize F64.rndNat (n * 2 ^ e) d = q at *
      constructor
      · by_contra hq
        rw [not_lt] at hq
        have q1 : (2 : ℝ) ^ l ≤ q := by exact_mod_cast hq
        have q2 : (2 : ℝ) ^ (10 + k) ≤ (q : ℝ) / 2 ^ e := by
          rw [le_div_iff₀ s0, ← pow_add]
          exact (pow_le_pow_right₀ (by norm_num) (by omega)).trans q1
        have q3 : (2 : ℝ) ^ (10 + k) * (1 / 2 ^ k) ≤ (q : ℝ) / 2 ^ e * r := mul_le_mul q2 h1 (by positivity) (by positivity)
        rw [pow_add, mul_assoc, mul_one_div_cancel (by positivity), mul_one] at q3
        have q4 : (n : ℝ) / 2 ^ e / 2 ^ 53 ≤ 100 / 2 ^ 53 := div_le_div_of_nonneg_right b2 (by positivity)
        have q5 : (100 : ℝ) + 100 / 2 ^ 53 + 1 / 2 ^ 100 < 2 ^ 10 := by norm_num
        linarith
      · have : (q : ℝ) / 2 ^ e * r ≤ t * r := by linarith
        exact le_of_mul_le_mul_right this hr0
    have hQn : Q ((n : ℝ) / 2 ^ e) := (hQdef _).mpr ⟨n, le_rfl, hA⟩
    have := hQT.le hQn
    have n4 : y0 ≤ (n : ℝ) / 2 ^ e + 1 / 2 ^ 100 := by
      have : (1 : ℝ) / 2 ^ e ≤ 1 / 2 ^ 100 := one_div_le_one_div_of_le (by positivity) (pow_le_pow_right₀ (by norm_num) (by omega))
      have : y0 ≤ ((n : ℝ) + 1) / 2 ^ e := by rwa [le_div_iff₀ s0]
      rw [add_div] at this
      linarith
    linarith
  refine ⟨T, hT0, ⟨⟨Q, hQT, fun n => ?_⟩, ?_⟩, ?_⟩
  · rw [hQdef, rv_pos n e he]
    constructor
    · exact fun h => ⟨n, le_rfl, h⟩
    · rintro ⟨n', h3, h4⟩
      refine hmono n n' ?_ h4
      rw [div_le_div_iff_of_pos_right s0] at h3
      exact_mod_cast h3
  · rintro (h | ⟨h, -⟩)
    · cases h
    · exact h
  · -- the threshold is close to `r * t`
    exact exp_close T (r * t) hT0 (mul_nonneg hr0.le ht) hTlo hTup

/-- `Exponential.Next` divides what the ziggurat draws by the rate. -/
theorem exponential_event (lib : MathLib) (fused : Bool) (rate : F64) (P : F64 → Prop) (n : Nat) (w : List U64) :
    (∃ r rest, exponential lib fused rate tape n w = .ok (r, rest) ∧ P r) ↔
      ∃ r rest, (expoZig lib).genNext fused tape n w = .ok (r, rest) ∧ P (F64.div r rate) := by
  unfold exponential
  cases hg : (expoZig lib).genNext fused tape n w with
  | error p =>
    simp only [bind, Except.bind]
    constructor
    · rintro ⟨r, rest, h, -⟩; exact absurd h (err_ne_ok _ _)
    · rintro ⟨r, rest, h, -⟩; exact absurd h (err_ne_ok _ _)
  | ok v =>
    obtain ⟨x, s1⟩ := v
    simp only [bind, Except.bind, pure, Except.pure]
    exact (ok_and _ _).trans (ok_and (S := fun r => P (F64.div r rate)) _ _).symm

/-- C70: for every rate between `2^-900` and `2^900`, every `t ≥ 0` and every `n`: of all `(2^64)^(2n)` sequences of `2n` words,
the share of those from which `Exponential.Next` draws, within `n` rounds, a value that is at most `t`, is `1 - e^(-rate t)`, up to
`2^-31 + 256^-n`. -/
theorem C70_exponential (lib : MathLib) (hl : LogOk lib) (he : ExpOk lib) (fused : Bool) (rate : F64) (hrate : PosRate rate)
    (h1 : 1 / 2 ^ 900 ≤ rv rate) (h2 : rv rate ≤ 2 ^ 900) (t : ℝ) (ht : 0 ≤ t) (n : Nat) :
    |prob (2 * n) (fun w => ∃ r rest, exponential lib fused rate tape n w = .ok (r, rest) ∧ AtMost t r) -
      (1 - Real.exp (-(rv rate * t)))| ≤ 1 / 2 ^ 31 + (1 / 256) ^ n := by
  obtain ⟨T, hT, hcut, hclose⟩ := div_cut rate hrate h1 h2 t ht
  have hg := expo_gives lib hl he fused T hT _ hcut n
  have e : prob (2 * n) (fun w => ∃ r rest, exponential lib fused rate tape n w = .ok (r, rest) ∧ AtMost t r) =
      gives (expoZig lib) fused (fun x => AtMost t (F64.div x rate)) n :=
    prob_congr fun w _ => exponential_event lib fused rate (AtMost t) n w
  rw [e]
  have hk : (17 : ℝ) / 8 * (1 / 2 ^ 33 + 1 / 2 ^ 40) + 1 / 2 ^ 46 ≤ 1 / 2 ^ 31 := by norm_num
  rw [abs_le] at hg hclose ⊢
  constructor <;> linarith [hg.1, hg.2, hclose.1, hclose.2]

/-- C70: it never draws a value that is at most a negative number. -/
theorem C70_negative (lib : MathLib) (hl : LogOk lib) (fused : Bool) (rate : F64) (hrate : PosRate rate) (t : ℝ) (ht : t < 0) (n : Nat) :
    prob (2 * n) (fun w => ∃ r rest, exponential lib fused rate tape n w = .ok (r, rest) ∧ AtMost t r) = 0 := by
  rw [← prob_false (2 * n)]
  refine prob_congr fun w _ => ⟨?_, False.elim⟩
  rintro ⟨r, rest, h, ha⟩
  rcases C41_nonneg lib hl fused rate hrate tape n w rest r h with ⟨f, h0⟩ | rfl
  · rcases ha with rfl | ⟨-, h3⟩
    · exact f
    · linarith
  · rcases ha with h3 | ⟨h3, -⟩
    · cases h3
    · exact h3

/-- The probability that the ziggurat of the exponential distribution has not returned after `n` rounds. -/
theorem expo_returns (lib : MathLib) (he : ExpOk lib) (fused : Bool) (n : Nat) :
    0 ≤ 1 - gives (expoZig lib) fused (fun _ => True) n ∧ 1 - gives (expoZig lib) fused (fun _ => True) n ≤ (1 / 256) ^ n := by
  have hz := expo_ok lib he fused
  have ho : Side (fun j => 0 ≤ j) (fun l => (l : Int)) := side_up fun j h => h
  have hall := hz.side_all ho
  have hta := hz.tail_area ho
  have hV := zigV_pos C40_expo
  change |zv expoW expoF * _ - ∫ s in (0 : ℝ)..zx expoW 1023, Real.exp (-s)| ≤ _ at hall
  change |zv expoW expoF * _ - ∫ s in Ioi (zx expoW 1023), Real.exp (-s)| ≤ _ at hta
  rw [integral_exp_upto] at hall
  rw [integral_exp_neg_Ioi] at hta
  have hle := sideSum_le (expoZig lib) fused (fun l => (l : Int))
  obtain ⟨B, hB⟩ : ∃ B, B = sideSum (expoZig lib) fused (fun l => (l : Int)) (fun _ => True) + tailShare (expoZig lib) (fun l => (l : Int)) :=
    ⟨_, rfl⟩
  have hVB : 1 - (1 / 2 ^ 33 + 1 / 2 ^ 41) ≤ zv expoW expoF * B := by
    rw [hB, mul_add]
    rw [abs_le] at hall hta
    linarith [hall.1, hta.1]
  have hρ : 1 - B / 1024 ≤ 1 / 256 := by
    have h1 := expo_V
    have h2 : zv expoW expoF * (1024 * (1 - 1 / 256)) ≤ zv expoW expoF * B := by
      have : (1 : ℝ) - 1 / 4096 ≤ 1 - (1 / 2 ^ 33 + 1 / 2 ^ 41) := by norm_num
      linarith
    have := le_of_mul_le_mul_left h2 hV
    linarith
  rw [← hB] at hle
  have hρ0 : 0 ≤ 1 - B / 1024 := by linarith
  have htail : ∀ n, tailGives (expoZig lib) (fun _ => True) n = 1 := by
    intro n
    rw [tail_expo, avg_congr fun m _ => ind_true trivial, avg_const (by positivity)]
  induction n with
  | zero => rw [gives_zero]; norm_num
  | succ n ih =>
    have e : gives (expoZig lib) fused (fun _ => True) (n + 1) =
        (B + (1024 - B) * gives (expoZig lib) fused (fun _ => True) n) / 1024 := by
      rw [gives_succ_plain _ rfl, round_side (expoZig lib) fused (fun l => (l : Int)) (fun _ => True) (fun _ => True) n 1
        (fun _ _ _ _ => Iff.rfl) (fun _ => htail n), mul_one, ← hB]
    have e2 : 1 - gives (expoZig lib) fused (fun _ => True) (n + 1) =
        (1 - B / 1024) * (1 - gives (expoZig lib) fused (fun _ => True) n) := by rw [e]; ring
    rw [e2, pow_succ']
    exact ⟨mul_nonneg hρ0 ih.1, mul_le_mul hρ ih.2 ih.1 (by norm_num)⟩

/-- C70: of all sequences of `2n` words, the share of those on which `Exponential.Next` returns within `n` rounds is at least
`1 - 256^-n`. -/
theorem C70_returns (lib : MathLib) (he : ExpOk lib) (fused : Bool) (rate : F64) (n : Nat) :
    1 - (1 / 256) ^ n ≤ prob (2 * n) (fun w => ∃ r rest, exponential lib fused rate tape n w = .ok (r, rest)) := by
  have e : prob (2 * n) (fun w => ∃ r rest, exponential lib fused rate tape n w = .ok (r, rest)) =
      gives (expoZig lib) fused (fun _ => True) n := by
    refine prob_congr fun w _ => ?_
    have := exponential_event lib fused rate (fun _ => True) n w
    simpa only [and_true] using this
  rw [e]
  linarith [(expo_returns lib he fused n).2]

/-! ### Non-vacuity -/

theorem exp_32 : 1 / 2 ^ 60 ≤ Real.exp (-32) := by
  have h : Real.exp 1 ≤ 3 := by exact Real.exp_one_lt_three.le
  have h2 : Real.exp 32 ≤ 2 ^ 60 := by
    have : Real.exp 32 = Real.exp 1 ^ 32 := by rw [← Real.exp_nat_mul]; norm_num
    rw [this]
    exact (pow_le_pow_left₀ (Real.exp_pos 1).le h 32).trans (by norm_num)
  rw [Real.exp_neg, one_div]
  exact inv_anti₀ (Real.exp_pos _) h2

/-- There are functions as accurate as `LogOk` and `ExpOk` ask for. -/
theorem mathLib_exists : ∃ lib, LogOk lib ∧ ExpOk lib := by
  classical
  obtain ⟨lib, h⟩ := logOk_exists
  have key : ∀ x : F64, ∃ y : F64, -32 ≤ rv x → rv x ≤ 0 → y.IsFin ∧ |rv y - Real.exp (rv x)| ≤ Real.exp (rv x) / 2 ^ 50 := by
    intro x
    by_cases hx : -32 ≤ rv x ∧ rv x ≤ 0
    · have e0 := Real.exp_pos (rv x)
      have e1 : Real.exp (rv x) ≤ 1 := Real.exp_le_one_iff.mpr hx.2
      have e2 : Real.exp (-32) ≤ Real.exp (rv x) := Real.exp_le_exp.mpr hx.1
      obtain ⟨y, y1, -, y3⟩ := near_real 1074 rfl (Real.exp (rv x)) (by rw [abs_of_pos e0]; exact exp_32.trans e2)
        (by rw [abs_of_pos e0]; exact e1.trans (by norm_num))
      rw [abs_of_pos e0] at y3
      exact ⟨y, fun _ _ => ⟨y1, y3⟩⟩
    · exact ⟨x, fun h1 h2 => absurd ⟨h1, h2⟩ hx⟩
  choose g hg using key
  exact ⟨⟨g, lib.log⟩, ⟨h.zero, h.pos⟩, fun x _ _ h1 h2 => hg x h1 h2⟩

theorem rate_one : PosRate (F64.ofNat 1) ∧ rv (F64.ofNat 1) = 1 := by
  obtain ⟨e, he⟩ : ∃ e, 1074 = e := ⟨_, rfl⟩
  have hone : F64.one = 2 ^ e := by rw [← he]; rfl
  have h1 : rv (F64.ofNat 1) = 1 := by
    rw [ofNat_one_eq, rv_pos _ e he, hone, Nat.cast_pow, Nat.cast_ofNat, div_self (by positivity)]
  refine ⟨⟨?_, ?_, ?_⟩, h1⟩
  · rw [ofNat_one_eq]; trivial
  · rw [h1]; exact zero_lt_one
  · unfold F64.ofNat; exact F64.valid_rnd _ _ _ Nat.one_pos

/-- The hypotheses of `C70_exponential` are met by the rate 1; with 4 rounds, the share of the draws that are at most `log 2`, the
median, is 1/2 up to `2^-30`. -/
example : ∃ lib, |prob (2 * 4) (fun w => ∃ r rest, exponential lib false (F64.ofNat 1) tape 4 w = .ok (r, rest) ∧ AtMost (Real.log 2) r) -
    1 / 2| ≤ 1 / 2 ^ 30 := by
  obtain ⟨lib, hl, he⟩ := mathLib_exists
  refine ⟨lib, ?_⟩
  have h := C70_exponential lib hl he false (F64.ofNat 1) rate_one.1 (by rw [rate_one.2]; norm_num) (by rw [rate_one.2]; norm_num)
    (Real.log 2) (Real.log_nonneg (by norm_num)) 4
  rw [rate_one.2, one_mul, Real.exp_neg, Real.exp_log (by norm_num)] at h
  have h2 : (1 : ℝ) / 2 ^ 31 + (1 / 256) ^ 4 ≤ 1 / 2 ^ 30 := by norm_num
  have h3 : (1 : ℝ) - 2⁻¹ = 1 / 2 := by norm_num
  rw [h3] at h
  exact h.trans h2

end Crazy
