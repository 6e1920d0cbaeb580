/-
C91: the distributions with parameters that are zero, negative, infinite or NaN.
-/
import Verif.Props.ZigCount
import Verif.Proofs.FloatNear
import Mathlib.Tactic.ByContra
set_option exponentiation.threshold 2200
namespace Crazy
open F64

variable {σ : Type}

/-! ### Arithmetic -/

theorem sint_zero (a : Bool) : sint a 0 = 0 := by cases a <;> rfl

theorem val_zero (a : Bool) : (F64.fin a 0).val = 0 := by
  unfold F64.val
  simp

theorem rndInt_val (z c : Bool) (l b : Nat) (hb : 0 < b) (h : (fin c l).Valid) :
    (rndInt z (sint c l * b) b).IsFin ∧ (rndInt z (sint c l * b) b).val = (fin c l).val := by
  by_cases hl : l = 0
  · subst hl
    unfold rndInt
    rw [if_pos (by rw [sint_zero, Int.zero_mul]), val_zero, val_zero]
    exact ⟨trivial, rfl⟩
  · have hne : sint c l * (b : Int) ≠ 0 := by
      refine mul_ne_zero ?_ (by omega)
      cases c <;> simp [sint] <;> omega
    have e : rndInt z (sint c l * b) b = rndInt c (sint c l * b) b := by
      unfold rndInt
      rw [if_neg hne, if_neg hne]
    rw [e, rndInt_exact c l b hb h]
    exact ⟨trivial, rfl⟩

theorem limit_pos : 0 < limit := by
  obtain ⟨e, he⟩ : ∃ e, 2098 = e := ⟨_, rfl⟩
  rw [limit_eq e he]
  exact Nat.two_pow_pos _

theorem rnd_zero (a : Bool) (b : Nat) : rnd a 0 b = fin a 0 := by
  by_cases hb : b = 0
  · subst hb
    unfold rnd
    have : rndNat 0 0 = 0 := by decide +kernel
    rw [this, if_pos (limit_pos)]
  · have := rnd_exact a 0 b (by omega) ⟨⟨0, 0, by decide, rfl⟩, limit_pos⟩
    rwa [Nat.zero_mul] at this

/-- A product that is zero, plus a number. -/
theorem mulAdd_of_zero (fused a b c : Bool) (n m l : Nat) (h0 : n * m = 0) (hz : (F64.fin c l).Valid) :
    (mulAdd fused (fin a n) (fin b m) (fin c l)).IsFin ∧ (mulAdd fused (fin a n) (fin b m) (fin c l)).val = (F64.fin c l).val := by
  cases fused
  · rw [mulAdd_false]
    simp only [F64.mul, h0, rnd_zero, F64.add]
    rw [sint_zero, Int.zero_add]
    have := rndInt_val ((a ^^ b) && c) c l 1 Nat.one_pos hz
    rwa [Nat.cast_one, Int.mul_one] at this
  · rw [mulAdd_true]
    simp only [F64.fma, h0]
    rw [sint_zero, Int.zero_add, sint_mul]
    exact rndInt_val _ c l _ one_pos hz

theorem mulAdd_nan (fused : Bool) (x y z : F64) (h : x = .nan ∨ y = .nan ∨ z = .nan) : mulAdd fused x y z = .nan := by
  have hadd : ∀ w : F64, F64.add w .nan = .nan := fun w => by cases w <;> rfl
  have hadd' : ∀ w : F64, F64.add .nan w = .nan := fun w => by cases w <;> rfl
  have hmul : F64.mul x y = .nan ∨ z = .nan := by
    rcases h with rfl | rfl | h
    · left; cases y <;> rfl
    · left; cases x <;> rfl
    · exact Or.inr h
  cases fused
  · rw [mulAdd_false]
    rcases hmul with h | h
    · rw [h, hadd']
    · rw [h, hadd]
  · rw [mulAdd_true]
    match x, y, z, h, hmul with
    | .fin _ _, .fin _ _, .nan, _, _ => rfl
    | .fin _ _, .fin _ _, .fin _ _, h, _ => rcases h with h | h | h <;> cases h
    | .fin _ _, .fin _ _, .inf _, h, _ => rcases h with h | h | h <;> cases h
    | .nan, y, z, _, _ => rw [F64.fma, show F64.mul .nan y = .nan by cases y <;> rfl, hadd'] <;> (intros; contradiction)
    | .inf a, y, z, _, hm =>
      rw [F64.fma]
      · rcases hm with h | h
        · rw [h, hadd']
        · rw [h, hadd]
      all_goals (intros; contradiction)
    | .fin a n, .nan, z, _, _ => rw [F64.fma, show F64.mul (.fin a n) .nan = .nan from rfl, hadd'] <;> (intros; contradiction)
    | .fin a n, .inf b, z, _, hm =>
      rw [F64.fma]
      · rcases hm with h | h
        · rw [h, hadd']
        · rw [h, hadd]
      all_goals (intros; contradiction)

/-- An infinite product plus a number. -/
theorem mulAdd_inf_right (fused a b : Bool) (n : Nat) (z : F64) (hz : z.IsFin) :
    mulAdd fused (fin a n) (inf b) z = if n = 0 then .nan else .inf (a ^^ b) := by
  have key : F64.add (F64.mul (fin a n) (inf b)) z = if n = 0 then .nan else .inf (a ^^ b) := by
    match z, hz with
    | .fin c l, _ =>
      simp only [F64.mul]
      split <;> simp only [F64.add]
  cases fused
  · rw [mulAdd_false, key]
  · rw [mulAdd_true, F64.fma, key] <;> (intros; contradiction)

theorem mulAdd_inf_left (fused a b : Bool) (m : Nat) (z : F64) (hz : z.IsFin) :
    mulAdd fused (inf a) (fin b m) z = if m = 0 then .nan else .inf (a ^^ b) := by
  have key : F64.add (F64.mul (inf a) (fin b m)) z = if m = 0 then .nan else .inf (a ^^ b) := by
    match z, hz with
    | .fin c l, _ =>
      simp only [F64.mul]
      split <;> simp only [F64.add]
  cases fused
  · rw [mulAdd_false, key]
  · rw [mulAdd_true, F64.fma, key] <;> (intros; contradiction)

theorem mulAdd_inf_inf (fused a b : Bool) (z : F64) (hz : z.IsFin) :
    mulAdd fused (inf a) (inf b) z = .inf (a ^^ b) := by
  have key : F64.add (F64.mul (inf a) (inf b)) z = .inf (a ^^ b) := by
    match z, hz with
    | .fin c l, _ => simp only [F64.mul, F64.add]
  cases fused
  · rw [mulAdd_false, key]
  · rw [mulAdd_true, F64.fma, key] <;> (intros; contradiction)

theorem mul_valid_not_nan (a b : Bool) (n m : Nat) : F64.mul (fin a n) (fin b m) ≠ .nan := by
  simp only [F64.mul]
  exact rnd_ne_nan _ _ _

/-- An infinite summand, if the product does not overflow. -/
theorem mulAdd_inf_add (fused a b c : Bool) (n m : Nat) (h : fused = true ∨ (F64.mul (fin a n) (fin b m)).IsFin) :
    mulAdd fused (fin a n) (fin b m) (inf c) = .inf c := by
  cases fused
  · rw [mulAdd_false]
    rcases h with h | h
    · cases h
    · match hx : F64.mul (fin a n) (fin b m), h with
      | .fin _ _, _ => rfl
  · rw [mulAdd_true]
    rfl

theorem neg_neg64 (x : F64) : F64.neg (F64.neg x) = x := by
  cases x <;> simp [F64.neg]

theorem rnd_neg (s : Bool) (a b : Nat) : rnd (!s) a b = F64.neg (rnd s a b) := by
  unfold rnd
  split <;> rfl

theorem div_neg (x y : F64) : F64.div x (F64.neg y) = F64.neg (F64.div x y) := by
  match x, y with
  | .nan, y => cases y <;> rfl
  | .inf a, .nan => rfl
  | .inf a, .inf b => rfl
  | .inf a, .fin b m => simp only [F64.neg, F64.div, Bool.xor_not]
  | .fin a n, .nan => rfl
  | .fin a n, .inf b => simp only [F64.neg, F64.div, Bool.xor_not]
  | .fin a n, .fin b m =>
    show (if m = 0 then if n = 0 then .nan else .inf (a ^^ !b) else rnd (a ^^ !b) (n * one) m) =
      F64.neg (if m = 0 then if n = 0 then .nan else .inf (a ^^ b) else rnd (a ^^ b) (n * one) m)
    rw [Bool.xor_not, rnd_neg]
    split
    · split <;> rfl
    · rfl

/-! ### `Exponential` -/

/-- C91, `Exponential`: let `x` be what the ziggurat draws (`Rate` does not enter there). A `Rate` NaN gives NaN; an infinite one
gives a zero of its sign (NaN if `x` is +Inf); a zero gives the infinity of its sign, but NaN if `x` is 0; and reversing the sign
of `Rate` reverses that of the result. -/
theorem C91_exponential (lib : MathLib) (hl : LogOk lib) (fused : Bool) (src : Source σ) (fuel : Nat) (s s' : σ) (x : F64)
    (h : (expoZig lib).genNext fused src fuel s = .ok (x, s')) :
    exponential lib fused .nan src fuel s = .ok (.nan, s') ∧
    (∀ b, exponential lib fused (.inf b) src fuel s = .ok (if x = .inf false then .nan else .fin b 0, s')) ∧
    (∀ b, exponential lib fused (.fin b 0) src fuel s = .ok (if x = .fin false 0 then .nan else .inf b, s')) ∧
    (∀ rate r, exponential lib fused rate src fuel s = .ok (r, s') ↔
      exponential lib fused (F64.neg rate) src fuel s = .ok (F64.neg r, s')) := by
  have e : ∀ rate, exponential lib fused rate src fuel s = .ok (F64.div x rate, s') := by
    intro rate
    unfold exponential
    simp only [h, bind, Except.bind, pure, Except.pure]
  simp only [e]
  have hx := expo_draw lib hl fused src 1074 rfl fuel s s' x h
  refine ⟨?_, fun b => ?_, fun b => ?_, fun rate r => ?_⟩
  · refine congrArg (fun v => Except.ok (v, s')) ?_
    cases x <;> rfl
  · refine congrArg (fun v => Except.ok (v, s')) ?_
    rcases hx with ⟨n, rfl, -⟩ | ⟨rfl, -⟩
    · rw [if_neg (by intro h; cases h)]
      simp only [F64.div, Bool.false_xor]
    · rw [if_pos rfl]; rfl
  · refine congrArg (fun v => Except.ok (v, s')) ?_
    rcases hx with ⟨n, rfl, -⟩ | ⟨rfl, -⟩
    · simp only [F64.div, Bool.false_xor, if_true]
      by_cases hn : n = 0
      · rw [if_pos hn, if_pos (by rw [hn])]
      · rw [if_neg hn, if_neg (by intro h; injection h with _ h; exact hn h)]
    · rw [if_neg (by intro h; cases h)]
      simp only [F64.div, Bool.false_xor]
  · rw [div_neg]
    simp only [Except.ok.injEq, Prod.mk.injEq, and_true]
    constructor
    · rintro rfl; rfl
    · intro h
      rw [← neg_neg64 (F64.div x rate), h, neg_neg64]

/-! ### `Normal` -/

/-- C91, `Normal`: let `x` be what the ziggurat draws. With a NaN parameter the result is NaN. With `StdDev` 0 (of either sign) and a
finite mean the result is the mean, unless `x` is infinite, which gives NaN. With an infinite `StdDev` and a finite mean it is
infinite, of the sign of the product, except that `x = 0` gives NaN. With an infinite mean and a finite `StdDev` of magnitude at most `2^900`
it is that mean, if `x` is finite. -/
theorem C91_normal (lib : MathLib) (hl : LogOk lib) (fused fused' : Bool) (src : Source σ) (fuel : Nat) (s s' : σ) (x : F64)
    (h : (normalZig lib).genNext fused src fuel s = .ok (x, s')) :
    (∀ mean stddev, mean = .nan ∨ stddev = .nan → normal lib fused fused' mean stddev src fuel s = .ok (.nan, s')) ∧
    (∀ mean b, mean.IsFin → mean.Valid →
      (x.IsFin → ∃ r, normal lib fused fused' mean (.fin b 0) src fuel s = .ok (r, s') ∧ r.IsFin ∧ r.val = mean.val) ∧
      (¬ x.IsFin → normal lib fused fused' mean (.fin b 0) src fuel s = .ok (.nan, s'))) ∧
    (∀ mean b, mean.IsFin →
      (x.val = 0 ∧ x.IsFin → normal lib fused fused' mean (.inf b) src fuel s = .ok (.nan, s')) ∧
      (0 < x.val ∨ x = .inf false → normal lib fused fused' mean (.inf b) src fuel s = .ok (.inf b, s')) ∧
      (x.val < 0 ∨ x = .inf true → normal lib fused fused' mean (.inf b) src fuel s = .ok (.inf !b, s'))) ∧
    (∀ c stddev, stddev.IsFin → |rv stddev| ≤ 2 ^ 900 → x.IsFin →
      normal lib fused fused' (.inf c) stddev src fuel s = .ok (.inf c, s')) := by
  have e : ∀ mean stddev, normal lib fused fused' mean stddev src fuel s = .ok (F64.mulAdd fused' x stddev mean, s') := by
    intro mean stddev
    unfold normal
    simp only [h, bind, Except.bind, pure, Except.pure]
  simp only [e]
  have hx := normal_draw lib hl fused src fuel s s' x h
  have hval : ∀ (a : Bool) (n : Nat), n ≠ 0 → (a = false → 0 < (F64.fin a n).val) ∧ (a = true → (F64.fin a n).val < 0) := by
    intro a n hn
    have h0 : (0 : ℚ) < n / 2 ^ 1074 := div_pos (by exact_mod_cast Nat.pos_of_ne_zero hn) (by positivity)
    constructor
    · rintro rfl
      show (0 : ℚ) < 1 * _
      rw [one_mul]; exact h0
    · rintro rfl
      show (-1 : ℚ) * _ < 0
      linarith
  refine ⟨fun mean stddev hm => ?_, fun mean b hm hv => ⟨fun hxf => ?_, fun hxf => ?_⟩,
    fun mean b hm => ⟨fun hxf => ?_, fun hxf => ?_, fun hxf => ?_⟩, fun c stddev hs hs1 hxf => ?_⟩
  · refine congrArg (fun v => Except.ok (v, s')) (mulAdd_nan _ _ _ _ ?_)
    rcases hm with rfl | rfl
    · exact Or.inr (Or.inr rfl)
    · exact Or.inr (Or.inl rfl)
  · match x, hxf, mean, hm, hv with
    | .fin a n, _, .fin c l, _, hv =>
      obtain ⟨h1, h2⟩ := mulAdd_of_zero fused' a b c n 0 l rfl hv
      exact ⟨_, rfl, h1, h2⟩
  · rcases hx with ⟨h1, -⟩ | ⟨a, rfl⟩
    · exact absurd h1 hxf
    · rw [mulAdd_inf_left _ _ _ _ _ hm, if_pos rfl]
  · match x, hxf with
    | .fin a n, ⟨h0, _⟩ =>
      have hn : n = 0 := by
        by_contra hn
        obtain ⟨h1, h2⟩ := hval a n hn
        cases a
        · linarith [h1 rfl]
        · linarith [h2 rfl]
      rw [mulAdd_inf_right _ _ _ _ _ hm, if_pos hn]
  · rcases hx with ⟨h1, -⟩ | ⟨a, rfl⟩
    · match x, h1 with
      | .fin a n, _ =>
        rcases hxf with h0 | h0
        · have hn : n ≠ 0 := by
            rintro rfl
            rw [val_zero] at h0
            exact lt_irrefl _ h0
          have ha : a = false := by
            cases a
            · rfl
            · exact absurd ((hval true n hn).2 rfl) (not_lt.2 h0.le)
          rw [mulAdd_inf_right _ _ _ _ _ hm, if_neg hn, ha, Bool.false_xor]
        · cases h0
    · have ha : a = false := by
        rcases hxf with h0 | h0
        · exact absurd h0 (lt_irrefl (0 : ℚ))
        · injection h0
      rw [ha, mulAdd_inf_inf _ _ _ _ hm, Bool.false_xor]
  · rcases hx with ⟨h1, -⟩ | ⟨a, rfl⟩
    · match x, h1 with
      | .fin a n, _ =>
        rcases hxf with h0 | h0
        · have hn : n ≠ 0 := by
            rintro rfl
            rw [val_zero] at h0
            exact lt_irrefl _ h0
          have ha : a = true := by
            cases a
            · exact absurd ((hval false n hn).1 rfl) (not_lt.2 h0.le)
            · rfl
          rw [mulAdd_inf_right _ _ _ _ _ hm, if_neg hn, ha, Bool.true_xor]
        · cases h0
    · have ha : a = true := by
        rcases hxf with h0 | h0
        · exact absurd h0 (lt_irrefl (0 : ℚ))
        · injection h0
      rw [ha, mulAdd_inf_inf _ _ _ _ hm, Bool.true_xor]
  · rcases hx with ⟨h1, -, h2⟩ | ⟨a, rfl⟩
    · match x, stddev, h1, hs, h2, hs1 with
      | .fin a n, .fin b m, h1, hs, h2, hs1 =>
        refine congrArg (fun v => Except.ok (v, s')) (mulAdd_inf_add _ _ _ _ _ _ (Or.inr ?_))
        refine (F64.mul_near _ _ h1 hs ?_).1
        obtain ⟨k, hk⟩ : ∃ k, 900 = k := ⟨_, rfl⟩
        obtain ⟨l, hl⟩ : ∃ l, 1000 = l := ⟨_, rfl⟩
        have hbig : (2 : ℝ) ^ k * 2 ^ 100 = 2 ^ l := by rw [← pow_add]; exact congrArg _ (by omega)
        have hk0 : (0 : ℝ) < 2 ^ k := by positivity
        rw [hk] at hs1
        rw [hl, ← hbig, abs_mul]
        refine (mul_le_mul h2 hs1 (abs_nonneg _) (by norm_num)).trans ?_
        nlinarith
    · exact absurd hxf id

/-! ### `Uniform` -/

/-- `y` is `-x`, or both are zeros. -/
def F64.Opposite (x y : F64) : Prop := y = F64.neg x ∨ ∃ a b, x = .fin a 0 ∧ y = .fin b 0

theorem rndInt_neg (c d : Bool) (z : Int) (b : Nat) : F64.Opposite (rndInt c z b) (rndInt d (-z) b) := by
  unfold rndInt
  by_cases hz : z = 0
  · subst hz
    exact Or.inr ⟨c, d, by rw [if_pos rfl], by rw [if_pos (by rfl)]⟩
  · left
    rw [if_neg hz, if_neg (by omega), ← rnd_neg, Int.natAbs_neg]
    congr 1
    by_cases h : z < 0
    · rw [decide_eq_false (by omega), decide_eq_true h]; rfl
    · rw [decide_eq_true (by omega), decide_eq_false h]; rfl

theorem sint_not (a : Bool) (n : Nat) : sint (!a) n = - sint a n := by
  cases a <;> simp [sint]

theorem add_neg (x y : F64) : F64.Opposite (F64.add x y) (F64.add (F64.neg x) (F64.neg y)) := by
  match x, y with
  | .nan, y => left; cases y <;> rfl
  | .inf a, .nan => exact Or.inl rfl
  | .inf a, .inf b => left; cases a <;> cases b <;> rfl
  | .inf a, .fin b m => exact Or.inl rfl
  | .fin a n, .nan => exact Or.inl rfl
  | .fin a n, .inf b => exact Or.inl rfl
  | .fin a n, .fin b m =>
    have := rndInt_neg (a && b) ((!a) && (!b)) (sint a n + sint b m) 1
    show F64.Opposite (rndInt (a && b) (sint a n + sint b m) 1) (rndInt ((!a) && (!b)) (sint (!a) n + sint (!b) m) 1)
    rw [sint_not, sint_not]
    rwa [Int.neg_add] at this

theorem mulAdd_neg (fused : Bool) (x y z : F64) :
    F64.Opposite (F64.mulAdd fused x y z) (F64.mulAdd fused (F64.neg x) y (F64.neg z)) := by
  cases fused
  · rw [mulAdd_false, mulAdd_false, mul_neg_left]
    exact add_neg _ _
  · rw [mulAdd_true, mulAdd_true]
    have gen : ∀ {x y : F64}, (∀ a n b m, ¬ (x = .fin a n ∧ y = .fin b m)) → ∀ z, F64.fma x y z = F64.add (F64.mul x y) z := by
      intro x y h z
      unfold F64.fma
      split
      · exact absurd ⟨rfl, rfl⟩ (h _ _ _ _)
      · exact absurd ⟨rfl, rfl⟩ (h _ _ _ _)
      · rfl
    by_cases hxy : ∃ a n b m, x = F64.fin a n ∧ y = F64.fin b m
    · obtain ⟨a, n, b, m, rfl, rfl⟩ := hxy
      match z with
      | .nan => exact Or.inl rfl
      | .inf c => exact Or.inl rfl
      | .fin c l =>
        have := rndInt_neg ((a ^^ b) && c) (((!a) ^^ b) && !c) (sint (a ^^ b) (n * m) + sint c (l * one)) one
        show F64.Opposite (rndInt ((a ^^ b) && c) (sint (a ^^ b) (n * m) + sint c (l * one)) one)
          (rndInt (((!a) ^^ b) && !c) (sint ((!a) ^^ b) (n * m) + sint (!c) (l * one)) one)
        rw [Bool.not_xor, sint_not, sint_not]
        rw [Int.neg_add, Bool.not_xor] at this
        exact this
    · have h1 : ∀ a n b m, ¬ (x = .fin a n ∧ y = .fin b m) := fun a n b m h => hxy ⟨a, n, b, m, h⟩
      have h2 : ∀ a n b m, ¬ (F64.neg x = .fin a n ∧ y = .fin b m) := by
        rintro a n b m ⟨e1, e2⟩
        refine hxy ⟨!a, n, b, m, ?_, e2⟩
        rw [← neg_neg64 x, e1]; rfl
      rw [gen h1, gen h2, mul_neg_left]
      exact add_neg _ _

/-- C91, `Uniform`: let `m / 2^52` be what it draws. With a NaN parameter the result is NaN. With `High` 0 (of either sign) and a
finite `Low` it is `Low`. With `High` infinite and `Low` finite it is `High`, but NaN if `m = 0`. With `Low` infinite and `High` finite
it is `Low`. Reversing the signs of both reverses that of the result (zeros apart, whose sign is not determined). -/
theorem C91_uniform (fused : Bool) (src : Source σ) (s s' : σ) (r : ReadRes) (h : src.read (zeros 7) s = .ok (r, s')) :
    (∀ low high, low = .nan ∨ high = .nan → uniform fused low high src s = .ok (.nan, s')) ∧
    (∀ low b, low.IsFin → low.Valid →
      ∃ v, uniform fused low (.fin b 0) src s = .ok (v, s') ∧ v.IsFin ∧ v.val = low.val) ∧
    (∀ low b, low.IsFin →
      uniform fused low (.inf b) src s = .ok (if leNat r.buf % 2 ^ 52 = 0 then .nan else .inf b, s')) ∧
    (∀ c high, high.IsFin → high.Valid → uniform fused (.inf c) high src s = .ok (.inf c, s')) ∧
    (∀ low high, ∃ v w, uniform fused low high src s = .ok (v, s') ∧
      uniform fused (F64.neg low) (F64.neg high) src s = .ok (w, s') ∧ F64.Opposite v w) := by
  have hu := fun low high => uniform_eq fused low high src s s' r h
  obtain ⟨e, he⟩ : ∃ e, 1022 = e := ⟨_, rfl⟩
  have hm : leNat r.buf % 2 ^ 52 < 2 ^ 52 := Nat.mod_lt _ (by decide)
  rw [he] at hu
  generalize leNat r.buf % 2 ^ 52 = m at hu hm
  simp only [hu]
  refine ⟨fun low high hn => ?_, fun low b hf hv => ?_, fun low b hf => ?_, fun c high hf hv => ?_, fun low high => ?_⟩
  · refine congrArg (fun v => Except.ok (v, s')) (mulAdd_nan _ _ _ _ ?_)
    rcases hn with rfl | rfl
    · exact Or.inr (Or.inr rfl)
    · exact Or.inl rfl
  · match low, hf, hv with
    | .fin c l, _, hv =>
      obtain ⟨h1, h2⟩ := mulAdd_of_zero fused b false c 0 (m * 2 ^ e) l (Nat.zero_mul _) hv
      exact ⟨_, rfl, h1, h2⟩
  · refine congrArg (fun v => Except.ok (v, s')) ?_
    rw [mulAdd_inf_left _ _ _ _ _ hf, Bool.xor_false]
    by_cases h0 : m = 0
    · rw [if_pos h0, if_pos (by rw [h0, Nat.zero_mul])]
    · rw [if_neg h0, if_neg (Nat.mul_ne_zero h0 (Nat.two_pow_pos e).ne')]
  · match high, hf, hv with
    | .fin a n, _, hv =>
      refine congrArg (fun v => Except.ok (v, s')) (mulAdd_inf_add _ _ _ _ _ _ (Or.inr ?_))
      have h1 := high_mul n m e (e + 52) rfl hm hv.1
      have e1 : F64.one = 2 ^ (e + 52) := by rw [← he]; rfl
      show (F64.rnd (a ^^ false) _ _).IsFin
      rw [e1]
      unfold F64.rnd
      rw [if_pos (lt_of_le_of_lt h1 hv.2)]
      trivial
  · exact ⟨_, _, rfl, rfl, mulAdd_neg _ _ _ _⟩

/-! ### Concrete cases -/

/-- `Exponential{Rate: 0}`: when the ziggurat draws 0 the result is NaN. -/
example (lib : MathLib) (hl : LogOk lib) (fused b : Bool) :
    exponential lib fused (.fin b 0) tape 1 [0x0000000000000000#64] = .ok (.nan, []) := by
  have hk : (zoffset false 0x0000000000000000#64).natAbs < (expoK[zlayer 0x0000000000000000#64]'(zlayer_lt _)).toNat := by decide +kernel
  have hg : (expoZig lib).genNext fused tape 1 [0x0000000000000000#64] =
      .ok (F64.mul (F64.ofInt (zoffset false 0x0000000000000000#64)) (expoW[zlayer 0x0000000000000000#64]'(zlayer_lt _)), []) :=
    genNext_fast (expoZig lib) fused tape 0 _ _ _ (RNG_uint64_tape _ _) hk
  have h0 : F64.mul (F64.ofInt (zoffset false 0x0000000000000000#64)) (expoW[zlayer 0x0000000000000000#64]'(zlayer_lt _)) = .fin false 0 := by
    decide +kernel
  have := (C91_exponential lib hl fused tape 1 _ _ _ hg).2.2.1 b
  rw [if_pos h0] at this
  exact this

/-- `Normal{Mean: 3, StdDev: +Inf}` when the ziggurat draws 0. -/
example (lib : MathLib) (hl : LogOk lib) (fused fused' : Bool) :
    normal lib fused fused' (F64.ofNat 3) (.inf false) tape 1 [0x0000000000000000#64] = .ok (.nan, []) := by
  have hk : (zoffset true 0x0000000000000000#64).natAbs < (normalK[zlayer 0x0000000000000000#64]'(zlayer_lt _)).toNat := by decide +kernel
  have hg : (normalZig lib).genNext fused tape 1 [0x0000000000000000#64] =
      .ok (F64.mul (F64.ofInt (zoffset true 0x0000000000000000#64)) (normalW[zlayer 0x0000000000000000#64]'(zlayer_lt _)), []) :=
    genNext_fast (normalZig lib) fused tape 0 _ _ _ (RNG_uint64_tape _ _) hk
  have h0 : F64.mul (F64.ofInt (zoffset true 0x0000000000000000#64)) (normalW[zlayer 0x0000000000000000#64]'(zlayer_lt _)) = .fin false 0 := by
    decide +kernel
  refine ((C91_normal lib hl fused fused' tape 1 _ _ _ hg).2.2.1 (F64.ofNat 3) false ?_).1 ?_
  · rw [ofNat_exact 3 (by decide)]; trivial
  · rw [h0]
    exact ⟨val_zero _, trivial⟩

/-- `Normal{Mean: 3, StdDev: -Inf}` when it draws a number other than 0. -/
example (lib : MathLib) (hl : LogOk lib) (fused fused' : Bool) :
    ∃ c, normal lib fused fused' (F64.ofNat 3) (.inf true) tape 1 [0x8000000000100000#64] = .ok (.inf c, []) := by
  have hk : (zoffset true 0x8000000000100000#64).natAbs < (normalK[zlayer 0x8000000000100000#64]'(zlayer_lt _)).toNat := by decide +kernel
  have hg : (normalZig lib).genNext fused tape 1 [0x8000000000100000#64] =
      .ok (F64.mul (F64.ofInt (zoffset true 0x8000000000100000#64)) (normalW[zlayer 0x8000000000100000#64]'(zlayer_lt _)), []) :=
    genNext_fast (normalZig lib) fused tape 0 _ _ _ (RNG_uint64_tape _ _) hk
  have ho : zoffset true 0x8000000000100000#64 = 2 ^ 20 := by decide
  have hi := inner_example _ (zlayer_lt 0x8000000000100000#64) _ ho
  generalize F64.mul (F64.ofInt (zoffset true 0x8000000000100000#64)) (normalW[zlayer 0x8000000000100000#64]'(zlayer_lt _)) = r at hg hi
  have h3 := (C91_normal lib hl fused fused' tape 1 _ _ _ hg).2.2.1 (F64.ofNat 3) true (by rw [ofNat_exact 3 (by decide)]; trivial)
  have hne : r.val ≠ 0 := by
    intro h
    refine hi.ne_zero ?_
    unfold rv
    rw [h, Rat.cast_zero]
  rcases lt_or_gt_of_ne hne with h | h
  · exact ⟨_, h3.2.2 (Or.inl h)⟩
  · exact ⟨_, h3.2.1 (Or.inl h)⟩

/-- `Uniform{Low: -Inf, High: 1}`. -/
example (fused : Bool) : uniform fused (.inf true) (F64.ofNat 1) byteTape [1, 2, 3, 4, 5, 6, 7] = .ok (.inf true, []) := by
  refine (C91_uniform fused byteTape _ _ _ (byteTape_read 7 [1, 2, 3, 4, 5, 6, 7] rfl)).2.2.2.1 true _ ?_ ?_
  · rw [ofNat_exact 1 (by decide)]; trivial
  · rw [ofNat_exact 1 (by decide)]; exact valid_scaled _ _ _ (by decide) (by decide)

end Crazy
