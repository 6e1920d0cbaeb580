/-
C72: successive calls on one source of independent, uniform words are independent.
-/
import Verif.Proofs.Reads
import Verif.Props.NormDist
set_option exponentiation.threshold 2200
set_option maxRecDepth 4000
namespace Crazy
open Set MeasureTheory ProbabilityTheory

/-- The calls of the package that take their randomness from the source in 64-bit words, with any condition on the result, and how
many words they read at most; `n` bounds the rejections. -/
inductive LibCall : Trial (List U64) → Nat → Prop
  | uint64 (P) : LibCall ⟨RNG.uint64 tape, P⟩ 1
  | uint32 (P) : LibCall ⟨RNG.uint32 tape, P⟩ 1
  | uint16 (P) : LibCall ⟨RNG.uint16 tape, P⟩ 1
  | uintn (n max P) : LibCall ⟨RNG.uintn tape n max, P⟩ (n + 1)
  | intn (n max P) : LibCall ⟨RNG.intn tape n max, P⟩ (n + 1)
  | uniform01 (P) : LibCall ⟨Crazy.uniform01 tape, P⟩ 1
  | uniform12 (P) : LibCall ⟨Crazy.uniform12 tape, P⟩ 1
  | uniform (fused low high P) : LibCall ⟨Crazy.uniform fused low high tape, P⟩ 1
  | exponential (lib fused rate n P) : LibCall ⟨Crazy.exponential lib fused rate tape n, P⟩ (2 * n)
  | normal (lib fused fused' mean stddev n P) : LibCall ⟨Crazy.normal lib fused fused' mean stddev tape n, P⟩ (2 * n)
  | randString (n alphabet length P) : LibCall ⟨Crazy.randString tape n alphabet length, P⟩ (length.toNat * (n + 1))
  | shuffleSlice {α : Type} (n) (data : List α) (P) : LibCall ⟨Crazy.shuffleSlice tape n data, P⟩ (data.length * (n + 1))

theorem LibCall.reads {t : Trial (List U64)} {m : Nat} (h : LibCall t m) : Reads m t.next := by
  cases h with
  | uint64 P => exact reads_uint64
  | uint32 P => exact reads_uint32
  | uint16 P => exact reads_uint16
  | uintn n max P => exact reads_uintn n max
  | intn n max P => exact reads_intn n max
  | uniform01 P => exact reads_uniform01
  | uniform12 P => exact reads_uniform12
  | uniform fused low high P => exact reads_uniform fused low high
  | exponential lib fused rate n P => exact reads_exponential lib fused rate n
  | normal lib fused fused' mean stddev n P => exact reads_normal lib fused fused' mean stddev n
  | randString n alphabet length P => exact reads_randString n alphabet length
  | shuffleSlice n data P => exact reads_shuffleSlice n data

/-- C72: whatever calls a program makes one after the other on the same source, with whatever parameters, and whatever conditions are
put on the results: if the source's words are independent and uniform, the probability that all calls return and all conditions are
met is the product of the probabilities for each call alone. -/
theorem C72_independent (ts : List (Trial (List U64) × Nat)) (h : ∀ t ∈ ts, LibCall t.1 t.2) :
    prob (ts.map (·.2)).sum (AllGood (ts.map (·.1))) = (ts.map fun t => prob t.2 (AllGood [t.1])).prod :=
  prob_allGood ts fun t ht => (h t ht).reads

/-! ### Joint distributions -/

theorem prod_bounds {ι : Type} (l : List ι) (a : ι → ℝ) (ha : ∀ i ∈ l, 0 ≤ a i ∧ a i ≤ 1) :
    0 ≤ (l.map a).prod ∧ (l.map a).prod ≤ 1 := by
  induction l with
  | nil => simp
  | cons i l ih =>
    have h1 := ha i (List.mem_cons_self ..)
    have h2 := ih fun k hk => ha k (List.mem_cons_of_mem _ hk)
    rw [List.map_cons, List.prod_cons]
    exact ⟨mul_nonneg h1.1 h2.1, mul_le_one₀ h1.2 h2.1 h2.2⟩

theorem abs_prod_sub_prod_le {ι : Type} (l : List ι) (a b : ι → ℝ) (ε : ι → ℝ) (ha : ∀ i ∈ l, 0 ≤ a i ∧ a i ≤ 1)
    (hb : ∀ i ∈ l, 0 ≤ b i ∧ b i ≤ 1) (h : ∀ i ∈ l, |a i - b i| ≤ ε i) : |(l.map a).prod - (l.map b).prod| ≤ (l.map ε).sum := by
  induction l with
  | nil => simp
  | cons i l ih =>
    have hi : i ∈ i :: l := List.mem_cons_self ..
    have hm : ∀ j ∈ l, j ∈ i :: l := fun j hj => List.mem_cons_of_mem _ hj
    have ih := ih (fun j hj => ha j (hm j hj)) (fun j hj => hb j (hm j hj)) fun j hj => h j (hm j hj)
    have hp := prod_bounds l a fun j hj => ha j (hm j hj)
    rw [List.map_cons, List.map_cons, List.map_cons, List.prod_cons, List.prod_cons, List.sum_cons]
    have e : a i * (l.map a).prod - b i * (l.map b).prod =
        (a i - b i) * (l.map a).prod + b i * ((l.map a).prod - (l.map b).prod) := by ring
    rw [e]
    refine (abs_add_le _ _).trans (add_le_add ?_ ?_)
    · rw [abs_mul, abs_of_nonneg hp.1]
      exact (mul_le_of_le_one_right (abs_nonneg _) hp.2).trans (h i hi)
    · rw [abs_mul, abs_of_nonneg (hb i hi).1]
      exact (mul_le_of_le_one_left (abs_nonneg _) (hb i hi).2).trans ih

theorem allGood_one {α : Type} (next : List U64 → Go (α × List U64)) (P : α → Prop) (w : List U64) :
    AllGood [⟨next, P⟩] w ↔ ∃ r rest, next w = .ok (r, rest) ∧ P r := by
  show (∃ r rest, next w = .ok (r, rest) ∧ P r ∧ True) ↔ _
  simp only [and_true]

/-- The parameters of a normal distribution that C71 covers, and a threshold. -/
structure NormalTrial where
  mean : F64
  stddev : F64
  t : ℝ
  mean_fin : mean.IsFin
  mean_le : |rv mean| ≤ 2 ^ 900
  stddev_fin : stddev.IsFin
  stddev_ge : 1 / 2 ^ 900 ≤ rv stddev
  stddev_le : rv stddev ≤ 2 ^ 900

theorem sum_const_map {ι : Type} (l : List ι) (c : Nat) : (l.map fun _ => c).sum = l.length * c := by
  induction l with
  | nil => simp
  | cons i l ih => rw [List.map_cons, List.sum_cons, ih, List.length_cons]; ring

/-- C72: the joint distribution of successive draws of `Normal`, each with its own mean and standard deviation, is the product of
normal distributions, up to the errors of C71. -/
theorem C72_normals (lib : MathLib) (hl : LogOk lib) (he : ExpOk lib) (fused fused' : Bool) (n : Nat) (l : List NormalTrial) :
    |prob (l.length * (2 * n)) (AllGood (l.map fun q => ⟨normal lib fused fused' q.mean q.stddev tape n, AtMost q.t⟩)) -
      (l.map fun q => (gaussianReal (rv q.mean) ⟨rv q.stddev ^ 2, sq_nonneg _⟩).real (Iic q.t)).prod| ≤
        (l.map fun q => 1 / 2 ^ 31 + |rv q.mean| / rv q.stddev / 2 ^ 53 + (1 / 16) ^ n).sum := by
  have h := C72_independent (l.map fun q => ((⟨normal lib fused fused' q.mean q.stddev tape n, AtMost q.t⟩ : Trial (List U64)), 2 * n))
    (fun t ht => by
      obtain ⟨q, -, rfl⟩ := List.mem_map.mp ht
      exact LibCall.normal ..)
  rw [List.map_map, List.map_map, List.map_map] at h
  have h0 : (l.map ((fun t : Trial (List U64) × Nat => t.2) ∘
      fun q => ((⟨normal lib fused fused' q.mean q.stddev tape n, AtMost q.t⟩ : Trial (List U64)), 2 * n))).sum = l.length * (2 * n) :=
    sum_const_map l (2 * n)
  rw [h0] at h
  refine le_trans (le_of_eq (congrArg (fun x => |x - _|) h)) ?_
  refine abs_prod_sub_prod_le l _ _ _ (fun q _ => ⟨prob_nonneg _ _, prob_le_one _ _⟩)
    (fun q _ => ⟨measureReal_nonneg, (measureReal_le_one : (gaussianReal _ _).real _ ≤ 1)⟩) fun q _ => ?_
  have hq := C71_normal lib hl he fused fused' q.mean q.stddev q.mean_fin q.mean_le q.stddev_fin q.stddev_ge q.stddev_le q.t n
  have e : prob (2 * n) (AllGood [⟨normal lib fused fused' q.mean q.stddev tape n, AtMost q.t⟩]) =
      prob (2 * n) (fun w => ∃ r rest, normal lib fused fused' q.mean q.stddev tape n w = .ok (r, rest) ∧ AtMost q.t r) :=
    prob_congr fun w _ => allGood_one _ _ w
  rw [← e] at hq
  exact hq

/-- The rate of an exponential distribution that C70 covers, and a threshold. -/
structure ExpoTrial where
  rate : F64
  t : ℝ
  rate_pos : PosRate rate
  rate_ge : 1 / 2 ^ 900 ≤ rv rate
  rate_le : rv rate ≤ 2 ^ 900
  t_nonneg : 0 ≤ t

/-- C72: the joint distribution of successive draws of `Exponential`, each with its own rate, is the product of exponential
distributions, up to the errors of C70. -/
theorem C72_exponentials (lib : MathLib) (hl : LogOk lib) (he : ExpOk lib) (fused : Bool) (n : Nat) (l : List ExpoTrial) :
    |prob (l.length * (2 * n)) (AllGood (l.map fun q => ⟨exponential lib fused q.rate tape n, AtMost q.t⟩)) -
      (l.map fun q => 1 - Real.exp (-(rv q.rate * q.t))).prod| ≤ l.length * (1 / 2 ^ 31 + (1 / 256) ^ n) := by
  have h := C72_independent (l.map fun q => ((⟨exponential lib fused q.rate tape n, AtMost q.t⟩ : Trial (List U64)), 2 * n))
    (fun t ht => by
      obtain ⟨q, -, rfl⟩ := List.mem_map.mp ht
      exact LibCall.exponential ..)
  rw [List.map_map, List.map_map, List.map_map] at h
  have h0 : (l.map ((fun t : Trial (List U64) × Nat => t.2) ∘
      fun q => ((⟨exponential lib fused q.rate tape n, AtMost q.t⟩ : Trial (List U64)), 2 * n))).sum = l.length * (2 * n) :=
    sum_const_map l (2 * n)
  rw [h0] at h
  refine le_trans (le_of_eq (congrArg (fun x => |x - _|) h)) ?_
  have hs : (l.length : ℝ) * (1 / 2 ^ 31 + (1 / 256) ^ n) = (l.map fun _ => (1 / 2 ^ 31 + (1 / 256) ^ n : ℝ)).sum := by
    rw [List.map_const', List.sum_replicate, nsmul_eq_mul]
  rw [hs]
  refine abs_prod_sub_prod_le l _ _ _ (fun q _ => ⟨prob_nonneg _ _, prob_le_one _ _⟩) (fun q _ => ?_) fun q _ => ?_
  · have h1 : 0 ≤ rv q.rate * q.t := mul_nonneg q.rate_pos.2.1.le q.t_nonneg
    have h2 := Real.exp_pos (-(rv q.rate * q.t))
    have h3 : Real.exp (-(rv q.rate * q.t)) ≤ 1 := Real.exp_le_one_iff.mpr (by linarith)
    exact ⟨by linarith, by linarith⟩
  · have hq := C70_exponential lib hl he fused q.rate q.rate_pos q.rate_ge q.rate_le q.t q.t_nonneg n
    have e : prob (2 * n) (AllGood [⟨exponential lib fused q.rate tape n, AtMost q.t⟩]) =
        prob (2 * n) (fun w => ∃ r rest, exponential lib fused q.rate tape n w = .ok (r, rest) ∧ AtMost q.t r) :=
      prob_congr fun w _ => allGood_one _ _ w
    rw [← e] at hq
    exact hq

/-! ### Non-vacuity -/

/-- A program that draws an `Exponential`, then shuffles three numbers, then takes a `Uint64`. -/
example (lib : MathLib) : ∀ t ∈ ([(⟨exponential lib true (F64.ofNat 1) tape 4, fun r => r ≠ .nan⟩, 8),
    (⟨shuffleSlice tape 2 [1, 2, 3], fun l => l = [3, 1, 2]⟩, 9), (⟨RNG.uint64 tape, fun x => x = 0#64⟩, 1)] : List (Trial (List U64) × Nat)),
      LibCall t.1 t.2 := by
  intro t ht
  rcases List.mem_cons.mp ht with rfl | ht
  · exact LibCall.exponential _ _ _ 4 _
  rcases List.mem_cons.mp ht with rfl | ht
  · exact LibCall.shuffleSlice 2 [1, 2, 3] _
  rcases List.mem_cons.mp ht with rfl | ht
  · exact LibCall.uint64 _
  cases ht

/-- Two standard normal draws. -/
example : ∃ l : List NormalTrial, l.length = 2 ∧ ∀ q ∈ l, rv q.stddev = 1 := by
  have h0 : rv (.fin false 0) = 0 := by rw [rv_pos 0 1074 rfl, Nat.cast_zero, zero_div]
  have hk : (1 : ℝ) ≤ 2 ^ 900 := one_le_pow₀ (by norm_num)
  let q : NormalTrial := {
    mean := .fin false 0
    stddev := F64.ofNat 1
    t := 0
    mean_fin := trivial
    mean_le := by rw [h0, abs_zero]; positivity
    stddev_fin := rate_one.1.1
    stddev_ge := by rw [rate_one.2]; exact (div_le_one (by positivity)).mpr hk
    stddev_le := by rw [rate_one.2]; exact hk }
  refine ⟨[q, q], rfl, fun p hp => ?_⟩
  have : p = q := by simpa using hp
  rw [this]
  exact rate_one.2

end Crazy
