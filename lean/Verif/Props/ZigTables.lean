/-
C40: the tables of the exponential and of the normal distribution.
-/
import Verif.Spec.Zig
import Verif.Proofs.ZigCert
import Verif.Props.Uniform
import Verif.Model.Distr
import Mathlib.Analysis.SpecialFunctions.ImproperIntegrals
set_option exponentiation.threshold 2200
namespace Crazy
open F64 MeasureTheory

theorem ofDec_row (d w : Nat × Nat) (h : chkRow d w = true) (hk : w.2 ≤ 1000) :
    F64.ofDec d.1 d.2 = .fin false (w.1 * 2 ^ (w.2 + 960)) := by
  obtain ⟨e, he⟩ : ∃ e, 960 = e := ⟨_, rfl⟩
  obtain ⟨h1, h2⟩ := chkRow_eq e d w h
  have hone : F64.one = 2 ^ (114 + e) := by rw [← he]; rfl
  have hv := (valid_scaled false w.1 (w.2 + e) h2 (by omega)).2
  rw [he]
  unfold F64.ofDec F64.rnd
  rw [hone, h1, if_pos hv]

theorem ofDec_row_val (d w : Nat × Nat) (h : chkRow d w = true) (hk : w.2 ≤ 114) :
    (F64.ofDec d.1 d.2).val = ((w.1 * 2 ^ w.2 : Nat) : ℚ) / 2 ^ 114 ∧ (F64.ofDec d.1 d.2).Valid ∧ (F64.ofDec d.1 d.2).IsFin := by
  rw [ofDec_row d w h (by omega)]
  refine ⟨?_, valid_scaled _ _ _ (chkRow_eq 0 d w h).2 (by omega), trivial⟩
  rw [pow_add, ← Nat.mul_assoc, val_scaled _ 960 114 rfl]

/-- The rows are the contents of the tables. -/
structure RowsOf (R : List ZRow) (K : Vector U64 1024) (W F : Vector F64 1024) : Prop where
  len : R.length = 1024
  k : ∀ i (h : i < 1024), K[i].toNat = (R[i]'(by omega)).1
  w : ∀ i (h : i < 1024), zx W i h = ((R[i]'(by omega)).w : ℝ) / 2 ^ 61
  f : ∀ i (h : i < 1024), zf F i h = ((R[i]'(by omega)).f : ℝ) / 2 ^ 114
  wv : ∀ i (h : i < 1024), W[i].IsFin ∧ W[i].Valid
  fv : ∀ i (h : i < 1024), F[i].IsFin ∧ F[i].Valid

theorem rowsOf (KL : List Nat) (WL FL WR FR : List (Nat × Nat)) (hK : KL.length = 1024) (hW : WL.length = 1024)
    (hF : FL.length = 1024) (cK : KL.all (fun k => Nat.blt k (2 ^ 64)) = true) (cW : chkRows WL WR = true)
    (cF : chkRows FL FR = true) (sW : WR.all (fun w => Nat.ble w.2 114) = true) (sF : FR.all (fun w => Nat.ble w.2 114) = true)
    (K : Vector U64 1024) (W F : Vector F64 1024) (eK : K.toList = KL.map (BitVec.ofNat 64))
    (eW : W.toList = WL.map fun d => F64.ofDec d.1 d.2) (eF : F.toList = FL.map fun d => F64.ofDec d.1 d.2) :
    RowsOf (List.zip KL (List.zip WR FR)) K W F := by
  obtain ⟨lW, gW⟩ := chkRows_get _ _ cW
  obtain ⟨lF, gF⟩ := chkRows_get _ _ cF
  have vW : ∀ i (h : i < 1024), W[i].val = (((WR[i]'(by omega)).1 * 2 ^ (WR[i]'(by omega)).2 : Nat) : ℚ) / 2 ^ 114 ∧
      W[i].Valid ∧ W[i].IsFin := fun i h => by
    have : W[i] = F64.ofDec (WL[i]'(by omega)).1 (WL[i]'(by omega)).2 := by
      rw [← Vector.getElem_toList (h := by simpa using h)]
      simp only [eW, List.getElem_map]
    rw [this]
    refine ofDec_row_val _ _ (gW i (by omega) (by omega)) ?_
    exact Nat.ble_eq.mp (List.all_eq_true.1 sW _ (List.getElem_mem _))
  have vF : ∀ i (h : i < 1024), F[i].val = (((FR[i]'(by omega)).1 * 2 ^ (FR[i]'(by omega)).2 : Nat) : ℚ) / 2 ^ 114 ∧
      F[i].Valid ∧ F[i].IsFin := fun i h => by
    have : F[i] = F64.ofDec (FL[i]'(by omega)).1 (FL[i]'(by omega)).2 := by
      rw [← Vector.getElem_toList (h := by simpa using h)]
      simp only [eF, List.getElem_map]
    rw [this]
    refine ofDec_row_val _ _ (gF i (by omega) (by omega)) ?_
    exact Nat.ble_eq.mp (List.all_eq_true.1 sF _ (List.getElem_mem _))
  refine ⟨?_, ?_, ?_, ?_, fun i h => ⟨(vW i h).2.2, (vW i h).2.1⟩, fun i h => ⟨(vF i h).2.2, (vF i h).2.1⟩⟩
  · simp only [List.length_zip]; omega
  · intro i h
    have : K[i] = BitVec.ofNat 64 (KL[i]'(by omega)) := by
      rw [← Vector.getElem_toList (h := by simpa using h)]
      simp only [eK, List.getElem_map]
    rw [this, BitVec.toNat_ofNat, List.getElem_zip]
    refine Nat.mod_eq_of_lt ?_
    exact Nat.blt_eq.mp (List.all_eq_true.1 cK _ (List.getElem_mem _))
  · intro i h
    unfold zx
    rw [(vW i h).1]
    simp only [List.getElem_zip, ZRow.w]
    push_cast
    ring
  · intro i h
    unfold zf
    rw [(vF i h).1]
    simp only [List.getElem_zip, ZRow.f]
    push_cast
    ring

theorem expo_rowsOf : RowsOf expoRows expoK expoW expoF :=
  rowsOf expoKLit expoWLit expoFLit expoWRow expoFRow expoKLit_length expoWLit_length expoFLit_length
    (by decide +kernel) expoWRow_chk expoFRow_chk (by decide +kernel) (by decide +kernel) expoK expoW expoF rfl rfl rfl

theorem normal_rowsOf : RowsOf normalRows normalK normalW normalF :=
  rowsOf normalKLit normalWLit normalFLit normalWRow normalFRow normalKLit_length normalWLit_length normalFLit_length
    (by decide +kernel) normalWRow_chk normalFRow_chk (by decide +kernel) (by decide +kernel) normalK normalW normalF rfl rfl rfl

theorem isZiggurat (pdf : ℝ → ℝ) (R : List ZRow) (K : Vector U64 1024) (W F : Vector F64 1024) (hR : RowsOf R K W F)
    (cW : pairsAll chkW R.tail = true) (cF : pairsAll (chkF (R[0]!.w * R[1023]!.f)) R = true)
    (cE : chkEnds R[0]! R[1023]! = true) (c1 : R[1]!.1 = 0 ∧ R[1]!.w ≠ 0)
    (hpos : ∀ x, 0 < pdf x)
    (hpdf : ∀ i (h : i < 1024), 1 ≤ i → |zf F i - pdf (zx W i)| ≤ pdf (zx W i) / 2 ^ 49)
    (hbase : |zv W F - (zx W 1023 * pdf (zx W 1023) + ∫ t in Set.Ioi (zx W 1023), pdf t)| ≤ zv W F / 2 ^ 42) :
    IsZiggurat pdf K W F := by
  have hl := hR.len
  have g0 : ∀ i (h : i < 1024), R[i]! = R[i]'(by omega) := fun i h => getElem!_pos R i (by omega)
  rw [g0 0 (by decide), g0 1023 (by decide)] at cE cF
  rw [g0 1 (by decide)] at c1
  unfold chkEnds at cE
  simp only [Bool.and_eq_true, Nat.ble_eq, Nat.blt_eq, Nat.beq_eq] at cE
  obtain ⟨⟨⟨⟨⟨e1, e2⟩, e3⟩, e4⟩, -⟩, -⟩ := cE
  -- consecutive rows
  have pW : ∀ i (h : i < 1024), 2 ≤ i → chkW (R[i - 1]'(by omega)) (R[i]'(by omega)) = true := fun i h hi => by
    have := pairsAll_get _ _ cW (i - 2) (by rw [List.length_tail]; omega)
    simp only [List.getElem_tail, show i - 2 + 1 = i - 1 by omega, show i - 1 + 1 = i by omega] at this
    exact this
  have pF : ∀ i (h : i < 1024), 1 ≤ i →
      chkF ((R[0]'(by omega)).w * (R[1023]'(by omega)).f) (R[i - 1]'(by omega)) (R[i]'(by omega)) = true := fun i h hi => by
    have := pairsAll_get _ _ cF (i - 1) (by omega)
    simp only [show i - 1 + 1 = i by omega] at this
    exact this
  -- positivity
  have wpos1 : ∀ n i (h : i < 1024), i = n + 1 → 0 < (R[i]'(by omega)).w := fun n => by
    induction n with
    | zero => intro i h hi; subst hi; exact Nat.pos_of_ne_zero c1.2
    | succ n ih =>
      intro i h hi
      have h1 := ih (i - 1) (by omega) (by omega)
      have h2 := pW i h (by omega)
      unfold chkW at h2
      simp only [Bool.and_eq_true, Nat.ble_eq, Nat.blt_eq] at h2
      omega
  have wpos : ∀ i (h : i < 1024), 0 < (R[i]'(by omega)).w := fun i h => by
    cases i with
    | zero => exact e4
    | succ i => exact wpos1 i (i + 1) h rfl
  have xpos : ∀ i (h : i < 1024), 0 < zx W i := fun i h => by
    rw [hR.w i h]
    have : (0 : ℝ) < ((R[i]'(by omega)).w : ℝ) := by exact_mod_cast wpos i h
    positivity
  have fpos : ∀ i (h : i < 1024), 0 < zf F i := fun i h => by
    cases i with
    | zero =>
      rw [hR.f 0 h, e3]
      norm_num
    | succ i =>
      have h1 := hpdf (i + 1) h (by omega)
      have h2 := hpos (zx W (i + 1))
      rw [abs_le] at h1
      have : pdf (zx W (i + 1)) / 2 ^ 49 < pdf (zx W (i + 1)) := div_lt_self h2 (by norm_num)
      linarith
  have s61 : (0 : ℝ) < 2 ^ 61 := by positivity
  have s114 : (0 : ℝ) < 2 ^ 114 := by positivity
  have hzv : zv W F = ((R[0]'(by omega)).w * (R[1023]'(by omega)).f : ℝ) / (2 ^ 61 * 2 ^ 114) := by
    unfold zv
    rw [hR.w 0 (by decide), hR.f 1023 (by decide), div_mul_div_comm]
  refine ⟨fun i h => ⟨(hR.wv i h).1, (hR.wv i h).2, xpos i h, (hR.fv i h).1, (hR.fv i h).2, fpos i h⟩, ?_, ?_, ?_, hpdf, ?_,
    hbase, ?_, ?_, ?_⟩
  · intro i h hi
    have h2 := pW i h hi
    unfold chkW at h2
    simp only [Bool.and_eq_true, Nat.ble_eq, Nat.blt_eq] at h2
    rw [hR.w i h, hR.w (i - 1) (by omega)]
    exact div_lt_div_of_pos_right (by exact_mod_cast h2.1.1.1) s61
  · rw [hR.f 0 (by decide), e3]
    norm_num
  · intro i h hi
    have h2 := pF i h hi
    unfold chkF at h2
    simp only [Bool.and_eq_true, Nat.ble_eq, Nat.blt_eq] at h2
    rw [hR.f i h, hR.f (i - 1) (by omega)]
    exact div_lt_div_of_pos_right (by exact_mod_cast h2.1.1) s114
  · intro i h hi
    have h2 := pF i h hi
    unfold chkF at h2
    simp only [Bool.and_eq_true, Nat.ble_eq, Nat.blt_eq] at h2
    obtain ⟨⟨-, h3⟩, h4⟩ := h2
    rw [hzv, hR.w i h, hR.f i h, hR.f (i - 1) (by omega)]
    generalize (R[i]'(by omega)).w = w at *
    generalize (R[i]'(by omega)).f = f at *
    generalize (R[i - 1]'(by omega)).f = f0 at *
    generalize (R[0]'(by omega)).w = w0 at *
    generalize (R[1023]'(by omega)).f = fl at *
    have h3' : (2 ^ 42 * (w * f0) : ℝ) ≤ 2 ^ 42 * (w * f) + 2 ^ 42 * (w0 * fl) + w0 * fl := by exact_mod_cast h3
    have h4' : (2 ^ 42 * (w * f) + 2 ^ 42 * (w0 * fl) : ℝ) ≤ 2 ^ 42 * (w * f0) + w0 * fl := by exact_mod_cast h4
    have e : (w : ℝ) / 2 ^ 61 * (f0 / 2 ^ 114 - f / 2 ^ 114) - w0 * fl / (2 ^ 61 * 2 ^ 114) =
        (w * f0 - w * f - w0 * fl) / (2 ^ 61 * 2 ^ 114) := by ring
    rw [e, abs_div, abs_of_pos (mul_pos s61 s114), div_right_comm]
    refine div_le_div_of_nonneg_right ?_ (by positivity)
    rw [le_div_iff₀ (by positivity)]
    have : |(w * f0 - w * f - w0 * fl : ℝ)| ≤ w0 * fl / 2 ^ 42 := by
      rw [abs_le]
      constructor
      · rw [neg_le_iff_add_nonneg, ← sub_le_iff_le_add', zero_sub, ← sub_nonneg]
        have : (w0 * fl / 2 ^ 42 : ℝ) = (w0 * fl) * (1 / 2 ^ 42) := by ring
        rw [this]
        nlinarith
      · rw [le_div_iff₀ (by positivity)]
        nlinarith
    calc |(w * f0 - w * f - w0 * fl : ℝ)| * 2 ^ 42 ≤ w0 * fl / 2 ^ 42 * 2 ^ 42 := mul_le_mul_of_nonneg_right this (by positivity)
      _ = w0 * fl := by field_simp
  · apply BitVec.eq_of_toNat_eq
    rw [hR.k 1 (by decide), c1.1]
    rfl
  · intro i h hi
    have h2 := pW i h hi
    unfold chkW at h2
    simp only [Bool.and_eq_true, Nat.ble_eq, Nat.blt_eq] at h2
    obtain ⟨⟨⟨-, h3⟩, h4⟩, -⟩ := h2
    have hw := wpos i h
    rw [hR.k i h, hR.w i h, hR.w (i - 1) (by omega), div_div_div_cancel_right₀ s61.ne']
    generalize (R[i]'(by omega)).w = w at *
    generalize (R[i]'(by omega)).1 = k at *
    generalize (R[i - 1]'(by omega)).w = w0 at *
    have hw' : (0 : ℝ) < w := by exact_mod_cast hw
    have h3' : (k * w : ℝ) < 2 ^ 53 * w0 + 3 * w := by exact_mod_cast h3
    have h4' : (2 ^ 53 * w0 : ℝ) < k * w + 3 * w := by exact_mod_cast h4
    rw [← mul_div_assoc, abs_lt, neg_lt_sub_iff_lt_add, sub_lt_iff_lt_add, div_lt_iff₀ hw', ← sub_lt_iff_lt_add', lt_div_iff₀ hw']
    constructor <;> linarith
  · have hw := wpos 0 (by decide)
    rw [hR.k 0 (by decide), hR.w 0 (by decide), hR.w 1023 (by decide), div_div_div_cancel_right₀ s61.ne']
    generalize (R[0]'(by omega)).w = w at *
    generalize (R[0]'(by omega)).1 = k at *
    generalize (R[1023]'(by omega)).w = w0 at *
    have hw' : (0 : ℝ) < w := by exact_mod_cast hw
    have h3' : (k * w : ℝ) < 2 ^ 53 * w0 + w := by exact_mod_cast e1
    have h4' : (2 ^ 53 * w0 : ℝ) < k * w + w := by exact_mod_cast e2
    rw [← mul_div_assoc, abs_lt, neg_lt_sub_iff_lt_add, sub_lt_iff_lt_add, div_lt_iff₀ hw', ← sub_lt_iff_lt_add', lt_div_iff₀ hw']
    constructor <;> linarith

theorem close_of_mul (F y : ℝ) (h : |F * Real.exp y - 1| ≤ 1 / 2 ^ 49) : |F - Real.exp (-y)| ≤ Real.exp (-y) / 2 ^ 49 := by
  have he := Real.exp_pos (-y)
  have e : F - Real.exp (-y) = (F * Real.exp y - 1) * Real.exp (-y) := by
    rw [sub_mul, mul_assoc, ← Real.exp_add, add_neg_cancel, Real.exp_zero]
    ring
  rw [e, abs_mul, abs_of_pos he]
  calc _ ≤ 1 / 2 ^ 49 * Real.exp (-y) := mul_le_mul_of_nonneg_right h he.le
    _ = _ := by ring

theorem tail_all {p : ZRow → Bool} (R : List ZRow) (hl : R.length = 1024) (h : R.tail.all p = true) (i : Nat) (hi : i < 1024)
    (h1 : 1 ≤ i) : p (R[i]'(by omega)) = true := by
  refine List.all_eq_true.1 h _ ?_
  have : R[i]'(by omega) = R.tail[i - 1]'(by rw [List.length_tail]; omega) := by
    simp only [List.getElem_tail, show i - 1 + 1 = i by omega]
  rw [this]
  exact List.getElem_mem _

theorem expo_pdf (i : Nat) (h : i < 1024) (hi : 1 ≤ i) :
    |zf expoF i - Real.exp (-zx expoW i)| ≤ Real.exp (-zx expoW i) / 2 ^ 49 := by
  refine close_of_mul _ _ ?_
  have := expCheck_sound _ _ _ (by positivity) (tail_all _ expo_rowsOf.len expoRows_exp i h hi)
  rw [expo_rowsOf.f i h, expo_rowsOf.w i h]
  rw [Nat.cast_pow, Nat.cast_ofNat] at this
  rw [show (16 : ℝ) * (((expoRows[i]'(by rw [expo_rowsOf.len]; omega)).w : ℝ) / 2 ^ 65) =
    ((expoRows[i]'(by rw [expo_rowsOf.len]; omega)).w : ℝ) / 2 ^ 61 by ring] at this
  exact this

theorem normal_pdf (i : Nat) (h : i < 1024) (hi : 1 ≤ i) :
    |zf normalF i - Real.exp (-zx normalW i ^ 2 / 2)| ≤ Real.exp (-zx normalW i ^ 2 / 2) / 2 ^ 49 := by
  rw [neg_div]
  refine close_of_mul _ _ ?_
  have := expCheck_sound _ _ _ (by positivity) (tail_all _ normal_rowsOf.len normalRows_exp i h hi)
  rw [normal_rowsOf.f i h, normal_rowsOf.w i h]
  rw [Nat.cast_pow, Nat.cast_ofNat, Nat.cast_mul] at this
  generalize (normalRows[i]'(by rw [normal_rowsOf.len]; omega)).w = w at *
  rw [show (16 : ℝ) * ((w : ℝ) * w / 2 ^ 127) = (w / 2 ^ 61) ^ 2 / 2 by ring] at this
  exact this

theorem expo_width : zx expoW 0 = zx expoW 1023 + 1 := by
  have h := expoRows_tail
  have hl := expo_rowsOf.len
  rw [getElem!_pos expoRows 0 (by omega), getElem!_pos expoRows 1023 (by omega)] at h
  rw [expo_rowsOf.w 0 (by decide), expo_rowsOf.w 1023 (by decide), h]
  push_cast
  ring

theorem zx_nonneg (W : Vector F64 1024) (R : List ZRow) (K : Vector U64 1024) (F : Vector F64 1024) (hR : RowsOf R K W F) (i : Nat)
    (h : i < 1024) : 0 ≤ zx W i := by
  rw [hR.w i h]; positivity

theorem expo_base : |zv expoW expoF - (zx expoW 1023 * Real.exp (-zx expoW 1023) +
    ∫ t in Set.Ioi (zx expoW 1023), Real.exp (-t))| ≤ zv expoW expoF / 2 ^ 42 := by
  have h1 := expo_pdf 1023 (by decide) (by decide)
  have hr := zx_nonneg expoW _ _ _ expo_rowsOf 1023 (by decide)
  rw [integral_exp_neg_Ioi]
  unfold zv
  rw [expo_width]
  generalize zx expoW 1023 = r at *
  generalize zf expoF 1023 = F at *
  have he := Real.exp_pos (-r)
  generalize Real.exp (-r) = E at *
  have e : (r + 1) * F - (r * E + E) = (r + 1) * (F - E) := by ring
  rw [e, abs_mul, abs_of_pos (by linarith)]
  have h2 := abs_le.1 h1
  have h3 : E / 2 ^ 49 ≤ F / 2 ^ 42 := by
    have : E / 2 ^ 49 ≤ E / 2 := by
      refine div_le_div_of_nonneg_left he.le (by norm_num) (by norm_num)
    rw [div_le_div_iff₀ (by positivity) (by positivity)]
    nlinarith
  calc (r + 1) * |F - E| ≤ (r + 1) * (F / 2 ^ 42) := mul_le_mul_of_nonneg_left (h1.trans h3) (by linarith)
    _ = _ := by ring

theorem base_aux (x r F E G : ℝ) (hr : 1 ≤ r) (he : 0 < E) (hG : 0 ≤ G) (h1 : |F - E| ≤ E / 2 ^ 49)
    (hm : |x - (r + G / E)| ≤ 1 / 2 ^ 45) : |x * F - (r * E + G)| ≤ x * F / 2 ^ 42 := by
  have hGE : 0 ≤ G / E := by positivity
  have h2 := abs_le.1 h1
  have hm2 := abs_le.1 hm
  have hE2 : E / 2 ^ 49 ≤ E / 2 := div_le_div_of_nonneg_left he.le (by norm_num) (by norm_num)
  have hEF : E ≤ 2 * F := by linarith
  have hx : 1 / 2 ≤ x := by
    have : (1 : ℝ) / 2 ^ 45 ≤ 1 / 2 := by norm_num
    linarith
  have e : x * F - (r * E + G) = x * (F - E) + E * (x - (r + G / E)) := by
    field_simp
    ring
  rw [e]
  refine (abs_add_le _ _).trans ?_
  rw [abs_mul, abs_mul, abs_of_pos (by linarith : (0 : ℝ) < x), abs_of_pos he]
  have a1 : x * |F - E| ≤ x * (E / 2 ^ 49) := mul_le_mul_of_nonneg_left h1 (by linarith)
  have a2 : E * |x - (r + G / E)| ≤ E * (1 / 2 ^ 45) := mul_le_mul_of_nonneg_left hm he.le
  have a3 : E ≤ 2 * (x * E) := by nlinarith
  have a4 : x * E ≤ 2 * (x * F) := by nlinarith
  have e1 : x * (E / 2 ^ 49) = (x * E) * (1 / 2 ^ 49) := by ring
  have e2 : x * F / 2 ^ 42 = (x * F) * (1 / 2 ^ 42) := by ring
  have hxE : 0 < x * E := mul_pos (by linarith) he
  rw [e1] at a1
  rw [e2]
  generalize x * E = y at *
  generalize x * F = z at *
  generalize x * |F - E| = p at *
  generalize E * |x - (r + G / E)| = q at *
  norm_num at a1 a2 ⊢
  linarith

theorem normal_base : |zv normalW normalF - (zx normalW 1023 * Real.exp (-zx normalW 1023 ^ 2 / 2) +
    ∫ t in Set.Ioi (zx normalW 1023), Real.exp (-t ^ 2 / 2))| ≤ zv normalW normalF / 2 ^ 42 := by
  have h1 := normal_pdf 1023 (by decide) (by decide)
  have hc := normalRows_tail
  have hl := normal_rowsOf.len
  rw [getElem!_pos normalRows 0 (by omega), getElem!_pos normalRows 1023 (by omega)] at hc
  have hm := millsCheck_sound _ _ _ (by positivity) hc
  have hx0 := normal_rowsOf.w 0 (by decide)
  have hx1 := normal_rowsOf.w 1023 (by decide)
  rw [Nat.cast_pow, Nat.cast_ofNat] at hm
  rw [← hx0, ← hx1] at hm
  have hr : 1 ≤ zx normalW 1023 := by
    unfold millsCheck at hc
    simp only [Bool.and_eq_true, Nat.ble_eq, Nat.blt_eq] at hc
    rw [hx1, le_div_iff₀ (by positivity), one_mul]
    exact_mod_cast hc.1.1.1.1
  unfold zv
  have hG : 0 ≤ ∫ t in Set.Ioi (zx normalW 1023), Real.exp (-t ^ 2 / 2) := integral_nonneg fun t => (Real.exp_pos _).le
  exact base_aux _ _ _ _ _ hr (Real.exp_pos _) hG h1 hm

/-- C40, the exponential distribution: the shipped tables are those of a ziggurat for `exp (-x)`. -/
theorem C40_expo : IsZiggurat (fun x => Real.exp (-x)) expoK expoW expoF :=
  isZiggurat _ expoRows _ _ _ expo_rowsOf expoRows_W expoRows_F expoRows_ends expoRows_one (fun _ => Real.exp_pos _) expo_pdf
    expo_base

/-- C40, the normal distribution: the shipped tables are those of a ziggurat for `exp (-x^2/2)`. -/
theorem C40_normal : IsZiggurat (fun x => Real.exp (-x ^ 2 / 2)) normalK normalW normalF :=
  isZiggurat _ normalRows _ _ _ normal_rowsOf normalRows_W normalRows_F normalRows_ends normalRows_one (fun _ => Real.exp_pos _)
    normal_pdf normal_base

theorem expo_le : expoRows.all (fun r => Nat.ble r.w (11 * 2 ^ 61)) = true := by decide +kernel
theorem normal_le : normalRows.all (fun r => Nat.ble r.w (5 * 2 ^ 61)) = true := by decide +kernel

theorem rows_le (c : Nat) (R : List ZRow) (K : Vector U64 1024) (W F : Vector F64 1024) (hR : RowsOf R K W F)
    (h : R.all (fun r => Nat.ble r.w (c * 2 ^ 61)) = true) (i : Nat) (hi : i < 1024) : zx W i ≤ c := by
  rw [hR.w i hi, div_le_iff₀ (by positivity)]
  have := Nat.ble_eq.mp (List.all_eq_true.1 h _ (List.getElem_mem (n := i) (h := by rw [hR.len]; exact hi)))
  exact_mod_cast this

theorem expo_x_le (i : Nat) (hi : i < 1024) : zx expoW i ≤ 11 := by exact_mod_cast rows_le 11 _ _ _ _ expo_rowsOf expo_le i hi
theorem normal_x_le (i : Nat) (hi : i < 1024) : zx normalW i ≤ 5 := by exact_mod_cast rows_le 5 _ _ _ _ normal_rowsOf normal_le i hi

theorem expoR_row : ∃ m k, k ≤ 114 ∧ chkRow (925616454426554, 14) (m, k) = true ∧
    (Nat.ble (2 ^ 53 * expoRows[1023]!.w) (m * 2 ^ k + 2 ^ 67) && Nat.ble (m * 2 ^ k) (2 ^ 53 * expoRows[1023]!.w)) = true :=
  ⟨5210757399054285, 65, by decide +kernel⟩
theorem normalR_row : ∃ m k, k ≤ 114 ∧ chkRow (40388498461095, 13) (m, k) = true ∧
    (Nat.ble (2 ^ 53 * normalRows[1023]!.w) (m * 2 ^ k + 2 ^ 67) && Nat.ble (m * 2 ^ k) (2 ^ 53 * normalRows[1023]!.w)) = true :=
  ⟨4547340665486032, 64, by decide +kernel⟩

theorem ofDec_val' (d e m k : Nat) (hk : k ≤ 114) (hc : chkRow (d, e) (m, k) = true) :
    (F64.ofDec d e).val = ((m * 2 ^ k : Nat) : ℚ) / 2 ^ 114 ∧ (F64.ofDec d e).Valid ∧ (F64.ofDec d e).IsFin :=
  ofDec_row_val (d, e) (m, k) hc hk

theorem expoR_valid : expoR.Valid ∧ expoR.IsFin := by
  obtain ⟨m, k, hk, hc, h⟩ := expoR_row
  exact (ofDec_val' _ _ m k hk hc).2

theorem normalR_valid : normalR.Valid ∧ normalR.IsFin := by
  obtain ⟨m, k, hk, hc, h⟩ := normalR_row
  exact (ofDec_val' _ _ m k hk hc).2

theorem R_aux (w m k : Nat) (h : (Nat.ble (2 ^ 53 * w) (m * 2 ^ k + 2 ^ 67) && Nat.ble (m * 2 ^ k) (2 ^ 53 * w)) = true) :
    (((((m * 2 ^ k : Nat) : ℚ) / 2 ^ 114 : ℚ)) : ℝ) ≤ (w : ℝ) / 2 ^ 61 ∧
      (w : ℝ) / 2 ^ 61 ≤ (((((m * 2 ^ k : Nat) : ℚ) / 2 ^ 114 : ℚ)) : ℝ) + 1 / 2 ^ 47 := by
  simp only [Bool.and_eq_true, Nat.ble_eq] at h
  generalize m * 2 ^ k = n at *
  have h1 : (2 ^ 53 * w : ℝ) ≤ n + 2 ^ 67 := by exact_mod_cast h.1
  have h2 : (n : ℝ) ≤ 2 ^ 53 * w := by exact_mod_cast h.2
  rw [Rat.cast_div, Rat.cast_natCast, Rat.cast_pow, Rat.cast_ofNat, div_le_div_iff₀ (by positivity) (by positivity),
    div_add_div _ _ (by positivity) (by positivity), div_le_div_iff₀ (by positivity) (by positivity)]
  constructor <;> nlinarith

/-- C40: the constant `expoR`, where the tail begins, is the last abscissa, to within `2^-47` below it. -/
theorem C40_expoR : ((expoR.val : ℚ) : ℝ) ≤ zx expoW 1023 ∧ zx expoW 1023 ≤ ((expoR.val : ℚ) : ℝ) + 1 / 2 ^ 47 := by
  obtain ⟨m, k, hk, hc, h⟩ := expoR_row
  rw [getElem!_pos expoRows 1023 (by rw [expo_rowsOf.len]; decide)] at h
  have hv : expoR.val = _ := (ofDec_val' _ _ m k hk hc).1
  rw [expo_rowsOf.w 1023 (by decide), hv]
  generalize (expoRows[1023]'(by rw [expo_rowsOf.len]; decide)).w = w at h ⊢
  exact R_aux w m k h

/-- C40: the constant `normalR` likewise. -/
theorem C40_normalR : ((normalR.val : ℚ) : ℝ) ≤ zx normalW 1023 ∧ zx normalW 1023 ≤ ((normalR.val : ℚ) : ℝ) + 1 / 2 ^ 47 := by
  obtain ⟨m, k, hk, hc, h⟩ := normalR_row
  rw [getElem!_pos normalRows 1023 (by rw [normal_rowsOf.len]; decide)] at h
  have hv : normalR.val = _ := (ofDec_val' _ _ m k hk hc).1
  rw [normal_rowsOf.w 1023 (by decide), hv]
  generalize (normalRows[1023]'(by rw [normal_rowsOf.len]; decide)).w = w at h ⊢
  exact R_aux w m k h

end Crazy
