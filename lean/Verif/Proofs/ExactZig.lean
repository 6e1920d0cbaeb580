/-
Existence, uniqueness and comparison of ziggurats in the sense of `Verif.Spec.ExactZig`.
-/
import Verif.Model.ZigPy
import Verif.Spec.ExactZig
import Mathlib.MeasureTheory.Integral.IntervalIntegral.Basic
import Mathlib.Topology.Order.IntermediateValue
import Mathlib.Tactic.Linarith
import Mathlib.Tactic.ByContra
import Mathlib.Tactic.Positivity
import Mathlib.Tactic.FieldSimp
namespace Crazy
open MeasureTheory ZigPy

namespace Falling

variable {f : ℝ → ℝ} (hf : Falling f)
include hf

theorem intOn {a : ℝ} (ha : 0 ≤ a) : IntegrableOn f (Set.Ioi a) := hf.int.mono_set (Set.Ioi_subset_Ioi ha)

theorem split {a b : ℝ} (ha : 0 ≤ a) (hab : a ≤ b) :
    ∫ t in Set.Ioi a, f t = (∫ t in Set.Ioc a b, f t) + ∫ t in Set.Ioi b, f t := by
  rw [← Set.Ioc_union_Ioi_eq_Ioi hab, setIntegral_union (Set.Ioc_disjoint_Ioi le_rfl) measurableSet_Ioi
    ((hf.intOn ha).mono_set Set.Ioc_subset_Ioi_self) (hf.intOn (ha.trans hab))]

theorem piece_le {a b : ℝ} (ha : 0 ≤ a) (hab : a ≤ b) : ∫ t in Set.Ioc a b, f t ≤ (b - a) * f a := by
  have h := setIntegral_mono_on (μ := volume) (s := Set.Ioc a b) (f := f) (g := fun _ => f a)
    ((hf.intOn ha).mono_set Set.Ioc_subset_Ioi_self) (by simp) measurableSet_Ioc
    (fun t ht => hf.anti.antitoneOn (Set.mem_Ici.mpr ha) (Set.mem_Ici.mpr (ha.trans ht.1.le)) ht.1.le)
  rw [setIntegral_const, Real.volume_real_Ioc_of_le hab] at h
  exact h

theorem le_piece {a b : ℝ} (ha : 0 ≤ a) (hab : a ≤ b) : (b - a) * f b ≤ ∫ t in Set.Ioc a b, f t := by
  have h := setIntegral_mono_on (μ := volume) (s := Set.Ioc a b) (g := f) (f := fun _ => f b)
    (by simp) ((hf.intOn ha).mono_set Set.Ioc_subset_Ioi_self) measurableSet_Ioc
    (fun t ht => hf.anti.antitoneOn (Set.mem_Ici.mpr (ha.trans ht.1.le)) (Set.mem_Ici.mpr (ha.trans hab)) ht.2)
  rw [setIntegral_const, Real.volume_real_Ioc_of_le hab] at h
  exact h

/-- The area at the bottom, from two places of the cut. -/
theorem area_ge {a b : ℝ} (ha : 0 ≤ a) (hab : a ≤ b) : a * (f a - f b) ≤ area f a - area f b := by
  have h := hf.split ha hab
  have h1 := hf.le_piece ha hab
  unfold area
  rw [h]
  nlinarith

theorem area_le {a b : ℝ} (ha : 0 ≤ a) (hab : a ≤ b) : area f a - area f b ≤ b * (f a - f b) := by
  have h := hf.split ha hab
  have h1 := hf.piece_le ha hab
  unfold area
  rw [h]
  nlinarith

theorem lt_iff {a b : ℝ} (ha : 0 ≤ a) (hb : 0 ≤ b) : f a < f b ↔ b < a := hf.anti.lt_iff_gt ha hb

theorem le_iff {a b : ℝ} (ha : 0 ≤ a) (hb : 0 ≤ b) : f a ≤ f b ↔ b ≤ a := hf.anti.le_iff_ge ha hb

theorem area_lt {a b : ℝ} (ha : 0 < a) (hab : a < b) : area f b < area f a := by
  have h := hf.area_ge ha.le hab.le
  have h1 := mul_pos ha (sub_pos.mpr ((hf.lt_iff (ha.le.trans hab.le) ha.le).mpr hab))
  linarith

theorem area_anti {a b : ℝ} (ha : 0 ≤ a) (hab : a ≤ b) : area f b ≤ area f a := by
  have h := hf.area_ge ha hab
  have h1 := mul_nonneg ha (sub_nonneg.mpr ((hf.le_iff (ha.trans hab) ha).mpr hab))
  linarith

theorem tail_nonneg {a : ℝ} (ha : 0 ≤ a) : 0 ≤ ∫ t in Set.Ioi a, f t :=
  setIntegral_nonneg measurableSet_Ioi fun t ht => (hf.pos t (ha.trans (le_of_lt ht))).le

theorem area_pos {a : ℝ} (ha : 0 < a) : 0 < area f a :=
  add_pos_of_pos_of_nonneg (mul_pos ha (hf.pos a ha.le)) (hf.tail_nonneg ha.le)

theorem tail_pos {a : ℝ} (ha : 0 ≤ a) : 0 < ∫ t in Set.Ioi a, f t := by
  rw [hf.split ha (b := a + 1) (by linarith)]
  have h1 := hf.le_piece ha (b := a + 1) (by linarith)
  have h2 := hf.tail_nonneg (a := a + 1) (by linarith)
  have h3 := hf.pos (a + 1) (by linarith)
  nlinarith

/-- The density becomes as small as one wants. -/
theorem small {c : ℝ} (hc : 0 < c) : ∃ b, 0 < b ∧ f b < c := by
  have h0 : 0 < (area f 0 + 1) / c := div_pos (by have := hf.tail_nonneg le_rfl; unfold area; linarith) hc
  have hb : (area f 0 + 1) / c * c = area f 0 + 1 := div_mul_cancel₀ _ hc.ne'
  generalize (area f 0 + 1) / c = b at h0 hb
  refine ⟨b, h0, ?_⟩
  have h1 := hf.area_anti le_rfl h0.le
  have h2 := hf.tail_nonneg h0.le
  by_contra hge
  push Not at hge
  have h3 := mul_le_mul_of_nonneg_left hge h0.le
  rw [hb] at h3
  have h4 : area f b = b * f b + ∫ t in Set.Ioi b, f t := rfl
  linarith

theorem contAt {x : ℝ} (hx : 0 < x) : ContinuousAt f x := hf.cont.continuousAt (Ici_mem_nhds hx)

end Falling

/-! ### Comparison -/

theorem ExactZig.nonneg {f n x v} (h : ExactZig f n x v) : ∀ i, i < n → 0 ≤ x i := by
  intro i
  induction i with
  | zero => intro _; exact h.zero.ge
  | succ i ih => intro hi; exact (ih (by omega)).trans (h.lt i hi).le

theorem ExactZig.pos {f n x v} (h : ExactZig f n x v) (i : Nat) (hi : i + 1 < n) : 0 < x (i + 1) :=
  lt_of_le_of_lt (h.nonneg i (by omega)) (h.lt i hi)

theorem ExactZig.step {f n x v} (h : ExactZig f n x v) (i : Nat) (hi : i + 1 < n) : f (x i) = f (x (i + 1)) + v / x (i + 1) := by
  have h1 := h.layer i hi
  have h2 := h.pos i hi
  field_simp
  linarith

/-- Of two ziggurats with as many layers neither reaches farther. -/
theorem ExactZig.not_lt {f n x v x' v'} (hf : Falling f) (hn : 2 ≤ n) (h : ExactZig f n x v) (h' : ExactZig f n x' v') :
    ¬ x (n - 1) < x' (n - 1) := by
  intro hlt
  have hpos := h.pos (n - 2) (by omega)
  have hpos' := h'.pos (n - 2) (by omega)
  rw [show n - 2 + 1 = n - 1 by omega] at hpos hpos'
  have hv : v' < v := by rw [← h.base, ← h'.base]; exact hf.area_lt hpos hlt
  have hv0 : 0 < v' := by rw [← h'.base]; exact hf.area_pos hpos'
  have key : ∀ j, j < n → x (n - 1 - j) < x' (n - 1 - j) := by
    intro j
    induction j with
    | zero => intro _; exact hlt
    | succ j ih =>
      intro hj
      have h1 := ih (by omega)
      have e : n - 1 - j = n - 1 - (j + 1) + 1 := by omega
      rw [e] at h1
      have h2 := h.step (n - 1 - (j + 1)) (by omega)
      have h3 := h'.step (n - 1 - (j + 1)) (by omega)
      have p2 := h.pos (n - 1 - (j + 1)) (by omega)
      have p3 := h'.pos (n - 1 - (j + 1)) (by omega)
      rw [← hf.lt_iff (h'.nonneg _ (by omega)) (h.nonneg _ (by omega)), h2, h3]
      exact add_lt_add ((hf.lt_iff p3.le p2.le).mpr h1) (div_lt_div₀ hv h1.le (hv0.trans hv).le p2)
  have := key (n - 1) (by omega)
  rw [Nat.sub_self, h.zero, h'.zero] at this
  exact lt_irrefl _ this

theorem ExactZig.unique {f n x v x' v'} (hf : Falling f) (hn : 2 ≤ n) (h : ExactZig f n x v) (h' : ExactZig f n x' v') :
    v = v' ∧ ∀ i < n, x i = x' i := by
  have e : x (n - 1) = x' (n - 1) := le_antisymm (_root_.not_lt.mp (h'.not_lt hf hn h)) (_root_.not_lt.mp (h.not_lt hf hn h'))
  have hv : v = v' := by rw [← h.base, ← h'.base, e]
  have key : ∀ j, j < n → x (n - 1 - j) = x' (n - 1 - j) := by
    intro j
    induction j with
    | zero => intro _; exact e
    | succ j ih =>
      intro hj
      have h1 := ih (by omega)
      rw [show n - 1 - j = n - 1 - (j + 1) + 1 by omega] at h1
      have h2 := h.step (n - 1 - (j + 1)) (by omega)
      have h3 := h'.step (n - 1 - (j + 1)) (by omega)
      rw [h1, hv, ← h3] at h2
      exact hf.anti.injOn (h.nonneg _ (by omega)) (h'.nonneg _ (by omega)) h2
  refine ⟨hv, fun i hi => ?_⟩
  have := key (n - 1 - i) (by omega)
  rwa [show n - 1 - (n - 1 - i) = i by omega] at this

/-- The area of the box under a corner. -/
theorem ExactZig.box {f n x v} (hf : Falling f) (h : ExactZig f n x v) (hn : 2 ≤ n) (i : Nat) (hi : i < n) : x i * f (x i) ≤ n * v := by
  have hpos := h.pos (n - 2) (by omega)
  rw [show n - 2 + 1 = n - 1 by omega] at hpos
  have hv0 : 0 < v := by rw [← h.base]; exact hf.area_pos hpos
  have key : ∀ j, j < n → x (n - 1 - j) * f (x (n - 1 - j)) ≤ (j + 1 : ℕ) * v := by
    intro j
    induction j with
    | zero =>
      intro _
      have := hf.tail_nonneg hpos.le
      have := h.base
      simp only [Nat.sub_zero, zero_add, Nat.cast_one, one_mul]
      linarith
    | succ j ih =>
      intro hj
      have h1 := ih (by omega)
      rw [show n - 1 - j = n - 1 - (j + 1) + 1 by omega] at h1
      have h2 := h.layer (n - 1 - (j + 1)) (by omega)
      have h3 := h.lt (n - 1 - (j + 1)) (by omega)
      have h4 := hf.pos _ (h.nonneg (n - 1 - (j + 1)) (by omega))
      push_cast at h1 ⊢
      nlinarith
  have := key (n - 1 - i) (by omega)
  rw [show n - 1 - (n - 1 - i) = i by omega] at this
  refine this.trans (mul_le_mul_of_nonneg_right ?_ hv0.le)
  exact_mod_cast (by omega : n - 1 - i + 1 ≤ n)

/-! ### Existence -/

namespace Falling

variable {f : ℝ → ℝ} (hf : Falling f)
include hf

/-- The area of a layer grows with its width. -/
theorem layer_lt {a x y : ℝ} (ha : 0 ≤ a) (hx : a ≤ x) (hxy : x < y) : x * (f a - f x) < y * (f a - f y) := by
  have h1 := (hf.lt_iff (ha.trans (hx.trans hxy.le)) (ha.trans hx)).mpr hxy
  have h2 := (hf.le_iff (ha.trans hx) ha).mpr hx
  have h3 : 0 < y := lt_of_le_of_lt (ha.trans hx) hxy
  nlinarith [mul_nonneg (sub_nonneg.mpr hxy.le) (sub_nonneg.mpr h2)]

/-- There is a layer of any area. -/
theorem exists_layer {a v : ℝ} (ha : 0 ≤ a) (hv : 0 < v) : ∃ x, a < x ∧ x * (f a - f x) = v := by
  obtain ⟨b, hb, hs⟩ := hf.small (half_pos (hf.pos a ha))
  have hfa := hf.pos a ha
  have hab : a < b := by
    rw [← hf.lt_iff hb.le ha]; linarith
  have hc : 0 < 2 * v / f a := by positivity
  have hX : f (max b (2 * v / f a)) ≤ f b := (hf.le_iff (hb.le.trans (le_max_left _ _)) hb.le).mpr (le_max_left _ _)
  have hX2 : 2 * v / f a ≤ max b (2 * v / f a) := le_max_right _ _
  have hX3 : a < max b (2 * v / f a) := lt_of_lt_of_le hab (le_max_left _ _)
  generalize max b (2 * v / f a) = X at hX hX2 hX3
  rw [div_le_iff₀ hfa] at hX2
  have hcont : ContinuousOn (fun x => x * (f a - f x)) (Set.Icc a X) :=
    continuousOn_id.mul (continuousOn_const.sub (hf.cont.mono fun t ht => ha.trans ht.1))
  obtain ⟨x, hx, he⟩ := intermediate_value_Icc hX3.le hcont (show v ∈ Set.Icc (a * (f a - f a)) (X * (f a - f X)) by
    rw [sub_self, mul_zero]
    refine ⟨hv.le, ?_⟩
    have : 0 < X := lt_of_le_of_lt ha hX3
    nlinarith)
  refine ⟨x, lt_of_le_of_ne hx.1 fun e => ?_, he⟩
  subst e
  simp only [sub_self, mul_zero] at he
  exact hv.ne he

open Classical in
/-- The place where a layer of area `v` below `a` ends. -/
noncomputable def _root_.Crazy.layerEnd (f : ℝ → ℝ) (a v : ℝ) : ℝ := if h : ∃ x, a < x ∧ x * (f a - f x) = v then h.choose else 0

theorem layerEnd_spec {a v : ℝ} (ha : 0 ≤ a) (hv : 0 < v) : a < layerEnd f a v ∧ layerEnd f a v * (f a - f (layerEnd f a v)) = v := by
  unfold layerEnd
  rw [dif_pos (hf.exists_layer ha hv)]
  exact (hf.exists_layer ha hv).choose_spec

theorem lt_layerEnd {a v x : ℝ} (ha : 0 ≤ a) (hv : 0 < v) (hx : a ≤ x) : x < layerEnd f a v ↔ x * (f a - f x) < v := by
  obtain ⟨h1, h2⟩ := hf.layerEnd_spec ha hv
  constructor
  · intro h
    have := hf.layer_lt ha hx h
    rwa [h2] at this
  · intro h
    by_contra hc
    rcases (_root_.not_lt.mp hc).eq_or_lt with e | h3
    · rw [← e, h2] at h
      exact lt_irrefl _ h
    · have := hf.layer_lt ha h1.le h3
      rw [h2] at this
      exact lt_irrefl _ (this.trans h)

theorem layerEnd_lt {a v x : ℝ} (ha : 0 ≤ a) (hv : 0 < v) (hx : a ≤ x) : layerEnd f a v < x ↔ v < x * (f a - f x) := by
  obtain ⟨h1, h2⟩ := hf.layerEnd_spec ha hv
  constructor
  · intro h
    have := hf.layer_lt ha h1.le h
    rwa [h2] at this
  · intro h
    by_contra hc
    rcases (_root_.not_lt.mp hc).eq_or_lt with e | h3
    · rw [e, h2] at h
      exact lt_irrefl _ h
    · have := hf.layer_lt ha hx h3
      rw [h2] at this
      exact lt_irrefl _ (this.trans h)

/-- The end of layer `i` from the top, all of area `v`. -/
noncomputable def _root_.Crazy.cut (f : ℝ → ℝ) (v : ℝ) : Nat → ℝ
  | 0 => 0
  | i + 1 => layerEnd f (cut f v i) v

theorem cut_nonneg {v : ℝ} (hv : 0 < v) (i : Nat) : 0 ≤ cut f v i := by
  induction i with
  | zero => exact le_rfl
  | succ i ih => exact ih.trans (hf.layerEnd_spec ih hv).1.le

theorem cut_lt {v : ℝ} (hv : 0 < v) (i : Nat) : cut f v i < cut f v (i + 1) := (hf.layerEnd_spec (hf.cut_nonneg hv i) hv).1

theorem cut_cont (i : Nat) : ContinuousOn (fun v => cut f v i) (Set.Ioi 0) := by
  induction i with
  | zero => exact continuousOn_const
  | succ i ih =>
    intro v hv
    have hv : 0 < v := hv
    have ih1 : ContinuousWithinAt (fun v => cut f v i) (Set.Ioi 0) v := ih v hv
    have ih2 : Filter.Tendsto (fun v => f (cut f v i)) (nhdsWithin v (Set.Ioi 0)) (nhds (f (cut f v i))) := by
      have h := (hf.cont (cut f v i) (hf.cut_nonneg hv i)).comp (f := fun v => cut f v i) (s := Set.Ioi 0) ih1 (fun t ht => hf.cut_nonneg ht i)
      exact h
    have hid : Filter.Tendsto (fun w : ℝ => w) (nhdsWithin v (Set.Ioi 0)) (nhds v) := Filter.tendsto_id.mono_left nhdsWithin_le_nhds
    have hmem : ∀ᶠ w in nhdsWithin v (Set.Ioi 0), 0 < w := self_mem_nhdsWithin
    have ha := hf.cut_nonneg hv i
    obtain ⟨h1, h2⟩ := hf.layerEnd_spec ha hv
    refine tendsto_order.2 ⟨fun b hb => ?_, fun b hb => ?_⟩
    · -- from below
      have hb : b < layerEnd f (cut f v i) v := hb
      obtain ⟨x, hx1, hx2⟩ := exists_between (max_lt hb h1)
      have hax : cut f v i < x := lt_of_le_of_lt (le_max_right _ _) hx1
      have e1 := (hf.lt_layerEnd ha hv hax.le).mp hx2
      have t1 : Filter.Tendsto (fun w => x * (f (cut f w i) - f x) - w) (nhdsWithin v (Set.Ioi 0)) (nhds (x * (f (cut f v i) - f x) - v)) :=
        ((ih2.sub_const _).const_mul x).sub hid
      have t2 := t1.eventually (gt_mem_nhds (show x * (f (cut f v i) - f x) - v < 0 by linarith))
      have t3 := ih1.eventually (gt_mem_nhds hax)
      filter_upwards [t2, t3, hmem] with w w2 w3 w4
      exact (lt_of_le_of_lt (le_max_left _ _) hx1).trans
        ((hf.lt_layerEnd (hf.cut_nonneg w4 i) w4 (le_of_lt w3)).mpr (by linarith))
    · have hb : layerEnd f (cut f v i) v < b := hb
      have hab := h1.trans hb
      have e1 := (hf.layerEnd_lt ha hv hab.le).mp hb
      have t1 : Filter.Tendsto (fun w => b * (f (cut f w i) - f b) - w) (nhdsWithin v (Set.Ioi 0)) (nhds (b * (f (cut f v i) - f b) - v)) :=
        ((ih2.sub_const _).const_mul b).sub hid
      have t2 := t1.eventually (lt_mem_nhds (show 0 < b * (f (cut f v i) - f b) - v by linarith))
      have t3 := ih1.eventually (gt_mem_nhds hab)
      filter_upwards [t2, t3, hmem] with w w2 w3 w4
      exact (hf.layerEnd_lt (hf.cut_nonneg w4 i) w4 (le_of_lt w3)).mpr (by linarith)

/-- The rectangles cover the density. -/
theorem cut_cover {v : ℝ} (hv : 0 < v) (i : Nat) : area f 0 ≤ i * v + area f (cut f v i) := by
  induction i with
  | zero => rw [Nat.cast_zero, zero_mul, zero_add]; exact le_rfl
  | succ i ih =>
    have h := hf.area_le (hf.cut_nonneg hv i) (hf.cut_lt hv i).le
    have h2 := (hf.layerEnd_spec (hf.cut_nonneg hv i) hv).2
    have e : cut f v (i + 1) = layerEnd f (cut f v i) v := rfl
    rw [← e] at h2
    rw [h2] at h
    push_cast
    linarith

theorem area_cont : ContinuousOn (fun a => area f a) (Set.Ioi 0) := by
  intro a ha
  have ha : 0 < a := ha
  refine ContinuousAt.continuousWithinAt ?_
  -- squeezed between the two bounds
  have hc := hf.contAt ha
  have t0 : ∀ᶠ b in nhds a, 0 < b := lt_mem_nhds ha
  have key : ∀ b, 0 < b → |area f b - area f a| ≤ (a + b) * |f b - f a| := by
    intro b hb
    rcases le_total a b with h | h
    · have h1 := hf.area_anti ha.le h
      have h2 := hf.area_le ha.le h
      have h3 := (hf.le_iff hb.le ha.le).mpr h
      rw [abs_of_nonpos (by linarith), abs_of_nonpos (by linarith)]
      nlinarith
    · have h1 := hf.area_anti hb.le h
      have h2 := hf.area_le hb.le h
      have h3 := (hf.le_iff ha.le hb.le).mpr h
      rw [abs_of_nonneg (by linarith), abs_of_nonneg (by linarith)]
      nlinarith
  have t1 : Filter.Tendsto (fun b => (a + b) * |f b - f a|) (nhds a) (nhds ((a + a) * |f a - f a|)) :=
    (Filter.tendsto_id.const_add a).mul (hc.tendsto.sub_const _).abs
  rw [sub_self, abs_zero, mul_zero] at t1
  refine tendsto_iff_dist_tendsto_zero.mpr (squeeze_zero' (Filter.Eventually.of_forall fun _ => dist_nonneg) ?_ t1)
  filter_upwards [t0] with b hb
  rw [Real.dist_eq]
  exact key b hb

/-- There is a ziggurat of any number of layers. -/
theorem exists_zig (n : Nat) (hn : 2 ≤ n) : ∃ x v, ExactZig f n x v := by
  have hA : 0 < area f 0 := by
    have := hf.tail_pos le_rfl
    unfold area
    linarith
  obtain ⟨m, rfl⟩ : ∃ m, n = m + 1 + 1 := ⟨n - 2, by omega⟩
  have hp : ∀ {v : ℝ}, 0 < v → 0 < cut f v (m + 1) := fun hv => lt_of_le_of_lt (hf.cut_nonneg hv m) (hf.cut_lt hv m)
  have hcont : ContinuousOn (fun v => area f (cut f v (m + 1)) - v) (Set.Ioi 0) :=
    (hf.area_cont.comp (hf.cut_cont (m + 1)) fun v hv => hp hv).sub continuousOn_id
  have hn0 : (0 : ℝ) < (m : ℝ) + 3 := by positivity
  have hs : 0 < area f 0 / ((m : ℝ) + 3) := by positivity
  have hle : area f 0 / ((m : ℝ) + 3) ≤ area f 0 := div_le_self hA.le (by have : (0 : ℝ) ≤ m := by positivity
                                                                          linarith)
  obtain ⟨v, hv, he⟩ := intermediate_value_Icc' hle (hcont.mono fun t ht => lt_of_lt_of_le hs ht.1)
    (show (0 : ℝ) ∈ Set.Icc (area f (cut f (area f 0) (m + 1)) - area f 0)
      (area f (cut f (area f 0 / ((m : ℝ) + 3)) (m + 1)) - area f 0 / ((m : ℝ) + 3)) by
        constructor
        · have := hf.area_anti le_rfl (hp hA).le
          linarith
        · have := hf.cut_cover hs (m + 1)
          have e : ((m : ℝ) + 3) * (area f 0 / ((m : ℝ) + 3)) = area f 0 := mul_div_cancel₀ _ hn0.ne'
          push_cast at this
          nlinarith)
  have hv0 : 0 < v := lt_of_lt_of_le hs hv.1
  refine ⟨cut f v, v, rfl, fun i _ => hf.cut_lt hv0 i, fun i _ => (hf.layerEnd_spec (hf.cut_nonneg hv0 i) hv0).2, ?_⟩
  have he : area f (cut f v (m + 1)) - v = 0 := he
  have : area f (cut f v (m + 1)) = v := by linarith
  exact this

end Falling

end Crazy
