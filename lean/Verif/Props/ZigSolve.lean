/-
C85: the program that made the tables. For every continuous, strictly decreasing, positive, integrable density there is just one ziggurat of `n`
layers; the function whose root `ziggurat.py` looks for has just one, with the right sign on both sides, and there the program returns that
ziggurat; the tables that are made of it accept at once only points below the curve; and the shipped tables are near those of the one ziggurat.
-/
import Verif.Proofs.ExactZig
import Verif.Props.ZigTables
namespace Crazy
open MeasureTheory ZigPy

/-- C85: for every density and every number of layers from two there is a ziggurat. -/
theorem C85_exists (f : ℝ → ℝ) (hf : Falling f) (n : Nat) (hn : 2 ≤ n) : ∃ x v, ExactZig f n x v := hf.exists_zig n hn

/-- C85: and only one. -/
theorem C85_unique (f : ℝ → ℝ) (hf : Falling f) (n : Nat) (hn : 2 ≤ n) (x x' : Nat → ℝ) (v v' : ℝ) (h : ExactZig f n x v)
    (h' : ExactZig f n x' v') : v = v' ∧ ∀ i < n, x i = x' i := h.unique hf hn h'

namespace ZigPy

variable {f : ℝ → ℝ} (hf : Falling f) {r : ℝ} (hr : 0 < r)

theorem rise_succ (f : ℝ → ℝ) (r : ℝ) (i : Nat) : (rise f r (i + 1)).2 = (rise f r i).2 + area f r / (rise f r i).1 := rfl

include hf hr

theorem rise_ok (i : Nat) (h : ∀ j < i, ¬ Breaks f r j) : 0 < (rise f r i).1 ∧ (rise f r i).1 ≤ r ∧ f (rise f r i).1 = (rise f r i).2 := by
  induction i with
  | zero => exact ⟨hr, le_rfl, rfl⟩
  | succ i ih =>
    obtain ⟨h1, h2, h3⟩ := ih fun j hj => h j (by omega)
    have hb : (rise f r (i + 1)).2 < f 0 := not_le.mp (h i (by omega))
    have hy : (rise f r i).2 < (rise f r (i + 1)).2 := by
      rw [rise_succ]
      have := div_pos (hf.area_pos hr) h1
      linarith
    have hex : ∃ t ∈ Set.Ici (0 : ℝ), f t = (rise f r (i + 1)).2 := by
      obtain ⟨t, ht, e⟩ := intermediate_value_Icc' h1.le (hf.cont.mono fun t ht => ht.1)
        (show (rise f r (i + 1)).2 ∈ Set.Icc (f (rise f r i).1) (f 0) from ⟨by rw [h3]; exact hy.le, hb.le⟩)
      exact ⟨t, ht.1, e⟩
    have e1 : f (rise f r (i + 1)).1 = (rise f r (i + 1)).2 := Function.invFunOn_eq hex
    have e2 : (0 : ℝ) ≤ (rise f r (i + 1)).1 := Function.invFunOn_mem hex
    refine ⟨lt_of_le_of_ne e2 fun e => ?_, ?_, e1⟩
    · rw [← e1, ← e] at hb
      exact lt_irrefl _ hb
    · refine le_trans (le_of_lt ?_) h2
      rw [← hf.lt_iff h1.le e2, h3, e1]
      exact hy

theorem breaks_exists : ∃ i, Breaks f r i := by
  by_contra hc
  push Not at hc
  have hd : 0 < area f r / r := div_pos (hf.area_pos hr) hr
  have key : ∀ i : Nat, i * (area f r / r) ≤ (rise f r i).2 := by
    intro i
    induction i with
    | zero => rw [Nat.cast_zero, zero_mul]; exact (hf.pos r hr.le).le
    | succ i ih =>
      obtain ⟨h1, h2, -⟩ := rise_ok hf hr i fun j _ => hc j
      rw [rise_succ]
      have := div_le_div_of_nonneg_left (hf.area_pos hr).le h1 h2
      push_cast
      linarith
  obtain ⟨k, hk⟩ := exists_nat_gt (f 0 / (area f r / r))
  rw [div_lt_iff₀ hd] at hk
  have h1 := key (k + 1)
  have h2 : (rise f r (k + 1)).2 < f 0 := not_le.mp (hc k)
  push_cast at h1
  linarith

theorem turn_spec : Breaks f r (turn f r) ∧ ∀ j < turn f r, ¬ Breaks f r j := by
  classical
  have h := breaks_exists hf hr
  unfold turn
  rw [dif_pos h]
  exact ⟨Nat.find_spec h, fun j hj => Nat.find_min h hj⟩

theorem turn_eq (i : Nat) (h : Breaks f r i) (h' : ∀ j < i, ¬ Breaks f r j) : turn f r = i := by
  obtain ⟨h1, h2⟩ := turn_spec hf hr
  rcases Nat.lt_trichotomy i (turn f r) with hlt | e | hlt
  · exact absurd h (h2 i hlt)
  · exact e.symm
  · exact absurd h1 (h' _ hlt)

omit hf hr in
theorem xi_length (f : ℝ → ℝ) (r : ℝ) : (xi f r).length = turn f r + 2 := by
  unfold xi
  rw [List.length_append, List.length_map, List.length_range]
  rfl

/-- To the left of the solution the loop is ahead. -/
theorem rise_left {n x v} (hn : 2 ≤ n) (h : ExactZig f n x v) (hlt : r < x (n - 1)) (i : Nat) (hi : i + 2 ≤ n) (hb : ∀ j < i, ¬ Breaks f r j) :
    (rise f r i).1 < x (n - 1 - i) ∧ f (x (n - 2 - i)) < (rise f r (i + 1)).2 := by
  have hpos := h.pos (n - 2) (by omega)
  rw [show n - 2 + 1 = n - 1 by omega] at hpos
  have hv : v < area f r := by rw [← h.base]; exact hf.area_lt hr hlt
  have hv0 : 0 < v := by rw [← h.base]; exact hf.area_pos hpos
  have main : ∀ i, i + 2 ≤ n → (∀ j < i, ¬ Breaks f r j) → (rise f r i).1 < x (n - 1 - i) → f (x (n - 2 - i)) < (rise f r (i + 1)).2 := by
    intro i hi hb h1
    obtain ⟨p1, -, p3⟩ := rise_ok hf hr i hb
    have h2 := h.step (n - 2 - i) (by omega)
    rw [show n - 2 - i + 1 = n - 1 - i by omega] at h2
    rw [h2, rise_succ, ← p3]
    exact add_lt_add ((hf.lt_iff (h.nonneg _ (by omega)) p1.le).mpr h1) (div_lt_div₀ hv h1.le (hv0.trans hv).le p1)
  have h1 : (rise f r i).1 < x (n - 1 - i) := by
    induction i with
    | zero => exact hlt
    | succ i ih =>
      have ih := ih (by omega) fun j hj => hb j (by omega)
      have h3 := main i (by omega) (fun j hj => hb j (by omega)) ih
      obtain ⟨p1, -, p3⟩ := rise_ok hf hr (i + 1) hb
      rw [← p3, hf.lt_iff (h.nonneg _ (by omega)) p1.le] at h3
      rw [show n - 1 - (i + 1) = n - 2 - i by omega]
      exact h3
  exact ⟨h1, main i hi hb h1⟩

/-- To the right of the solution it lags behind. -/
theorem rise_right {n x v} (hn : 2 ≤ n) (h : ExactZig f n x v) (hlt : x (n - 1) < r) (i : Nat) (hi : i + 2 ≤ n) :
    (∀ j < i, ¬ Breaks f r j) ∧ x (n - 1 - i) < (rise f r i).1 ∧ (rise f r (i + 1)).2 < f (x (n - 2 - i)) := by
  have hpos := h.pos (n - 2) (by omega)
  rw [show n - 2 + 1 = n - 1 by omega] at hpos
  have hv : area f r < v := by rw [← h.base]; exact hf.area_lt hpos hlt
  have hv0 : 0 < v := by rw [← h.base]; exact hf.area_pos hpos
  have main : ∀ i, i + 2 ≤ n → (∀ j < i, ¬ Breaks f r j) → x (n - 1 - i) < (rise f r i).1 → (rise f r (i + 1)).2 < f (x (n - 2 - i)) := by
    intro i hi hb h1
    obtain ⟨p1, -, p3⟩ := rise_ok hf hr i hb
    have h2 := h.step (n - 2 - i) (by omega)
    have h3 := h.pos (n - 2 - i) (by omega)
    rw [show n - 2 - i + 1 = n - 1 - i by omega] at h2 h3
    rw [h2, rise_succ, ← p3]
    exact add_lt_add ((hf.lt_iff p1.le (h.nonneg _ (by omega))).mpr h1) (div_lt_div₀ hv h1.le hv0.le h3)
  have h1 : (∀ j < i, ¬ Breaks f r j) ∧ x (n - 1 - i) < (rise f r i).1 := by
    induction i with
    | zero => exact ⟨fun j hj => absurd hj (Nat.not_lt_zero j), hlt⟩
    | succ i ih =>
      obtain ⟨ih1, ih2⟩ := ih (by omega)
      have h3 := main i (by omega) ih1 ih2
      have hb : ∀ j < i + 1, ¬ Breaks f r j := by
        intro j hj
        rcases Nat.lt_succ_iff_lt_or_eq.mp hj with hj | rfl
        · exact ih1 j hj
        · refine not_le.mpr (lt_of_lt_of_le h3 ?_)
          exact (hf.le_iff (h.nonneg _ (by omega)) le_rfl).mpr (h.nonneg _ (by omega))
      refine ⟨hb, ?_⟩
      obtain ⟨p1, -, p3⟩ := rise_ok hf hr (i + 1) hb
      rw [← p3, hf.lt_iff p1.le (h.nonneg _ (by omega))] at h3
      rw [show n - 1 - (i + 1) = n - 2 - i by omega]
      exact h3
  exact ⟨h1.1, h1.2, main i hi h1.1 h1.2⟩

/-- At the solution it follows it. -/
theorem rise_at {n x v} (_hn : 2 ≤ n) (h : ExactZig f n x v) (hlt : r = x (n - 1)) (i : Nat) (hi : i + 2 ≤ n) :
    (∀ j < i, ¬ Breaks f r j) ∧ (rise f r i).1 = x (n - 1 - i) ∧ (rise f r (i + 1)).2 = f (x (n - 2 - i)) := by
  have hv : area f r = v := by rw [← h.base, hlt]; rfl
  have main : ∀ i, i + 2 ≤ n → (∀ j < i, ¬ Breaks f r j) → (rise f r i).1 = x (n - 1 - i) → (rise f r (i + 1)).2 = f (x (n - 2 - i)) := by
    intro i hi hb h1
    obtain ⟨p1, -, p3⟩ := rise_ok hf hr i hb
    have h2 := h.step (n - 2 - i) (by omega)
    rw [show n - 2 - i + 1 = n - 1 - i by omega] at h2
    rw [h2, rise_succ, ← p3, h1, hv]
  have h1 : (∀ j < i, ¬ Breaks f r j) ∧ (rise f r i).1 = x (n - 1 - i) := by
    induction i with
    | zero => exact ⟨fun j hj => absurd hj (Nat.not_lt_zero j), hlt⟩
    | succ i ih =>
      obtain ⟨ih1, ih2⟩ := ih (by omega)
      have h3 := main i (by omega) ih1 ih2
      have hb : ∀ j < i + 1, ¬ Breaks f r j := by
        intro j hj
        rcases Nat.lt_succ_iff_lt_or_eq.mp hj with hj | rfl
        · exact ih1 j hj
        · refine not_le.mpr ?_
          rw [h3, show n - 2 - j = n - 3 - j + 1 by omega]
          exact (hf.lt_iff (h.nonneg _ (by omega)) le_rfl).mpr (h.pos _ (by omega))
      refine ⟨hb, ?_⟩
      obtain ⟨p1, -, p3⟩ := rise_ok hf hr (i + 1) hb
      rw [show n - 1 - (i + 1) = n - 2 - i by omega]
      exact hf.anti.injOn p1.le (h.nonneg _ (by omega)) (p3.trans h3)
  exact ⟨h1.1, h1.2, main i hi h1.1 h1.2⟩

theorem mini_neg {n x v} (hn : 2 ≤ n) (h : ExactZig f n x v) (hlt : r < x (n - 1)) : mini f n r < 0 := by
  obtain ⟨h1, h2⟩ := turn_spec hf hr
  have ht : turn f r + 2 ≤ n := by
    by_contra hc
    have h3 := (rise_left hf hr hn h hlt (n - 2) (by omega) fun j hj => h2 j (by omega)).2
    rw [Nat.sub_self, h.zero] at h3
    exact h2 (n - 2) (by omega) h3.le
  have h3 := (rise_left hf hr hn h hlt (turn f r) ht h2).2
  obtain ⟨p1, -, -⟩ := rise_ok hf hr (turn f r) h2
  have hd := div_pos (hf.area_pos hr) p1
  unfold mini
  simp only [xi_length]
  split
  · rename_i e
    rw [show n - 2 - turn f r = 0 by omega, h.zero] at h3
    rw [if_neg h3.ne']
    linarith
  · rename_i e
    have : ((turn f r + 2 : ℕ) : ℝ) < n := by exact_mod_cast lt_of_le_of_ne ht e
    rw [Real.sign_of_neg (by linarith)]
    linarith

theorem mini_pos {n x v} (hn : 2 ≤ n) (h : ExactZig f n x v) (hlt : x (n - 1) < r) : 0 < mini f n r := by
  obtain ⟨h1, h2⟩ := turn_spec hf hr
  have ht : n < turn f r + 2 := by
    by_contra hc
    have h3 := (rise_right hf hr hn h hlt (turn f r) (by omega)).2.2
    have h4 : f (x (n - 2 - turn f r)) ≤ f 0 := (hf.le_iff (h.nonneg _ (by omega)) le_rfl).mpr (h.nonneg _ (by omega))
    exact absurd h1 (not_le.mpr (lt_of_lt_of_le h3 h4))
  obtain ⟨p1, -, -⟩ := rise_ok hf hr (turn f r) h2
  have hd := div_pos (hf.area_pos hr) p1
  unfold mini
  simp only [xi_length]
  rw [if_neg ht.ne']
  have : (n : ℝ) < ((turn f r + 2 : ℕ) : ℝ) := by exact_mod_cast ht
  rw [Real.sign_of_pos (by linarith)]
  linarith

theorem turn_at {n x v} (hn : 2 ≤ n) (h : ExactZig f n x v) (hlt : r = x (n - 1)) : turn f r = n - 2 := by
  obtain ⟨h1, -, h3⟩ := rise_at hf hr hn h hlt (n - 2) (by omega)
  rw [Nat.sub_self, h.zero] at h3
  exact turn_eq hf hr _ h3.ge h1

theorem mini_zero {n x v} (hn : 2 ≤ n) (h : ExactZig f n x v) (hlt : r = x (n - 1)) : mini f n r = 0 := by
  obtain ⟨-, -, h3⟩ := rise_at hf hr hn h hlt (n - 2) (by omega)
  rw [Nat.sub_self, h.zero] at h3
  unfold mini
  simp only [xi_length, turn_at hf hr hn h hlt]
  rw [if_pos (by omega), if_pos h3]

theorem txi_at {n x v} (hn : 2 ≤ n) (h : ExactZig f n x v) (hlt : r = x (n - 1)) : txi f r = (List.range n).map x := by
  unfold txi
  apply List.ext_getElem
  · rw [List.length_reverse, xi_length, turn_at hf hr hn h hlt, List.length_map, List.length_range]
    omega
  · intro i h1 h2
    rw [List.length_map, List.length_range] at h2
    rw [List.getElem_map, List.getElem_range, List.getElem_reverse]
    have hl := xi_length f r
    rw [turn_at hf hr hn h hlt] at hl
    by_cases hi : i = 0
    · subst hi
      have : ∀ k (hk : k < (xi f r).length), k = turn f r + 1 → (xi f r)[k] = 0 := by
        rintro k hk rfl
        refine (List.getElem_of_eq (show xi f r = ((List.range (turn f r + 1)).map fun i => (rise f r i).1) ++ [0] from rfl) hk).trans ?_
        rw [List.getElem_append_right (by rw [List.length_map, List.length_range]), List.getElem_singleton]
      rw [this _ _ (by rw [hl, turn_at hf hr hn h hlt]; omega), h.zero]
    · have : ∀ k (hk : k < (xi f r).length), k < turn f r + 1 → (xi f r)[k] = (rise f r k).1 := by
        intro k hk hk'
        refine (List.getElem_of_eq (show xi f r = ((List.range (turn f r + 1)).map fun i => (rise f r i).1) ++ [0] from rfl) hk).trans ?_
        rw [List.getElem_append_left (by rw [List.length_map, List.length_range]; exact hk'), List.getElem_map, List.getElem_range]
      rw [this _ _ (by rw [hl, turn_at hf hr hn h hlt]; omega), (rise_at hf hr hn h hlt _ (by rw [hl]; omega)).2.1, hl]
      exact congrArg x (by omega)

end ZigPy

/-- C85: the function `mini` whose root the program looks for is negative to the left of the ziggurat's last abscissa, positive to the right, and
zero there, and there alone. -/
theorem C85_mini (f : ℝ → ℝ) (hf : Falling f) (n : Nat) (hn : 2 ≤ n) (x : Nat → ℝ) (v : ℝ) (h : ExactZig f n x v) (r : ℝ) (hr : 0 < r) :
    (mini f n r < 0 ↔ r < x (n - 1)) ∧ (0 < mini f n r ↔ x (n - 1) < r) ∧ (mini f n r = 0 ↔ r = x (n - 1)) := by
  rcases lt_trichotomy r (x (n - 1)) with hc | hc | hc
  · have := mini_neg hf hr hn h hc
    exact ⟨iff_of_true this hc, iff_of_false this.le.not_gt hc.le.not_gt, iff_of_false this.ne hc.ne⟩
  · have := mini_zero hf hr hn h hc
    exact ⟨iff_of_false this.ge.not_gt hc.ge.not_gt, iff_of_false this.le.not_gt hc.le.not_gt, iff_of_true this hc⟩
  · have := mini_pos hf hr hn h hc
    exact ⟨iff_of_false this.le.not_gt hc.le.not_gt, iff_of_true this hc, iff_of_false this.ne' hc.ne'⟩

/-- C85: so it has just one root, and there what the program returns, `r`, `v` and the abscissas, is the ziggurat. -/
theorem C85_solve (f : ℝ → ℝ) (hf : Falling f) (n : Nat) (hn : 2 ≤ n) : (∃! r, 0 < r ∧ mini f n r = 0) ∧
    ∀ r, 0 < r → mini f n r = 0 → (txi f r).length = n ∧ ExactZig f n (fun i => (txi f r).getD i 0) (area f r) ∧ (txi f r).getD (n - 1) 0 = r := by
  obtain ⟨x, v, h⟩ := C85_exists f hf n hn
  have hpos := h.pos (n - 2) (by omega)
  rw [show n - 2 + 1 = n - 1 by omega] at hpos
  refine ⟨⟨x (n - 1), ⟨hpos, mini_zero hf hpos hn h rfl⟩, fun r hr => ((C85_mini f hf n hn x v h r hr.1).2.2).mp hr.2⟩, fun r hr h0 => ?_⟩
  have e := ((C85_mini f hf n hn x v h r hr).2.2).mp h0
  have et := txi_at hf hr hn h e
  have hl : (txi f r).length = n := by rw [et, List.length_map, List.length_range]
  have hg : ∀ i, i < n → (txi f r).getD i 0 = x i := by
    intro i hi
    rw [et, List.getD_eq_getElem?_getD, List.getElem?_map, List.getElem?_range hi]
    rfl
  have hv : area f r = v := by rw [← h.base, e]; rfl
  refine ⟨hl, ⟨?_, fun i hi => ?_, fun i hi => ?_, ?_⟩, ?_⟩
  · exact (hg 0 (by omega)).trans h.zero
  · show (txi f r).getD i 0 < (txi f r).getD (i + 1) 0
    rw [hg i (by omega), hg (i + 1) hi]
    exact h.lt i hi
  · show (txi f r).getD (i + 1) 0 * (f ((txi f r).getD i 0) - f ((txi f r).getD (i + 1) 0)) = _
    rw [hg i (by omega), hg (i + 1) hi, hv]
    exact h.layer i hi
  · show (txi f r).getD (n - 1) 0 * f ((txi f r).getD (n - 1) 0) + ∫ t in Set.Ioi ((txi f r).getD (n - 1) 0), f t = _
    rw [hg (n - 1) (by omega), hv]
    exact h.base
  · rw [hg (n - 1) (by omega), e]

/-- C85: the program's first guess, where the bottom has one `n`th of the whole area, is never to the left of the solution. -/
theorem C85_guess (f : ℝ → ℝ) (hf : Falling f) (n : Nat) (hn : 2 ≤ n) (x : Nat → ℝ) (v : ℝ) (h : ExactZig f n x v) (r : ℝ) (hr : 0 < r)
    (hg : r * f r + (∫ t in Set.Ioi r, f t) = (∫ t in Set.Ioi 0, f t) / n) : x (n - 1) ≤ r := by
  have key : ∀ i, i < n → area f 0 ≤ i * v + area f (x i) := by
    intro i
    induction i with
    | zero => intro _; rw [Nat.cast_zero, zero_mul, zero_add, h.zero]
    | succ i ih =>
      intro hi
      have h1 := ih (by omega)
      have h2 := hf.area_le (h.nonneg i (by omega)) (h.lt i hi).le
      rw [h.layer i hi] at h2
      push_cast
      linarith
  have h1 := key (n - 1) (by omega)
  have h2 : area f (x (n - 1)) = v := h.base
  have h3 : ((n - 1 : ℕ) : ℝ) + 1 = n := by
    have : n - 1 + 1 = n := by omega
    exact_mod_cast this
  have hn0 : (0 : ℝ) < n := by
    have : 0 < n := by omega
    exact_mod_cast this
  have h4 : area f 0 ≤ n * v := by rw [← h3]; linarith
  have h5 : area f r ≤ v := by
    show r * f r + (∫ t in Set.Ioi r, f t) ≤ v
    rw [hg, div_le_iff₀ hn0]
    unfold area at h4
    linarith
  by_contra hc
  push Not at hc
  have := hf.area_lt hr hc
  linarith

/-! ### The tables -/

/-- C85: of 64-bit tables of 1024 entries the offset in a layer has 53 bits. -/
theorem C85_im : im 1024 = 2 ^ 53 := by decide +kernel

/-- C85: the generator's `im` leaves `b` of the 63 bits for the index, with `b` the least number of bits for which there are `n` indices. -/
theorem C85_im_bits (n : Nat) (h1 : 1 ≤ n) (h2 : n ≤ 2 ^ 63) : ∃ b, im n * 2 ^ b = 2 ^ 63 ∧ n ≤ 2 ^ b ∧ ∀ c, n ≤ 2 ^ c → b ≤ c := by
  unfold im
  by_cases h : n - 1 = 0
  · rw [if_pos h]
    exact ⟨0, rfl, by omega, fun c _ => Nat.zero_le c⟩
  · rw [if_neg h]
    have l1 := Nat.log2_self_le h
    have l2 := (Nat.log2_lt h).mp (Nat.lt_succ_self (Nat.log2 (n - 1)))
    have l3 : Nat.log2 (n - 1) + 1 ≤ 63 := (Nat.log2_lt h).mpr (by omega)
    refine ⟨Nat.log2 (n - 1) + 1, by rw [← Nat.pow_add, Nat.sub_add_cancel l3], ?_, fun c hc => ?_⟩
    · have : n - 1 < 2 ^ (Nat.log2 (n - 1) + 1) := l2
      omega
    · refine (Nat.log2_lt h).mpr (by omega)

theorem im_pos (n : Nat) : (0 : ℝ) < im n := by
  unfold im
  push_cast
  positivity

theorem getD_range_map {α : Type} (g : Nat → α) (d : α) {n i : Nat} (hi : i < n) : ((List.range n).map g).getD i d = g i := by
  rw [List.getD_eq_getElem?_getD, List.getElem?_map, List.getElem?_range hi]
  rfl

/-- C85: `ki` made of a ziggurat is the last offset in layer `i` that is not to the right of `x[i-1]`, and in the base layer the last not to the right
of `r`; so the box above an offset before it is entirely below the curve, and the point may be taken at once. -/
theorem C85_tables (f : ℝ → ℝ) (hf : Falling f) (xs : List ℝ) (hn : 2 ≤ xs.length) (v : ℝ)
    (h : ExactZig f xs.length (fun i => xs.getD i 0) v) (i : Nat) (hi : i < xs.length) (j : Int) (hj : 0 ≤ j) :
    let r := xs.getD (xs.length - 1) 0
    let w := (wi f r v xs).getD i 0
    let k := (ki f r v xs).getD i 0
    (j ≤ k ↔ j * w ≤ if i = 0 then r else xs.getD (i - 1) 0) ∧
    (i ≠ 0 → j < k → ∀ y ≤ (fi f xs).getD (i - 1) 0, y < f (j * w)) := by
  intro r w k
  have hr : 0 < r := by
    have := h.pos (xs.length - 2) (by omega)
    rw [show xs.length - 2 + 1 = xs.length - 1 by omega] at this
    exact this
  have hfr := hf.pos r hr.le
  have hv : 0 < v := by rw [← h.base]; exact hf.area_pos hr
  have hI := im_pos xs.length
  have ew : w = if i = 0 then v / f r / (im xs.length : ℝ) else xs.getD i 0 / (im xs.length : ℝ) := getD_range_map _ _ hi
  have ek : k = if i = 0 then ⌊(im xs.length : ℝ) * r * f r / v⌋ else ⌊(im xs.length : ℝ) * xs.getD (i - 1) 0 / xs.getD i 0⌋ :=
    getD_range_map _ _ hi
  by_cases h0 : i = 0
  · rw [if_pos h0] at ew ek
    refine ⟨?_, fun hc => absurd h0 hc⟩
    rw [if_pos h0, ek, ew, Int.le_floor, le_div_iff₀ hv, ← mul_div_assoc, ← mul_div_assoc, div_le_iff₀ hI, div_le_iff₀ hfr,
      mul_comm r (im xs.length : ℝ)]
  · rw [if_neg h0] at ew ek
    obtain ⟨m, rfl⟩ : ∃ m, i = m + 1 := ⟨i - 1, by omega⟩
    have hp : 0 < xs.getD (m + 1) 0 := h.pos m hi
    have key : ∀ j : Int, j ≤ k ↔ j * w ≤ xs.getD m 0 := by
      intro j
      rw [ek, ew, Int.le_floor, le_div_iff₀ hp, ← mul_div_assoc, div_le_iff₀ hI, Nat.add_sub_cancel, mul_comm (im xs.length : ℝ)]
    rw [if_neg h0, Nat.add_sub_cancel]
    refine ⟨key j, fun _ hlt y hy => ?_⟩
    have hw : 0 < w := by rw [ew]; exact div_pos hp hI
    have h1 := (key (j + 1)).mp hlt
    have h2 : (j : ℝ) * w < xs.getD m 0 := by
      push_cast at h1
      linarith
    have e : (fi f xs).getD m 0 = f (xs.getD m 0) := by
      unfold fi
      rw [List.getD_eq_getElem?_getD, List.getElem?_map, List.getD_eq_getElem?_getD, List.getElem?_eq_getElem (by omega)]
      rfl
    rw [e] at hy
    have h3 : (0 : ℝ) ≤ j * w := mul_nonneg (by exact_mod_cast hj) hw.le
    exact lt_of_le_of_lt hy ((hf.lt_iff (h3.trans h2.le) h3).mpr h2)

/-! ### The shipped tables -/

theorem up_aux (P c v a b : ℝ) (hP : P ≤ 1024 * v) (_hv : 0 < v) (hc : c + c / 2 ^ 36 < v)
    (h : a - a / 2 ^ 49 ≤ P + P / 2 ^ 49 + (c + c / 2 ^ 42)) (hc0 : 0 < c) (hb : b = P + v) : a < b := by
  norm_num at hc h
  subst hb
  linarith

theorem down_aux (P c v a b : ℝ) (hP : P ≤ 1024 * v) (hv : 0 < v) (hc : v + v / 2 ^ 36 < c)
    (h : P - P / 2 ^ 49 + (c - c / 2 ^ 42) ≤ a + a / 2 ^ 49) (hb : b = P + v) : b < a := by
  norm_num at hc h
  subst hb
  linarith

variable {f : ℝ → ℝ} {K : Vector U64 1024} {W F : Vector F64 1024} {x : Nat → ℝ} {v : ℝ}

theorem near_ge (hf : Falling f) (hz : IsZiggurat f K W F) (f0 : f 0 = 1) (h : ExactZig f 1024 x v) (hR : x 1023 ≤ zx W 1023) :
    v ≤ zv W F + zv W F / 2 ^ 36 := by
  have hX : ∀ i (hi : i < 1024), 0 < zx W i := fun i hi => (hz.finite i hi).2.2.1
  have hF : ∀ i (hi : i < 1024), 0 < zf F i := fun i hi => (hz.finite i hi).2.2.2.2.2
  have hv : 0 < v := by rw [← h.base]; exact hf.area_pos (h.pos 1022 (by norm_num))
  have hc0 : 0 < zv W F := mul_pos (hX 0 (by omega)) (hF 1023 (by omega))
  by_contra hc
  push Not at hc
  -- the product of the abscissa and of the ordinate above a corner
  have main : ∀ i (hi : i < 1024), 1 ≤ i → x i ≤ zx W i → x i * zf F (i - 1) ≤ x i * f (x i) + x i * f (x i) / 2 ^ 49 + (zv W F + zv W F / 2 ^ 42) := by
    intro i hi hi1 hle
    have p := h.pos (i - 1) (by omega)
    rw [show i - 1 + 1 = i by omega] at p
    have a1 := (abs_le.mp (hz.area i hi hi1)).2
    have a2 := (abs_le.mp (hz.f_pdf i hi hi1)).2
    have a3 := (hf.le_iff (hX i hi).le p.le).mpr hle
    have a4 := hz.f_lt i hi hi1
    have b1 : zx W i * (zf F (i - 1) - zf F i) ≤ zv W F + zv W F / 2 ^ 42 := by linarith
    have b2 : x i * (zf F (i - 1) - zf F i) ≤ zx W i * (zf F (i - 1) - zf F i) := mul_le_mul_of_nonneg_right hle (by linarith)
    have b3 : x i * zf F i ≤ x i * (f (x i) + f (x i) / 2 ^ 49) := mul_le_mul_of_nonneg_left (by linarith) p.le
    have e : x i * (f (x i) + f (x i) / 2 ^ 49) = x i * f (x i) + x i * f (x i) / 2 ^ 49 := by ring
    linarith
  have key : ∀ j, j < 1023 → x (1023 - j) ≤ zx W (1023 - j) := by
    intro j
    induction j with
    | zero => intro _; exact hR
    | succ j ih =>
      intro hj
      have h1 := main (1023 - j) (by omega) (by omega) (ih (by omega))
      have p := h.pos (1023 - (j + 1)) (by omega)
      have h2 := h.layer (1023 - (j + 1)) (by omega)
      have hb := h.box hf (by norm_num) (1023 - j) (by omega)
      have a1 := (abs_le.mp (hz.f_pdf (1023 - (j + 1)) (by omega) (by omega))).1
      simp only [show 1023 - j - 1 = 1023 - (j + 1) by omega] at h1
      rw [show 1023 - (j + 1) + 1 = 1023 - j by omega] at p h2
      rw [Nat.cast_ofNat] at hb
      rw [← hf.le_iff (hX _ (by omega)).le (h.nonneg _ (by omega))]
      have h3 : x (1023 - j) * (f (zx W (1023 - (j + 1))) - f (zx W (1023 - (j + 1))) / 2 ^ 49) ≤ x (1023 - j) * zf F (1023 - (j + 1)) :=
        mul_le_mul_of_nonneg_left (by linarith) p.le
      have e : x (1023 - j) * (f (zx W (1023 - (j + 1))) - f (zx W (1023 - (j + 1))) / 2 ^ 49) =
        x (1023 - j) * f (zx W (1023 - (j + 1))) - x (1023 - j) * f (zx W (1023 - (j + 1))) / 2 ^ 49 := by ring
      rw [e] at h3
      have h4 := up_aux _ _ _ _ (x (1023 - j) * f (x (1023 - (j + 1)))) hb hv hc (h3.trans h1) hc0 (by linarith)
      exact (lt_of_mul_lt_mul_left h4 p.le).le
  have h1 := main 1 (by omega) le_rfl (key 1022 (by omega))
  have p := h.pos 0 (by omega)
  have h2 := h.layer 0 (by omega)
  have hb := h.box hf (by norm_num) 1 (by omega)
  rw [Nat.cast_ofNat] at hb
  simp only [Nat.sub_self] at h1
  rw [hz.f_zero, mul_one] at h1
  rw [h.zero, f0, zero_add] at h2
  rw [zero_add] at p
  have h4 := up_aux _ _ _ (x 1) (x 1) hb hv hc (by linarith [show (0 : ℝ) ≤ x 1 / 2 ^ 49 by positivity]) hc0 (by linarith)
  exact lt_irrefl _ h4

theorem near_le (hf : Falling f) (hz : IsZiggurat f K W F) (f0 : f 0 = 1) (h : ExactZig f 1024 x v) (hR : zx W 1023 ≤ x 1023) :
    zv W F ≤ v + v / 2 ^ 36 := by
  have hX : ∀ i (hi : i < 1024), 0 < zx W i := fun i hi => (hz.finite i hi).2.2.1
  have hF : ∀ i (hi : i < 1024), 0 < zf F i := fun i hi => (hz.finite i hi).2.2.2.2.2
  have hv : 0 < v := by rw [← h.base]; exact hf.area_pos (h.pos 1022 (by norm_num))
  have hc0 : 0 < zv W F := mul_pos (hX 0 (by omega)) (hF 1023 (by omega))
  by_contra hc
  push Not at hc
  have main : ∀ i (hi : i < 1024), 1 ≤ i → zx W i ≤ x i → x i * f (x i) - x i * f (x i) / 2 ^ 49 + (zv W F - zv W F / 2 ^ 42) ≤ x i * zf F (i - 1) := by
    intro i hi hi1 hle
    have p := h.pos (i - 1) (by omega)
    rw [show i - 1 + 1 = i by omega] at p
    have a1 := (abs_le.mp (hz.area i hi hi1)).1
    have a2 := (abs_le.mp (hz.f_pdf i hi hi1)).1
    have a3 := (hf.le_iff p.le (hX i hi).le).mpr hle
    have a4 := hz.f_lt i hi hi1
    have b1 : zv W F - zv W F / 2 ^ 42 ≤ zx W i * (zf F (i - 1) - zf F i) := by linarith
    have b2 : zx W i * (zf F (i - 1) - zf F i) ≤ x i * (zf F (i - 1) - zf F i) := mul_le_mul_of_nonneg_right hle (by linarith)
    have b4 : f (x i) - f (x i) / 2 ^ 49 ≤ zf F i := by
      have : f (x i) * (1 - 1 / 2 ^ 49) ≤ f (zx W i) * (1 - 1 / 2 ^ 49) := mul_le_mul_of_nonneg_right a3 (by norm_num)
      linarith
    have b3 : x i * (f (x i) - f (x i) / 2 ^ 49) ≤ x i * zf F i := mul_le_mul_of_nonneg_left b4 p.le
    have e : x i * (f (x i) - f (x i) / 2 ^ 49) = x i * f (x i) - x i * f (x i) / 2 ^ 49 := by ring
    linarith
  have key : ∀ j, j < 1023 → zx W (1023 - j) ≤ x (1023 - j) := by
    intro j
    induction j with
    | zero => intro _; exact hR
    | succ j ih =>
      intro hj
      have h1 := main (1023 - j) (by omega) (by omega) (ih (by omega))
      have p := h.pos (1023 - (j + 1)) (by omega)
      have h2 := h.layer (1023 - (j + 1)) (by omega)
      have hb := h.box hf (by norm_num) (1023 - j) (by omega)
      have a1 := (abs_le.mp (hz.f_pdf (1023 - (j + 1)) (by omega) (by omega))).2
      simp only [show 1023 - j - 1 = 1023 - (j + 1) by omega] at h1
      rw [show 1023 - (j + 1) + 1 = 1023 - j by omega] at p h2
      rw [Nat.cast_ofNat] at hb
      rw [← hf.le_iff (h.nonneg _ (by omega)) (hX _ (by omega)).le]
      have h3 : x (1023 - j) * zf F (1023 - (j + 1)) ≤ x (1023 - j) * (f (zx W (1023 - (j + 1))) + f (zx W (1023 - (j + 1))) / 2 ^ 49) :=
        mul_le_mul_of_nonneg_left (by linarith) p.le
      have e : x (1023 - j) * (f (zx W (1023 - (j + 1))) + f (zx W (1023 - (j + 1))) / 2 ^ 49) =
        x (1023 - j) * f (zx W (1023 - (j + 1))) + x (1023 - j) * f (zx W (1023 - (j + 1))) / 2 ^ 49 := by ring
      rw [e] at h3
      have h4 := down_aux _ _ _ _ (x (1023 - j) * f (x (1023 - (j + 1)))) hb hv hc (h1.trans h3) (by linarith)
      exact (lt_of_mul_lt_mul_left h4 p.le).le
  have h1 := main 1 (by omega) le_rfl (key 1022 (by omega))
  have p := h.pos 0 (by omega)
  have h2 := h.layer 0 (by omega)
  have hb := h.box hf (by norm_num) 1 (by omega)
  rw [Nat.cast_ofNat] at hb
  simp only [Nat.sub_self] at h1
  rw [hz.f_zero, mul_one] at h1
  rw [h.zero, f0, zero_add] at h2
  rw [zero_add] at p
  have h4 := down_aux _ _ _ (x 1) (x 1) hb hv hc (by linarith [show (0 : ℝ) ≤ x 1 / 2 ^ 49 by positivity]) (by linarith)
  exact lt_irrefl _ h4

/-- The area of a layer of tables that are near a ziggurat's is near the ziggurat's. -/
theorem near_area (hf : Falling f) (hz : IsZiggurat f K W F) (f0 : f 0 = 1) (h : ExactZig f 1024 x v) : |zv W F - v| ≤ v / 2 ^ 35 := by
  have hX : 0 < zx W 1023 := (hz.finite 1023 (by omega)).2.2.1
  have hx : 0 < x 1023 := h.pos 1022 (by norm_num)
  have hv : 0 < v := by rw [← h.base]; exact hf.area_pos hx
  have eb : area f (x 1023) = v := h.base
  have hb := hz.base
  change |zv W F - area f (zx W 1023)| ≤ _ at hb
  obtain ⟨b1, b2⟩ := abs_le.mp hb
  rw [abs_le]
  rcases le_total (x 1023) (zx W 1023) with hc | hc
  · have h1 := near_ge hf hz f0 h hc
    have h2 := hf.area_anti hx.le hc
    rw [eb] at h2
    norm_num at h1 b1 b2 ⊢
    constructor <;> linarith
  · have h1 := near_le hf hz f0 h hc
    have h2 := hf.area_anti hX.le hc
    rw [eb] at h2
    norm_num at h1 b1 b2 ⊢
    constructor <;> linarith

/-- And the places where the tails begin are near in the sense that the density has almost the same value there. -/
theorem near_last (hf : Falling f) (hz : IsZiggurat f K W F) (f0 : f 0 = 1) (h : ExactZig f 1024 x v)
    (hd : ∀ a, 1 ≤ a → area f a ≤ 2 * (a * f a)) (h2 : f 2 ≤ f 1 / 2) (hR : 2 ≤ zx W 1023) :
    1 ≤ min (x 1023) (zx W 1023) ∧ f (min (x 1023) (zx W 1023)) - f (max (x 1023) (zx W 1023)) ≤ f (min (x 1023) (zx W 1023)) / 2 ^ 32 := by
  have hx : 0 < x 1023 := h.pos 1022 (by norm_num)
  have hv : 0 < v := by rw [← h.base]; exact hf.area_pos hx
  have eb : area f (x 1023) = v := h.base
  obtain ⟨a1, a2⟩ := abs_le.mp (near_area hf hz f0 h)
  have hb := hz.base
  change |zv W F - area f (zx W 1023)| ≤ _ at hb
  obtain ⟨b1, b2⟩ := abs_le.mp hb
  have hnear : |area f (zx W 1023) - v| ≤ v / 2 ^ 34 := by
    rw [abs_le]
    norm_num at a1 a2 b1 b2 ⊢
    constructor <;> linarith
  obtain ⟨c1, c2⟩ := abs_le.mp hnear
  have h1 : 1 ≤ x 1023 := by
    by_contra hc
    push Not at hc
    have d1 := hf.area_anti hx.le hc.le
    have d2 := hf.area_anti (a := 2) (by norm_num) hR
    have d3 := hf.area_ge (a := 1) (b := 2) (by norm_num) (by norm_num)
    have d4 := hd 1 le_rfl
    have d5 := hf.pos 1 (by norm_num)
    have d6 : area f 2 ≤ area f 1 := hf.area_anti (by norm_num) (by norm_num)
    rw [eb] at d1
    norm_num at c1 c2
    linarith
  have h3 : 1 ≤ min (x 1023) (zx W 1023) := le_min h1 (by linarith)
  refine ⟨h3, ?_⟩
  have h4 := hf.area_ge (a := min (x 1023) (zx W 1023)) (b := max (x 1023) (zx W 1023)) (by linarith) min_le_max
  have h5 := hd _ h3
  have h6 : area f (min (x 1023) (zx W 1023)) - area f (max (x 1023) (zx W 1023)) ≤ area f (min (x 1023) (zx W 1023)) / 2 ^ 33 := by
    rcases le_total (x 1023) (zx W 1023) with hc | hc
    · rw [min_eq_left hc, max_eq_right hc, eb]
      norm_num at c1 ⊢
      linarith
    · rw [min_eq_right hc, max_eq_left hc, eb]
      norm_num at c1 c2 ⊢
      linarith
  generalize min (x 1023) (zx W 1023) = a at *
  generalize max (x 1023) (zx W 1023) = b at *
  have ha : 0 < a := by linarith
  have h7 : a * (f a - f b) ≤ a * (f a / 2 ^ 32) := by
    have e : a * (f a / 2 ^ 32) = 2 * (a * f a) / 2 ^ 33 := by ring
    rw [e]
    refine h4.trans (h6.trans ?_)
    exact div_le_div_of_nonneg_right h5 (by norm_num)
  exact le_of_mul_le_mul_left h7 ha

/-! ### The two densities -/

theorem falling_exp : Falling fun x => Real.exp (-x) where
  pos _ _ := Real.exp_pos _
  anti _ _ _ _ h := Real.exp_lt_exp.mpr (neg_lt_neg h)
  cont := (Real.continuous_exp.comp continuous_neg).continuousOn
  int := integrableOn_exp_neg_Ioi 0

theorem falling_gauss : Falling fun x => Real.exp (-x ^ 2 / 2) where
  pos _ _ := Real.exp_pos _
  anti a ha b _ h := Real.exp_lt_exp.mpr (by
    have ha : 0 ≤ a := ha
    have := mul_self_lt_mul_self ha h
    simp only [pow_two]
    linarith)
  cont := (continuous_iff_continuousAt.mpr fun x => (gauss_deriv x).continuousAt).continuousOn
  int := gauss_integrable 0

theorem area_exp (a : ℝ) : area (fun x => Real.exp (-x)) a = a * Real.exp (-a) + Real.exp (-a) := by
  unfold area
  rw [integral_exp_neg_Ioi]

theorem area_gauss (a : ℝ) (ha : 1 ≤ a) : area (fun x => Real.exp (-x ^ 2 / 2)) a ≤ 2 * (a * Real.exp (-a ^ 2 / 2)) := by
  have h := (mills_bounds a ha 0).2
  have e : millsP a (2 * 0 + 1) / millsQ a (2 * 0 + 1) = 1 / a := by
    simp [millsP, millsQ]
  rw [e] at h
  have h1 : 1 / a ≤ a := (div_le_one_of_le₀ ha (by linarith)).trans ha
  have h2 := mul_le_mul_of_nonneg_right h1 (Real.exp_pos (-a ^ 2 / 2)).le
  unfold area
  linarith

theorem expo_last : Nat.ble (4 * 2 ^ 61) (expoRows[1023]!).w = true := by decide +kernel
theorem normal_last : Nat.ble (4 * 2 ^ 61) (normalRows[1023]!).w = true := by decide +kernel

theorem zx_ge {R : List ZRow} {K : Vector U64 1024} {W F : Vector F64 1024} (hR : RowsOf R K W F) (h : Nat.ble (4 * 2 ^ 61) (R[1023]!).w = true) :
    2 ≤ zx W 1023 := by
  rw [getElem!_pos R 1023 (by rw [hR.len]; decide)] at h
  have := Nat.ble_eq.mp h
  rw [hR.w 1023 (by decide), le_div_iff₀ (by positivity)]
  have h2 : ((4 * 2 ^ 61 : ℕ) : ℝ) ≤ ((R[1023]'(by rw [hR.len]; decide)).w : ℝ) := by exact_mod_cast this
  push_cast at h2
  linarith

theorem exp_near_zero (t : ℝ) (ht : 0 ≤ t) (h : 1 - Real.exp (-t) ≤ 1 / 2 ^ 32) : t ≤ 1 / 2 ^ 31 := by
  have h1 := Real.add_one_le_exp t
  have h2 : Real.exp t * Real.exp (-t) = 1 := by rw [← Real.exp_add, add_neg_cancel, Real.exp_zero]
  have h3 := Real.exp_pos (-t)
  have h4 : (t + 1) * Real.exp (-t) ≤ 1 := by nlinarith
  have h5 : (1 : ℝ) - 1 / 2 ^ 32 ≤ Real.exp (-t) := by linarith
  have h6 : (t + 1) * (1 - 1 / 2 ^ 32) ≤ 1 := (mul_le_mul_of_nonneg_left h5 (by linarith)).trans h4
  norm_num at h6 ⊢
  linarith

theorem exp_two : Real.exp (-1 : ℝ) ≤ 1 / 2 := by
  have h := Real.add_one_le_exp (1 : ℝ)
  have h2 : Real.exp 1 * Real.exp (-1) = 1 := by rw [← Real.exp_add, add_neg_cancel, Real.exp_zero]
  nlinarith [Real.exp_pos (-1 : ℝ)]

/-- C85: the area of the layers of the shipped exponential tables is that of the ziggurat of 1024 layers to one part in `2^35`, and the shipped
constant `expoR` is its last abscissa to within `2^-30`. -/
theorem C85_expo (x : Nat → ℝ) (v : ℝ) (h : ExactZig (fun x => Real.exp (-x)) 1024 x v) :
    |zv expoW expoF - v| ≤ v / 2 ^ 35 ∧ |rv expoR - x 1023| ≤ 1 / 2 ^ 30 := by
  have f0 : (fun x : ℝ => Real.exp (-x)) 0 = 1 := by simp
  refine ⟨near_area falling_exp C40_expo f0 h, ?_⟩
  have h2 : (fun x : ℝ => Real.exp (-x)) 2 ≤ (fun x : ℝ => Real.exp (-x)) 1 / 2 := by
    show Real.exp (-2) ≤ Real.exp (-1) / 2
    have e : Real.exp (-2 : ℝ) = Real.exp (-1) * Real.exp (-1) := by rw [← Real.exp_add]; norm_num
    rw [e]
    nlinarith [exp_two, Real.exp_pos (-1 : ℝ)]
  obtain ⟨h3, h4⟩ := near_last falling_exp C40_expo f0 h (fun a ha => by
    rw [area_exp]
    nlinarith [Real.exp_pos (-a)]) h2 (zx_ge expo_rowsOf expo_last)
  have hR := C40_expoR
  change rv expoR ≤ zx expoW 1023 ∧ zx expoW 1023 ≤ rv expoR + 1 / 2 ^ 47 at hR
  have e : |zx expoW 1023 - x 1023| = max (x 1023) (zx expoW 1023) - min (x 1023) (zx expoW 1023) := by
    rw [max_sub_min_eq_abs]
  have hm : min (x 1023) (zx expoW 1023) ≤ max (x 1023) (zx expoW 1023) := min_le_max
  have key : |zx expoW 1023 - x 1023| ≤ 1 / 2 ^ 31 := by
    rw [e]
    generalize min (x 1023) (zx expoW 1023) = a at *
    generalize max (x 1023) (zx expoW 1023) = b at *
    refine exp_near_zero _ (by linarith) ?_
    have e2 : Real.exp (-b) = Real.exp (-a) * Real.exp (-(b - a)) := by rw [← Real.exp_add]; congr 1; ring
    change Real.exp (-a) - Real.exp (-b) ≤ Real.exp (-a) / 2 ^ 32 at h4
    rw [e2] at h4
    have h5 : Real.exp (-a) * (1 - Real.exp (-(b - a))) ≤ Real.exp (-a) * (1 / 2 ^ 32) := by linarith
    exact le_of_mul_le_mul_left h5 (Real.exp_pos _)
  obtain ⟨k1, k2⟩ := abs_le.mp key
  rw [abs_le]
  norm_num at hR k1 k2 ⊢
  constructor <;> linarith

/-- C85: the same of the normal distribution. -/
theorem C85_normal (x : Nat → ℝ) (v : ℝ) (h : ExactZig (fun x => Real.exp (-x ^ 2 / 2)) 1024 x v) :
    |zv normalW normalF - v| ≤ v / 2 ^ 35 ∧ |rv normalR - x 1023| ≤ 1 / 2 ^ 30 := by
  have f0 : (fun x : ℝ => Real.exp (-x ^ 2 / 2)) 0 = 1 := by simp
  refine ⟨near_area falling_gauss C40_normal f0 h, ?_⟩
  have h2 : (fun x : ℝ => Real.exp (-x ^ 2 / 2)) 2 ≤ (fun x : ℝ => Real.exp (-x ^ 2 / 2)) 1 / 2 := by
    show Real.exp (-2 ^ 2 / 2) ≤ Real.exp (-1 ^ 2 / 2) / 2
    have e : Real.exp (-2 ^ 2 / 2 : ℝ) = Real.exp (-1 ^ 2 / 2) * (Real.exp (-1) * Real.exp (-1 / 2)) := by
      rw [← Real.exp_add, ← Real.exp_add]; norm_num
    rw [e]
    have h5 : Real.exp (-1 / 2 : ℝ) ≤ 1 := by rw [Real.exp_le_one_iff]; norm_num
    have h6 : Real.exp (-1 : ℝ) * Real.exp (-1 / 2) ≤ 1 / 2 := by nlinarith [exp_two, Real.exp_pos (-1 : ℝ), Real.exp_pos (-1 / 2 : ℝ)]
    nlinarith [Real.exp_pos (-1 ^ 2 / 2 : ℝ)]
  obtain ⟨h3, h4⟩ := near_last falling_gauss C40_normal f0 h (fun a ha => area_gauss a ha) h2 (zx_ge normal_rowsOf normal_last)
  have hR := C40_normalR
  change rv normalR ≤ zx normalW 1023 ∧ zx normalW 1023 ≤ rv normalR + 1 / 2 ^ 47 at hR
  have e : |zx normalW 1023 - x 1023| = max (x 1023) (zx normalW 1023) - min (x 1023) (zx normalW 1023) := by
    rw [max_sub_min_eq_abs]
  have hm : min (x 1023) (zx normalW 1023) ≤ max (x 1023) (zx normalW 1023) := min_le_max
  have key : |zx normalW 1023 - x 1023| ≤ 1 / 2 ^ 31 := by
    rw [e]
    generalize min (x 1023) (zx normalW 1023) = a at *
    generalize max (x 1023) (zx normalW 1023) = b at *
    have h7 : (b ^ 2 - a ^ 2) / 2 ≤ 1 / 2 ^ 31 := by
      refine exp_near_zero _ (by nlinarith) ?_
      have e2 : Real.exp (-b ^ 2 / 2) = Real.exp (-a ^ 2 / 2) * Real.exp (-((b ^ 2 - a ^ 2) / 2)) := by rw [← Real.exp_add]; congr 1; ring
      change Real.exp (-a ^ 2 / 2) - Real.exp (-b ^ 2 / 2) ≤ Real.exp (-a ^ 2 / 2) / 2 ^ 32 at h4
      rw [e2] at h4
      have h5 : Real.exp (-a ^ 2 / 2) * (1 - Real.exp (-((b ^ 2 - a ^ 2) / 2))) ≤ Real.exp (-a ^ 2 / 2) * (1 / 2 ^ 32) := by linarith
      exact le_of_mul_le_mul_left h5 (Real.exp_pos _)
    have e3 : b ^ 2 - a ^ 2 = (b - a) * (b + a) := by ring
    rw [e3] at h7
    have h8 : (b - a) * 2 ≤ (b - a) * (b + a) := mul_le_mul_of_nonneg_left (by linarith) (by linarith)
    linarith
  obtain ⟨k1, k2⟩ := abs_le.mp key
  rw [abs_le]
  norm_num at hR k1 k2 ⊢
  constructor <;> linarith

/-- Non-vacuity: both densities meet the hypotheses, so there is the ziggurat that the last two theorems speak of. -/
example : (∃ x v, ExactZig (fun x => Real.exp (-x)) 1024 x v) ∧ ∃ x v, ExactZig (fun x => Real.exp (-x ^ 2 / 2)) 1024 x v :=
  ⟨C85_exists _ falling_exp 1024 (by norm_num), C85_exists _ falling_gauss 1024 (by norm_num)⟩

/-- Non-vacuity of `C85_tables`: the list of abscissas that the program returns for the exponential density. -/
example : ∃ (xs : List ℝ) (v : ℝ), 2 ≤ xs.length ∧ ExactZig (fun x => Real.exp (-x)) xs.length (fun i => xs.getD i 0) v := by
  obtain ⟨⟨r, ⟨hr, h0⟩, -⟩, h⟩ := C85_solve _ falling_exp 1024 (by norm_num)
  obtain ⟨h1, h2, -⟩ := h r hr h0
  exact ⟨_, _, by rw [h1]; norm_num, by rw [h1]; exact h2⟩

end Crazy
