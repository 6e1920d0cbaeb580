/-
C42: the normal variate is symmetric, by counting.
-/
import Verif.Props.ZigNormal
import Mathlib.SetTheory.Cardinal.Finite
set_option exponentiation.threshold 2200
namespace Crazy
open F64

/-! ### Counting -/

/-- The word of the same layer and of the opposite offset; offset `-2^53` is left as it is. -/
def mirrorWord (x : U64) : U64 := BitVec.ofNat 64 (x.toNat / 2 ^ 54 * 2 ^ 54 + (2 ^ 54 - x.toNat % 2 ^ 54) % 2 ^ 54)

theorem mirrorWord_toNat (x : U64) : (mirrorWord x).toNat = x.toNat / 2 ^ 54 * 2 ^ 54 + (2 ^ 54 - x.toNat % 2 ^ 54) % 2 ^ 54 := by
  unfold mirrorWord
  rw [BitVec.toNat_ofNat]
  have := x.isLt
  omega

theorem mirrorWord_mirrorWord (x : U64) : mirrorWord (mirrorWord x) = x := by
  apply BitVec.eq_of_toNat_eq
  rw [mirrorWord_toNat, mirrorWord_toNat]
  omega

theorem zlayer_mirrorWord (x : U64) : zlayer (mirrorWord x) = zlayer x := by
  unfold zlayer
  rw [mirrorWord_toNat]
  omega

theorem zoffset_true (x : U64) : zoffset true x = Int.bmod x.toNat (2 ^ 54) := by
  unfold zoffset
  rw [if_pos rfl]

theorem zoffset_mirrorWord (x : U64) (h : zoffset true x ≠ -2 ^ 53) : zoffset true (mirrorWord x) = -zoffset true x := by
  rw [zoffset_true, Int.bmod_def] at h
  rw [zoffset_true, zoffset_true, mirrorWord_toNat, Int.bmod_def, Int.bmod_def]
  push_cast at *
  omega

theorem mirrorWord_edge (x : U64) (h : zoffset true x = -2 ^ 53 ∨ zoffset true x = 0) : mirrorWord x = x := by
  apply BitVec.eq_of_toNat_eq
  rw [zoffset_true, Int.bmod_def] at h
  rw [mirrorWord_toNat]
  push_cast at h
  omega

theorem zrej_mirrorWord {z : Ziggurat (List U64)} (hm : z.mirrored = true) (hev : ∀ y, z.pdf (F64.neg y) = z.pdf y) {fused : Bool}
    {x u : U64} : zrej z fused (mirrorWord x) u ↔ zrej z fused x u := by
  by_cases h : zoffset true x = -2 ^ 53 ∨ zoffset true x = 0
  · rw [mirrorWord_edge x h]
  · rw [not_or] at h
    exact zrej_opp hev ⟨zlayer_mirrorWord x, by rw [hm]; exact zoffset_mirrorWord x h.1, by rw [hm]; exact h.2⟩

open Classical in
/-- Mirror the word of a tape at which the ziggurat decides. -/
noncomputable def zflip (z : Ziggurat (List U64)) (fused : Bool) : Nat → List U64 → List U64
  | 0, t => t
  | _ + 1, [] => []
  | _ + 1, [x] => [mirrorWord x]
  | fuel + 1, x :: u :: rest => if zrej z fused x u then x :: u :: zflip z fused fuel rest else mirrorWord x :: u :: rest

theorem zflip_rej {z : Ziggurat (List U64)} {fused : Bool} {fuel : Nat} {x u : U64} {rest : List U64} (h : zrej z fused x u) :
    zflip z fused (fuel + 1) (x :: u :: rest) = x :: u :: zflip z fused fuel rest := by
  rw [zflip, if_pos h]

theorem zflip_acc {z : Ziggurat (List U64)} {fused : Bool} {fuel : Nat} {x : U64} {xs : List U64}
    (h : ∀ u rest, xs = u :: rest → ¬ zrej z fused x u) : zflip z fused (fuel + 1) (x :: xs) = mirrorWord x :: xs := by
  match xs, h with
  | [], _ => rw [zflip]
  | u :: rest, h => rw [zflip, if_neg (h u rest rfl)]

theorem zflip_length (z : Ziggurat (List U64)) (fused : Bool) (fuel : Nat) (t : List U64) : (zflip z fused fuel t).length = t.length := by
  induction fuel generalizing t with
  | zero => rw [zflip]
  | succ fuel ih =>
    match t with
    | [] => rw [zflip]
    | [x] => rw [zflip, List.length_singleton, List.length_singleton]
    | x :: u :: rest =>
      rw [zflip]
      split
      · simp only [List.length_cons, ih]
      · simp only [List.length_cons]

theorem zflip_zflip (z : Ziggurat (List U64)) (hm : z.mirrored = true) (hev : ∀ y, z.pdf (F64.neg y) = z.pdf y) (fused : Bool)
    (fuel : Nat) (t : List U64) : zflip z fused fuel (zflip z fused fuel t) = t := by
  induction fuel generalizing t with
  | zero => rw [zflip, zflip]
  | succ fuel ih =>
    match t with
    | [] => rw [zflip, zflip]
    | [x] => rw [zflip, zflip, mirrorWord_mirrorWord]
    | x :: u :: rest =>
      by_cases h : zrej z fused x u
      · rw [zflip_rej h, zflip_rej h, ih]
      · have h' : ∀ w r, u :: rest = w :: r → ¬ zrej z fused x w := by
          intro w r e
          rw [List.cons.injEq] at e
          rw [← e.1]
          exact h
        rw [zflip_acc h', zflip_acc, mirrorWord_mirrorWord]
        intro w r e h2
        exact h' w r e ((zrej_mirrorWord hm hev).1 h2)

/-- The candidate at the edge of a layer is the abscissa. -/
theorem candidate_edge (W : Vector F64 1024) (i : Nat) (h : i < 1024) (hf : W[i].IsFin) (hv : W[i].Valid) (h0 : 0 < zx W i)
    (h1 : zx W i ≤ 2 ^ 53) (j : Int) (hj : j.natAbs = 2 ^ 53) : |rv (F64.mul (F64.ofInt j) W[i])| = zx W i := by
  obtain ⟨e, he⟩ : ∃ e, 1074 = e := ⟨_, rfl⟩
  have hone : F64.one = 2 ^ e := by rw [← he]; rfl
  unfold zx at *
  obtain ⟨n, hn⟩ := fin_of_pos W[i] hf (by linarith)
  have h2 := rv_pos n e he
  unfold rv at h2
  rw [hn] at hv h0 h1 ⊢
  rw [h2] at h0 h1 ⊢
  have hn' : n ≤ F64.one := by
    have : (n : ℝ) / 2 ^ e ≤ 1 := by linarith
    rw [div_le_one (by positivity)] at this
    rw [hone]
    exact_mod_cast this
  obtain ⟨a1, -⟩ := mul_offset j hj.le n hv.1 hn'
  have e1 : rndNat (j.natAbs * n) 1 = n * 2 ^ 53 := by
    rw [hj, Nat.mul_comm]
    have := rndNat_exact (n * 2 ^ 53) 1 (by decide) (short_mul_pow n 53 hv.1)
    rwa [Nat.mul_one] at this
  rw [a1, e1]
  have h3 : (0 : ℝ) ≤ ((n * 2 ^ 53 : Nat) : ℝ) / 2 ^ e := by positivity
  have e4 : ((n * 2 ^ 53 : Nat) : ℝ) / 2 ^ e = 2 ^ 53 * (n / 2 ^ e) := by
    rw [Nat.cast_mul, Nat.cast_pow, Nat.cast_ofNat]
    ring
  cases decide (j < 0)
  · rw [rv_pos _ e he, abs_of_nonneg h3, e4]
  · rw [rv_neg _ e he, abs_neg, abs_of_nonneg h3, e4]

/-- A result that is neither 0, nor at the edge of a layer, nor in the tail. -/
structure Inner (r : F64) : Prop where
  fin : r.IsFin
  ne_zero : rv r ≠ 0
  lt : |rv r| < rv normalR
  edge : ∀ i (_ : i < 1024), |rv r| ≠ zx normalW i

theorem normalK_zero : (normalK[0]).toNat ≤ 2 ^ 53 := by decide +kernel

/-- A candidate that is neither 0 nor at an edge has an offset that is neither 0 nor `-2^53`. -/
theorem inner_offset (i : Nat) (hi : i < 1024) (j : Int) (hj : j.natAbs ≤ 2 ^ 53) (hr : Inner (F64.mul (F64.ofInt j) normalW[i])) :
    j ≠ 0 ∧ j ≠ -2 ^ 53 := by
  obtain ⟨f1, f2, f3, -⟩ := C40_normal.finite i hi
  have h5 : (5 : ℝ) ≤ 2 ^ 53 := by norm_num
  have hw : zx normalW i hi ≤ 2 ^ 53 := (normal_x_le _ hi).trans h5
  refine ⟨fun h => ?_, fun h => ?_⟩
  · obtain ⟨-, m2, m3⟩ := mul_isFin normalW i hi f1 f2 f3 hw j hj
    exact hr.ne_zero (le_antisymm (m3 h.le) (m2 h.ge))
  · exact hr.edge i hi (candidate_edge normalW i hi f1 f2 f3 hw j (by rw [h]; rfl))

theorem flip_main (lib : MathLib) (hl : LogOk lib) (fused : Bool) (fuel : Nat) (t rest : List U64) (r : F64) (hr : Inner r)
    (h : (normalZig lib).genNext fused tape fuel t = .ok (r, rest)) :
    (normalZig lib).genNext fused tape fuel (zflip (normalZig lib) fused fuel t) = .ok (F64.neg r, rest) := by
  induction fuel generalizing t with
  | zero => rw [Ziggurat.genNext] at h; exact absurd h (err_ne_ok _ _)
  | succ fuel ih =>
    match t with
    | [] =>
      rw [genNext_error _ _ _ _ _ (.explicit "tape used up") rfl] at h
      exact absurd h (err_ne_ok _ _)
    | x :: xs =>
      by_cases hx : ∃ u r', xs = u :: r' ∧ zrej (normalZig lib) fused x u
      · obtain ⟨u, r', rfl, hx⟩ := hx
        rw [zflip_rej hx, round_rej _ _ _ _ _ _ hx]
        rw [round_rej _ _ _ _ _ _ hx] at h
        exact ih r' h
      · have hx' : ∀ u r', xs = u :: r' → ¬ zrej (normalZig lib) fused x u := fun u r' e h => hx ⟨u, r', e, h⟩
        rw [zflip_acc hx']
        have ho : zoffset true x ≠ 0 ∧ zoffset true x ≠ -2 ^ 53 := by
          have hw := RNG_uint64_tape x xs
          by_cases hk : (zoffset true x).natAbs < (normalK[zlayer x]'(zlayer_lt x)).toNat
          · rw [genNext_fast (normalZig lib) fused tape fuel _ _ x hw hk, Except.ok.injEq, Prod.mk.injEq] at h
            have h1 : F64.mul (F64.ofInt (zoffset true x)) (normalW[zlayer x]'(zlayer_lt x)) = r := h.1
            exact inner_offset _ (zlayer_lt x) _ (zoffset_le true x) (by rw [h1]; exact hr)
          · by_cases hz : zlayer x = 0
            · exfalso
              have hk' : (normalK[0]).toNat ≤ (zoffset true x).natAbs := by
                simp only [hz] at hk
                exact Nat.not_lt.1 hk
              rcases C42_tail lib hl fused tape fuel _ _ _ x r hw hz hk' h with ⟨-, h1, -⟩ | h1
              · exact absurd hr.lt (not_lt.2 h1)
              · have := hr.fin
                rw [h1] at this
                exact this
            · rw [genNext_wedge (normalZig lib) fused tape fuel _ _ x hw hk hz] at h
              cases xs with
              | nil => rw [uniform01_nil] at h; exact absurd h (err_ne_ok _ _)
              | cons u r' =>
                obtain ⟨v, hv⟩ := uniform01_tape u r'
                rw [hv] at h
                simp only at h
                split at h
                · rw [Except.ok.injEq, Prod.mk.injEq] at h
                  have h1 : F64.mul (F64.ofInt (zoffset true x)) (normalW[zlayer x]'(zlayer_lt x)) = r := h.1
                  exact inner_offset _ (zlayer_lt x) _ (zoffset_le true x) (by rw [h1]; exact hr)
                · rename_i hlt
                  exfalso
                  refine hx' u r' rfl ⟨hk, hz, fun w hw => ?_⟩
                  rw [uniform01_one u r' v hv, Except.ok.injEq, Prod.mk.injEq] at hw
                  rw [← hw.1]
                  exact Bool.eq_false_iff.2 hlt
        have hopp : Opp (normalZig lib) x (mirrorWord x) :=
          ⟨zlayer_mirrorWord x, zoffset_mirrorWord x ho.2, ho.1⟩
        rw [round_acc (normalZig lib) (C42_even lib) fused fuel x _ hopp xs hx', h]
        simp only [Except.map]

/-- C42: of all sequences of `n` random words, the number of those of which `GenNext` uses up all and returns `r` is the number of
those of which it uses up all and returns `-r`; for every result that is not 0, not in the tail and not at the edge of a layer. -/
theorem C42_count (lib : MathLib) (hl : LogOk lib) (fused : Bool) (fuel n : Nat) (r : F64) (hf : r.IsFin) (h0 : rv r ≠ 0)
    (hR : |rv r| < rv normalR) (hed : ∀ i (_ : i < 1024), |rv r| ≠ zx normalW i) :
    Nat.card {t : List U64 // t.length = n ∧ (normalZig lib).genNext fused tape fuel t = .ok (r, [])} =
      Nat.card {t : List U64 // t.length = n ∧ (normalZig lib).genNext fused tape fuel t = .ok (F64.neg r, [])} := by
  have hi : Inner r := ⟨hf, h0, hR, hed⟩
  have hi' : Inner (F64.neg r) := by
    have e : |rv (F64.neg r)| = |rv r| ∧ (F64.neg r).IsFin := by
      obtain ⟨e, he⟩ : ∃ e, 1074 = e := ⟨_, rfl⟩
      match r, hf with
      | .fin s m, _ =>
        cases s
        · exact ⟨by rw [F64.neg, Bool.not_false, rv_pos m e he, rv_neg m e he, abs_neg], trivial⟩
        · exact ⟨by rw [F64.neg, Bool.not_true, rv_pos m e he, rv_neg m e he, abs_neg], trivial⟩
    refine ⟨e.2, ?_, by rw [e.1]; exact hR, by rw [e.1]; exact hed⟩
    rw [← abs_ne_zero, e.1, abs_ne_zero]
    exact h0
  have hz := zflip_zflip (normalZig lib) rfl (C42_even lib) fused fuel
  refine Nat.card_congr ⟨fun t => ⟨zflip (normalZig lib) fused fuel t.1, (zflip_length _ _ _ _).trans t.2.1, flip_main lib hl fused fuel _ _ _ hi t.2.2⟩,
    fun t => ⟨zflip (normalZig lib) fused fuel t.1, (zflip_length _ _ _ _).trans t.2.1, ?_⟩, fun t => ?_, fun t => ?_⟩
  · have := flip_main lib hl fused fuel _ _ _ hi' t.2.2
    rwa [F64.neg_neg] at this
  · exact Subtype.ext (hz t.1)
  · exact Subtype.ext (hz t.1)

/-! ### What `Normal.Next` can return -/

variable {σ : Type}

theorem normalR_fin : ∃ n, normalR = .fin false n := by
  obtain ⟨e, he⟩ : ∃ e, 1024 = e := ⟨_, rfl⟩
  obtain ⟨c, h, -⟩ := normalR_eq e he
  exact ⟨_, h⟩

theorem normalTail_valid (lib : MathLib) (src : Source σ) (fuel : Nat) (s s' : σ) (t : F64)
    (h : normalTail lib src fuel s = .ok (t, s')) (n : Nat) (ht : t = .fin false n) : t.Valid := by
  induction fuel generalizing s with
  | zero => unfold normalTail at h; exact absurd h (err_ne_ok _ _)
  | succ fuel ih =>
    unfold normalTail at h
    cases hu : uniform01 src s with
    | error p => simp only [hu, bind, Except.bind] at h; exact absurd h (err_ne_ok _ _)
    | ok v =>
      simp only [hu, bind, Except.bind] at h
      cases hu2 : uniform01 src v.2 with
      | error p => simp only [hu2] at h; exact absurd h (err_ne_ok _ _)
      | ok w =>
        simp only [hu2, pure, Except.pure] at h
        split at h
        · rw [Except.ok.injEq, Prod.mk.injEq] at h
          obtain ⟨m, hm⟩ := normalR_fin
          rw [hm] at h
          rw [← h.1] at ht ⊢
          revert ht
          generalize F64.div (F64.neg (lib.log v.1)) (.fin false m) = y
          intro ht
          match y, ht with
          | .nan, ht => simp only [F64.add] at ht; cases ht
          | .inf _, ht => simp only [F64.add] at ht; cases ht
          | .fin a k, ht => simp only [F64.add]; exact valid_rndInt _ _ _ (by decide)
        · exact ih w.2 h

theorem neg_valid {x : F64} (h : x.Valid) : (F64.neg x).Valid := by
  cases x <;> exact h

theorem mul_fin_valid (x y : F64) (h : (F64.mul x y).IsFin) : (F64.mul x y).Valid := by
  match x, y with
  | .nan, _ => simp only [F64.mul] at h; exact h.elim
  | .inf _, .nan => simp only [F64.mul] at h; exact h.elim
  | .fin _ _, .nan => simp only [F64.mul] at h; exact h.elim
  | .inf _, .inf _ => simp only [F64.mul] at h; exact h.elim
  | .inf _, .fin _ m =>
    simp only [F64.mul] at h
    split at h <;> exact h.elim
  | .fin _ n, .inf _ =>
    simp only [F64.mul] at h
    split at h <;> exact h.elim
  | .fin a n, .fin b m => simp only [F64.mul]; exact valid_rnd _ _ _ one_pos

/-- What the ziggurat of the normal distribution draws, from any source. -/
theorem normal_draw (lib : MathLib) (hl : LogOk lib) (fused : Bool) (src : Source σ) (fuel : Nat) (s s' : σ) (r : F64)
    (h : (normalZig lib).genNext fused src fuel s = .ok (r, s')) : (r.IsFin ∧ r.Valid ∧ |rv r| ≤ 64) ∨ ∃ b, r = .inf b := by
  induction fuel generalizing s with
  | zero => rw [Ziggurat.genNext] at h; exact absurd h (err_ne_ok _ _)
  | succ fuel ih =>
    cases hw : RNG.uint64 src s with
    | error p => rw [genNext_error _ _ _ _ _ _ hw] at h; exact absurd h (err_ne_ok _ _)
    | ok v =>
      obtain ⟨x, s1⟩ := v
      have cand : ∀ (i : Nat) (hi : i < 1024) (j : Int) (_ : j.natAbs ≤ 2 ^ 53),
          (F64.mul (F64.ofInt j) normalW[i]).IsFin ∧ (F64.mul (F64.ofInt j) normalW[i]).Valid ∧ |rv (F64.mul (F64.ofInt j) normalW[i])| ≤ 64 := by
        intro i hi j hj
        obtain ⟨f1, f2, f3, -⟩ := C40_normal.finite i hi
        have h5 : (5 : ℝ) ≤ 2 ^ 53 := by norm_num
        obtain ⟨p, c1, -, c3, -⟩ := candidate normalW i hi f1 f2 f3 ((normal_x_le _ hi).trans h5) j hj
        have hf : (F64.mul (F64.ofInt j) normalW[i]).IsFin := by rw [c1]; trivial
        refine ⟨hf, mul_fin_valid _ _ hf, ?_⟩
        rw [c1]
        exact (c3.trans (normal_x_le i hi)).trans (by norm_num)
      by_cases hk : (zoffset true x).natAbs < (normalK[zlayer x]'(zlayer_lt x)).toNat
      · rw [genNext_fast (normalZig lib) fused src fuel _ _ x hw hk, Except.ok.injEq, Prod.mk.injEq] at h
        left
        have h1 : F64.mul (F64.ofInt (zoffset true x)) (normalW[zlayer x]'(zlayer_lt x)) = r := h.1
        rw [← h1]
        exact cand _ (zlayer_lt x) _ (zoffset_le true x)
      · by_cases hz : zlayer x = 0
        · have hk' : ¬ (zoffset (normalZig lib : Ziggurat σ).mirrored x).natAbs < ((normalZig lib : Ziggurat σ).K[zlayer x]'(zlayer_lt x)).toNat := hk
          have hk2 : (normalK[0]).toNat ≤ (zoffset true x).natAbs := by
            simp only [hz] at hk
            exact Nat.not_lt.1 hk
          have hC := C42_tail lib hl fused src fuel s s1 s' x r hw hz hk2 h
          rw [genNext_tail (normalZig lib) fused src fuel s s1 x hw hk' hz] at h
          rcases hC with ⟨h1, -, h2, -⟩ | h1
          · left
            refine ⟨h1, ?_, h2⟩
            cases ht : (normalZig lib : Ziggurat σ).tail src fuel s1 with
            | error p => rw [ht] at h; exact absurd h (err_ne_ok _ _)
            | ok v =>
              obtain ⟨t, s2⟩ := v
              rw [ht] at h
              simp only [Except.ok.injEq, Prod.mk.injEq] at h
              have hv : t.Valid := by
                rcases normal_tail lib hl src fuel s1 s2 t ht with ⟨n, hn, -⟩ | ⟨hn, -⟩
                · exact normalTail_valid lib src fuel s1 s2 t ht n hn
                · rw [hn]; trivial
              have hr1 : (if zoffset true x < 0 then F64.neg t else t) = r := h.1
              by_cases hj : zoffset true x < 0
              · rw [if_pos hj] at hr1
                rw [← hr1]
                exact neg_valid hv
              · rw [if_neg hj] at hr1
                rw [← hr1]
                exact hv
          · exact Or.inr ⟨_, h1⟩
        · rw [genNext_wedge (normalZig lib) fused src fuel s s1 x hw hk hz] at h
          cases hu : uniform01 src s1 with
          | error p => rw [hu] at h; exact absurd h (err_ne_ok _ _)
          | ok v =>
            rw [hu] at h
            simp only at h
            split at h
            · rw [Except.ok.injEq, Prod.mk.injEq] at h
              left
              have h1 : F64.mul (F64.ofInt (zoffset true x)) (normalW[zlayer x]'(zlayer_lt x)) = r := h.1
              rw [← h1]
              exact cand _ (zlayer_lt x) _ (zoffset_le true x)
            · exact ih v.2 h

theorem rnd_ne_nan (b : Bool) (n m : Nat) : F64.rnd b n m ≠ .nan := by
  unfold F64.rnd
  split <;> exact fun h => by cases h

theorem rndInt_ne_nan (b : Bool) (z : Int) (m : Nat) : F64.rndInt b z m ≠ .nan := by
  unfold F64.rndInt
  split
  · exact fun h => by cases h
  · exact rnd_ne_nan _ _ _

theorem add_ne_nan (x : F64) (b : Bool) (m : Nat) (h : x ≠ .nan) : F64.add x (.fin b m) ≠ .nan := by
  match x, h with
  | .inf a, _ => simp only [F64.add]; exact fun h => by cases h
  | .fin a n, _ => simp only [F64.add]; exact rndInt_ne_nan _ _ _

/-- C42: `Normal.Next` with a finite mean and a finite non-zero standard deviation never returns NaN. -/
theorem C42_not_nan (lib : MathLib) (hl : LogOk lib) (fused fused' : Bool) (mean stddev : F64) (hm : mean.IsFin) (hs : stddev.IsFin)
    (hs0 : rv stddev ≠ 0) (src : Source σ) (fuel : Nat) (s s' : σ) (r : F64)
    (h : normal lib fused fused' mean stddev src fuel s = .ok (r, s')) : r ≠ .nan := by
  unfold normal at h
  cases hg : (normalZig lib).genNext fused src fuel s with
  | error p => simp only [hg, bind, Except.bind] at h; exact absurd h (err_ne_ok _ _)
  | ok v =>
    obtain ⟨x, s1⟩ := v
    simp only [hg, bind, Except.bind, pure, Except.pure, Except.ok.injEq, Prod.mk.injEq] at h
    obtain ⟨a, l, rfl⟩ : ∃ a l, mean = .fin a l := by
      match mean, hm with
      | .fin a l, _ => exact ⟨a, l, rfl⟩
    obtain ⟨b, m, rfl⟩ : ∃ a l, stddev = .fin a l := by
      match stddev, hs with
      | .fin a l, _ => exact ⟨a, l, rfl⟩
    have hm0 : m ≠ 0 := by
      intro h0
      obtain ⟨e, he⟩ : ∃ e, 1074 = e := ⟨_, rfl⟩
      refine hs0 ?_
      rw [h0]
      cases b
      · rw [rv_pos 0 e he]; simp
      · rw [rv_neg 0 e he]; simp
    rw [← h.1]
    have key : ∀ y : F64, y ≠ .nan → F64.mulAdd fused' y (.fin b m) (.fin a l) ≠ .nan := by
      intro y hy
      have hmul : F64.mul y (.fin b m) ≠ .nan := by
        match y, hy with
        | .inf c, _ => simp only [F64.mul]; rw [if_neg hm0]; exact fun h => by cases h
        | .fin c k, _ => simp only [F64.mul]; exact rnd_ne_nan _ _ _
      cases fused'
      · rw [mulAdd_false]
        exact add_ne_nan _ _ _ hmul
      · rw [mulAdd_true]
        match y, hy, hmul with
        | .inf c, _, hmul => rw [F64.fma]; exact add_ne_nan _ _ _ hmul; all_goals first | (intro _ _ _ _ _ _ h; cases h) | (intro _ _ _ _ h; cases h)
        | .fin c k, _, _ => rw [F64.fma]; exact rndInt_ne_nan _ _ _
    rcases normal_draw lib hl fused src fuel s s1 x hg with ⟨h1, -⟩ | ⟨c, rfl⟩
    · refine key x ?_
      rintro rfl
      exact h1
    · exact key _ (fun h => by cases h)

/-- The float 1. -/
theorem ofNat_one_eq : F64.ofNat 1 = .fin false F64.one := by
  unfold F64.ofNat
  have := rnd_exact false (1 * F64.one) 1 (by decide) ?_
  · rwa [Nat.mul_one, Nat.one_mul] at *
  · rw [Nat.one_mul]
    obtain ⟨e, he⟩ : ∃ e, 1074 = e := ⟨_, rfl⟩
    have hone : F64.one = 2 ^ e := by rw [← he]; rfl
    rw [hone]
    exact ⟨⟨1, e, by decide, (Nat.one_mul _).symm⟩, lt_limit_of_le _ e le_rfl (by omega)⟩

/-- Multiplying by 1 and adding 0 does nothing to a number. -/
theorem standardise (fused : Bool) (x : F64) (hf : x.IsFin) (hv : x.Valid) :
    (F64.mulAdd fused x (.fin false F64.one) (.fin false 0)).IsFin ∧
      rv (F64.mulAdd fused x (.fin false F64.one) (.fin false 0)) = rv x := by
  obtain ⟨e, he⟩ : ∃ e, 1074 = e := ⟨_, rfl⟩
  match x, hf, hv with
  | .fin a n, _, hv =>
    have hone := one_pos
    have h0 : ∀ (c : Bool) (b : Nat) (_ : 0 < b), (F64.rndInt c (sint a n * b) b).IsFin ∧ rv (F64.rndInt c (sint a n * b) b) = rv (.fin a n) := by
      intro c b hb
      by_cases hn : n = 0
      · have : sint a n * (b : Int) = 0 := by subst hn; cases a <;> simp [sint]
        unfold F64.rndInt
        rw [if_pos this, hn]
        refine ⟨trivial, ?_⟩
        cases a <;> cases c <;> simp [rv_pos 0 e he, rv_neg 0 e he]
      · have hs : sint a n ≠ 0 := by cases a <;> simp [sint] <;> omega
        have hz : sint a n * (b : Int) ≠ 0 := mul_ne_zero hs (by omega)
        unfold F64.rndInt
        rw [if_neg hz, Int.natAbs_mul, Int.natAbs_natCast]
        have hna : (sint a n).natAbs = n := by cases a <;> simp [sint]
        have hd : decide (sint a n * (b : Int) < 0) = a := by
          cases a
          · exact decide_eq_false (not_lt.2 (by simp [sint]; positivity))
          · refine decide_eq_true ?_
            simp only [sint, if_true]
            have : (0 : Int) < n := by omega
            have : (0 : Int) < b := by omega
            nlinarith
        rw [hna, hd, rnd_exact a n b hb hv]
        exact ⟨trivial, rfl⟩
    cases fused
    · rw [mulAdd_false]
      have : F64.mul (.fin a n) (.fin false F64.one) = .fin a n := by
        simp only [F64.mul, Bool.xor_false]
        exact rnd_exact a n _ hone hv
      rw [this]
      simp only [F64.add]
      have e2 : sint a n + sint false 0 = sint a n * ((1 : Nat) : Int) := by simp [sint]
      rw [e2]
      exact h0 _ 1 (by decide)
    · rw [mulAdd_true]
      have : F64.fma (.fin a n) (.fin false F64.one) (.fin false 0) = F64.rndInt (a && false) (sint a n * (F64.one : Nat)) F64.one := by
        simp only [F64.fma, Bool.xor_false, Nat.zero_mul]
        refine congrArg (fun z => F64.rndInt (a && false) z F64.one) ?_
        generalize F64.one = B
        cases a <;> simp [sint]
      rw [this]
      exact h0 _ _ hone

/-- C42: the standard normal distribution (mean 0, standard deviation 1): `Normal.Next` returns the number that the ziggurat draws. -/
theorem C42_standard (lib : MathLib) (hl : LogOk lib) (fused fused' : Bool) (src : Source σ) (fuel : Nat) (s s' : σ) (x : F64)
    (h : (normalZig lib).genNext fused src fuel s = .ok (x, s')) :
    ∃ r, normal lib fused fused' (.fin false 0) (F64.ofNat 1) src fuel s = .ok (r, s') ∧
      ((x.IsFin ∧ r.IsFin ∧ rv r = rv x) ∨ ∃ b, x = .inf b ∧ r = .inf b) := by
  refine ⟨F64.mulAdd fused' x (F64.ofNat 1) (.fin false 0), ?_, ?_⟩
  · unfold normal
    simp only [h, bind, Except.bind, pure, Except.pure]
  · rw [ofNat_one_eq]
    rcases normal_draw lib hl fused src fuel s s' x h with ⟨h1, h2, -⟩ | ⟨b, rfl⟩
    · exact Or.inl ⟨h1, standardise fused' x h1 h2⟩
    · refine Or.inr ⟨b, rfl, ?_⟩
      have hm : F64.mul (.inf b) (.fin false F64.one) = .inf b := by
        simp only [F64.mul]
        rw [if_neg one_pos.ne', Bool.xor_false]
      cases fused'
      · rw [mulAdd_false, hm]; simp only [F64.add]
      · rw [mulAdd_true, F64.fma, hm]
        · simp only [F64.add]
        all_goals first | (intro _ _ _ _ _ _ h; cases h) | (intro _ _ _ _ h; cases h)

theorem normal_ge : normalRows.all (fun r => Nat.ble (2 ^ 50) r.w) = true := by decide +kernel

/-- Every abscissa is at least `2^-11`. -/
theorem normal_x_ge (i : Nat) (hi : i < 1024) : (1 : ℝ) / 2 ^ 11 ≤ zx normalW i := by
  rw [normal_rowsOf.w i hi]
  have := List.all_eq_true.1 normal_ge _ (List.getElem_mem (by rw [normal_rowsOf.len]; exact hi : i < normalRows.length))
  rw [Nat.ble_eq] at this
  have h2 : ((2 : ℝ) ^ 50) ≤ ((normalRows[i]'(by rw [normal_rowsOf.len]; exact hi)).w : ℝ) := by exact_mod_cast this
  rw [div_le_div_iff₀ (by positivity) (by positivity)]
  calc (1 : ℝ) * 2 ^ 61 = 2 ^ 50 * 2 ^ 11 := by norm_num
    _ ≤ _ := mul_le_mul_of_nonneg_right h2 (by positivity)

/-- The candidate of the layer `i` and of the offset `2^20`. -/
theorem inner_example (i : Nat) (hi : i < 1024) (j : Int) (hj : j = 2 ^ 20) : Inner (F64.mul (F64.ofInt j) normalW[i]) := by
  obtain ⟨f1, f2, f3, -⟩ := C40_normal.finite i hi
  have h5 : (5 : ℝ) ≤ 2 ^ 53 := by norm_num
  have hx5 := normal_x_le i hi
  obtain ⟨p, c1, -, -, c4, c5⟩ := candidate normalW i hi f1 f2 f3 (hx5.trans h5) j (by rw [hj]; decide)
  have hn : ((j.natAbs : Nat) : ℝ) = 2 ^ 20 := by rw [hj]; norm_num
  rw [hn] at c5
  rw [c1]
  obtain ⟨c6, c7⟩ := abs_le.1 c5
  have lo : 0 < rv (.fin false p) := by
    have : 0 < zx normalW i hi / 2 ^ 53 := by positivity
    linarith
  have up : rv (.fin false p) < 1 / 2 ^ 20 := by
    have h1 : zx normalW i hi / 2 ^ 53 ≤ 5 / 2 ^ 53 := div_le_div_of_nonneg_right hx5 (by positivity)
    have h2 : (2 ^ 20 + 1 : ℝ) * (5 / 2 ^ 53) < 1 / 2 ^ 20 := by norm_num
    linarith
  refine ⟨trivial, ?_, ?_, ?_⟩
  · rw [← abs_ne_zero, c4]
    exact lo.ne'
  · rw [c4]
    have h3 := C40_normalR.2
    have h4 := normal_x_ge 1023 (by decide)
    have h6 : rv normalR = ((normalR.val : ℚ) : ℝ) := by unfold rv; rfl
    rw [← h6] at h3
    have h7 : (1 : ℝ) / 2 ^ 20 + 1 / 2 ^ 47 < 1 / 2 ^ 11 := by norm_num
    linarith
  · intro k hk
    rw [c4]
    have h7 : (1 : ℝ) / 2 ^ 20 < 1 / 2 ^ 11 := by norm_num
    exact (lt_of_lt_of_le (up.trans h7) (normal_x_ge k hk)).ne

/-- Non-vacuity of `C42_count`: one word of layer 512 and offset `2^20` yields a number that satisfies the hypotheses. -/
example (lib : MathLib) (fused : Bool) : ∃ r, (normalZig lib).genNext fused tape 1 [0x8000000000100000#64] = .ok (r, []) ∧
    r.IsFin ∧ rv r ≠ 0 ∧ |rv r| < rv normalR ∧ ∀ i (_ : i < 1024), |rv r| ≠ zx normalW i := by
  have hk : (zoffset true 0x8000000000100000#64).natAbs < (normalK[zlayer 0x8000000000100000#64]'(zlayer_lt _)).toNat := by decide +kernel
  have hg : (normalZig lib).genNext fused tape 1 [0x8000000000100000#64] =
      .ok (F64.mul (F64.ofInt (zoffset true 0x8000000000100000#64)) (normalW[zlayer 0x8000000000100000#64]'(zlayer_lt _)), []) :=
    genNext_fast (normalZig lib) fused tape 0 _ _ _ (RNG_uint64_tape _ _) hk
  have ho : zoffset true 0x8000000000100000#64 = 2 ^ 20 := by decide
  have hi := inner_example _ (zlayer_lt 0x8000000000100000#64) _ ho
  generalize F64.mul (F64.ofInt (zoffset true 0x8000000000100000#64)) (normalW[zlayer 0x8000000000100000#64]'(zlayer_lt _)) = r at hg hi
  exact ⟨r, hg, hi.fin, hi.ne_zero, hi.lt, hi.edge⟩

end Crazy
