/-
The law of `Uintn` on independent, uniform words.
-/
import Verif.Proofs.Reads
import Verif.Props.Uintn
import Mathlib.Algebra.Order.BigOperators.Ring.Finset
import Mathlib.Algebra.Order.AbsoluteValue.Basic
set_option exponentiation.threshold 2200
namespace Crazy

/-- The probability that `Uintn(max)` returns, after at most `n` rejections, a value in `g`. -/
noncomputable def law (n : Nat) (max : U64) (g : Nat → Prop) : ℝ :=
  prob (n + 1) (fun w => ∃ r rest, RNG.uintn tape n max w = .ok (r, rest) ∧ g r.toNat)

theorem err_not_ok {α : Type} {e : Panic} {v : α} : (Except.error e : Go α) ≠ .ok v := by intro h; cases h

theorem uintn_cons (n : Nat) (max : U64) (h0 : max ≠ 0#64) (B : Nat) (hB : LargestMultiple max.toNat B) (x : U64) (t : List U64) :
    (x.toNat ≤ B → RNG.uintn tape n max (x :: t) = .ok (x % max, t)) ∧
    (B < x.toNat → RNG.uintn tape 0 max (x :: t) = .error .fuel) ∧
    (B < x.toNat → RNG.uintn tape (n + 1) max (x :: t) = RNG.uintn tape n max t) := by
  have hb := bad_lt_iff max h0 B hB x
  refine ⟨fun h => ?_, fun h => ?_, fun h => ?_⟩
  · rw [uintn_step tape n max h0 _ _ _ (tape_uint64 x t), RNG.uintnLoop.eq_def]
    simp only []
    rw [if_neg]
    intro hc
    have := hb.mp hc
    omega
  · rw [uintn_step tape 0 max h0 _ _ _ (tape_uint64 x t), uintnLoop_zero, if_pos (hb.mpr h)]
  · rw [uintn_step tape (n + 1) max h0 _ _ _ (tape_uint64 x t), RNG.uintnLoop.eq_def]
    simp only []
    rw [if_pos (hb.mpr h)]
    unfold RNG.uintn
    simp only [if_neg h0]

/-- How many of the accepted words are turned into a value in `g`. -/
noncomputable def accepted (max B : Nat) (g : Nat → Prop) : ℝ := by
  classical exact ∑ x ∈ Finset.range (B + 1), if g (x % max) then 1 else 0

theorem law_rec (n : Nat) (max : U64) (h0 : max ≠ 0#64) (B : Nat) (hB : LargestMultiple max.toNat B) (g : Nat → Prop) (τ : ℝ)
    (hτ : ∀ x : U64, B < x.toNat →
      prob n (fun t => ∃ r rest, RNG.uintn tape n max (x :: t) = .ok (r, rest) ∧ g r.toNat) = τ) :
    law n max g = accepted max.toNat B g / 2 ^ 64 + (1 - (B + 1) / 2 ^ 64) * τ := by
  classical
  unfold law
  rw [prob_succ]
  have hBlt : B < 2 ^ 64 := hB.2.1
  obtain ⟨N, hN⟩ : ∃ N : Nat, N = 2 ^ 64 := ⟨_, rfl⟩
  have hNr : (2 : ℝ) ^ 64 = (N : ℝ) := by rw [hN, Nat.cast_pow, Nat.cast_ofNat]
  rw [hNr]
  rw [← hN] at hBlt ⊢
  have e : ∀ x < N, prob n (fun t => ∃ r rest, RNG.uintn tape n max (BitVec.ofNat 64 x :: t) = .ok (r, rest) ∧ g r.toNat) =
      if x < B + 1 then (if g (x % max.toNat) then 1 else 0) else τ := by
    intro x hx
    have hxn : (BitVec.ofNat 64 x).toNat = x := by rw [BitVec.toNat_ofNat, ← hN, Nat.mod_eq_of_lt hx]
    split
    · next h =>
      have hc := (uintn_cons n max h0 B hB (BitVec.ofNat 64 x))
      have hv : (BitVec.ofNat 64 x % max).toNat = x % max.toNat := by rw [BitVec.toNat_umod, hxn]
      split
      · next hg =>
        rw [← prob_true n]
        refine prob_congr fun t _ => ⟨fun _ => trivial, fun _ => ⟨_, t, (hc t).1 (by omega), by rwa [hv]⟩⟩
      · next hg =>
        rw [← prob_false n]
        refine prob_congr fun t _ => ⟨?_, False.elim⟩
        rintro ⟨r, rest, h1, h2⟩
        rw [(hc t).1 (by omega), Except.ok.injEq, Prod.mk.injEq] at h1
        rw [← h1.1, hv] at h2
        exact hg h2
    · next h => exact hτ _ (by omega)
  rw [avg_congr e, avg_ite_le (by omega) (by omega)]
  unfold accepted
  rw [Nat.cast_add, Nat.cast_one]

theorem law_zero (max : U64) (h0 : max ≠ 0#64) (B : Nat) (hB : LargestMultiple max.toNat B) (g : Nat → Prop) :
    law 0 max g = accepted max.toNat B g / 2 ^ 64 := by
  rw [law_rec 0 max h0 B hB g 0, mul_zero, add_zero]
  intro x hx
  rw [← prob_false 0]
  refine prob_congr fun t _ => ⟨?_, False.elim⟩
  rintro ⟨r, rest, h1, h2⟩
  rw [(uintn_cons 0 max h0 B hB x t).2.1 hx] at h1
  exact err_not_ok h1

theorem law_succ (n : Nat) (max : U64) (h0 : max ≠ 0#64) (B : Nat) (hB : LargestMultiple max.toNat B) (g : Nat → Prop) :
    law (n + 1) max g = accepted max.toNat B g / 2 ^ 64 + (1 - (B + 1) / 2 ^ 64) * law n max g := by
  refine law_rec (n + 1) max h0 B hB g _ fun x hx => ?_
  unfold law
  refine prob_congr fun t _ => ?_
  rw [(uintn_cons n max h0 B hB x t).2.2 hx]

/-- The exact law. -/
theorem law_eq (n : Nat) (max : U64) (h0 : max ≠ 0#64) (B : Nat) (hB : LargestMultiple max.toNat B) (g : Nat → Prop) :
    law n max g = accepted max.toNat B g / (B + 1) * (1 - (1 - (B + 1) / 2 ^ 64) ^ (n + 1)) := by
  have hp : (0 : ℝ) < B + 1 := by positivity
  induction n with
  | zero =>
    rw [law_zero max h0 B hB g, zero_add, pow_one]
    field_simp
    ring
  | succ n ih =>
    rw [law_succ n max h0 B hB g, ih, pow_succ _ (n + 1)]
    field_simp
    ring

theorem accepted_eq (m q : Nat) (g : Nat → Prop) [DecidablePred g] :
    accepted m (m * q) g = q * ((Finset.range m).filter g).card + if g 0 then 1 else 0 := by
  classical
  have h1 : ∑ x ∈ Finset.range (m * q), (if g (x % m) then (1 : ℝ) else 0) = q * ((Finset.range m).filter g).card := by
    rw [Nat.mul_comm, sum_range_mul]
    rw [Finset.sum_congr rfl (g := fun _ => (((Finset.range m).filter g).card : ℝ)) fun i _ => ?_]
    · rw [Finset.sum_const, Finset.card_range, nsmul_eq_mul]
    · rw [Finset.card_filter, Nat.cast_sum]
      refine Finset.sum_congr rfl fun j hj => ?_
      rw [Nat.mul_comm, Nat.mul_add_mod, Nat.mod_eq_of_lt (Finset.mem_range.mp hj), Nat.cast_ite, Nat.cast_one, Nat.cast_zero]
  unfold accepted
  rw [Finset.sum_range_succ, Nat.mul_mod_right, ← h1]
  congr 1
  · exact Finset.sum_congr rfl fun x _ => by congr
  · congr

/-- `Uintn(max)` is uniform up to `2^-63` in total variation, and `2^-(n+1)` for not having returned after `n` rejections. -/
theorem law_near (n : Nat) (max : U64) (h0 : max ≠ 0#64) (g : Nat → Prop) [DecidablePred g] :
    |law n max g - ((Finset.range max.toNat).filter g).card / max.toNat| ≤ 1 / 2 ^ 63 + 1 / 2 ^ (n + 1) := by
  obtain ⟨B, hB⟩ := C10_B_exists max h0
  have hm : 0 < max.toNat := by
    rcases Nat.eq_zero_or_pos max.toNat with h | h
    · exact absurd (BitVec.eq_of_toNat_eq (by simpa using h)) h0
    · exact h
  have hBig : (2 : ℝ) ^ 63 ≤ B + 1 := by
    have hBeq := (largestMultiple_iff _ _ hm).mp hB
    have hlt := max.isLt
    have : 2 ^ 63 ≤ B + 1 := by
      by_cases hc : max.toNat ≤ 2 ^ 63
      · have hm' : (2 ^ 64 - 1) % max.toNat < max.toNat := Nat.mod_lt _ hm
        have hd := Nat.div_add_mod (2 ^ 64 - 1) max.toNat
        omega
      · have := hB.2.2 max.toNat (Nat.dvd_refl _) (by omega)
        omega
    exact_mod_cast this
  have hBle : (B : ℝ) + 1 ≤ 2 ^ 64 := by
    have := hB.2.1
    have : B + 1 ≤ 2 ^ 64 := this
    exact_mod_cast this
  rw [law_eq n max h0 B hB g]
  obtain ⟨q, hq⟩ := hB.1
  have hacc := accepted_eq max.toNat q g
  rw [← hq] at hacc
  have hcard : (((Finset.range max.toNat).filter g).card : ℝ) ≤ max.toNat := by
    have := Finset.card_filter_le (Finset.range max.toNat) g
    rw [Finset.card_range] at this
    exact_mod_cast this
  have hBr : (B : ℝ) = max.toNat * q := by rw [hq, Nat.cast_mul]
  generalize accepted max.toNat B g = A at *
  have hS0 : (0 : ℝ) ≤ ((Finset.range max.toNat).filter g).card := Nat.cast_nonneg _
  generalize (((Finset.range max.toNat).filter g).card : ℝ) = S at *
  have hM : (0 : ℝ) < max.toNat := Nat.cast_pos.mpr hm
  generalize (max.toNat : ℝ) = M at *
  obtain ⟨b, hb, hb0, hb1⟩ : ∃ b : ℝ, (if g 0 then (1 : ℝ) else 0) = b ∧ 0 ≤ b ∧ b ≤ 1 := by
    split
    · exact ⟨1, rfl, by norm_num, le_refl _⟩
    · exact ⟨0, rfl, le_refl _, by norm_num⟩
  rw [hb] at hacc
  have hD : (0 : ℝ) < B + 1 := by positivity
  have hDe : (B : ℝ) + 1 = M * q + 1 := by rw [hBr]
  generalize (B : ℝ) + 1 = D at *
  have h1 : A / D - S / M = (b * M - S) / (M * D) := by
    rw [hacc]
    field_simp
    rw [hDe]
    ring
  have h2 : |A / D - S / M| ≤ 1 / 2 ^ 63 := by
    rw [h1, abs_div, abs_of_pos (mul_pos hM hD)]
    have : |b * M - S| ≤ M := by
      rw [abs_le]
      have : b * M ≤ M := mul_le_of_le_one_left hM.le hb1
      have : 0 ≤ b * M := mul_nonneg hb0 hM.le
      constructor <;> linarith
    calc |b * M - S| / (M * D) ≤ M / (M * D) := div_le_div_of_nonneg_right this (mul_pos hM hD).le
      _ = 1 / D := by field_simp
      _ ≤ 1 / 2 ^ 63 := one_div_le_one_div_of_le (by positivity) hBig
  have hA0 : 0 ≤ A := by rw [hacc]; positivity
  have hA1 : A / D ≤ 1 := by
    rw [div_le_one hD, hacc, hDe]
    have : (q : ℝ) * S ≤ q * M := mul_le_mul_of_nonneg_left hcard (Nat.cast_nonneg _)
    linarith
  have hA2 : 0 ≤ A / D := div_nonneg hA0 hD.le
  have hρ0 : 0 ≤ 1 - D / 2 ^ 64 := by
    rw [sub_nonneg, div_le_one (by positivity)]; exact hBle
  have hρ1 : 1 - D / 2 ^ 64 ≤ 1 / 2 := by
    have : (2 : ℝ) ^ 63 / 2 ^ 64 ≤ D / 2 ^ 64 := div_le_div_of_nonneg_right hBig (by positivity)
    have e : (2 : ℝ) ^ 63 / 2 ^ 64 = 1 / 2 := by norm_num
    linarith
  have hpow : (1 - D / 2 ^ 64) ^ (n + 1) ≤ 1 / 2 ^ (n + 1) := by
    have := pow_le_pow_left₀ hρ0 hρ1 (n + 1)
    rwa [div_pow, one_pow] at this
  have hpow0 : 0 ≤ (1 - D / 2 ^ 64) ^ (n + 1) := pow_nonneg hρ0 _
  generalize (1 - D / 2 ^ 64) ^ (n + 1) = ρ at *
  have h3 : A / D * (1 - ρ) - S / M = (A / D - S / M) - A / D * ρ := by ring
  rw [h3]
  have h4 : 0 ≤ A / D * ρ := mul_nonneg hA2 hpow0
  have h5 : A / D * ρ ≤ ρ := mul_le_of_le_one_left hpow0 hA1
  have h6 : |A / D * ρ| ≤ 1 / 2 ^ (n + 1) := by rw [abs_of_nonneg h4]; linarith
  exact (abs_sub _ _).trans (add_le_add h2 h6)

/-! ### Several draws -/

theorem prob_or (k : Nat) (P Q : List U64 → Prop) (h : ∀ t, ¬ (P t ∧ Q t)) : prob k (fun t => P t ∨ Q t) = prob k P + prob k Q := by
  induction k generalizing P Q with
  | zero =>
    classical
    rw [prob_zero, prob_zero, prob_zero]
    by_cases hp : P []
    · by_cases hq : Q []
      · exact absurd ⟨hp, hq⟩ (h [])
      · rw [if_pos (Or.inl hp), if_pos hp, if_neg hq, add_zero]
    · by_cases hq : Q []
      · rw [if_pos (Or.inr hq), if_neg hp, if_pos hq, zero_add]
      · rw [if_neg (not_or.mpr ⟨hp, hq⟩), if_neg hp, if_neg hq, add_zero]
  | succ k ih =>
    rw [prob_succ, prob_succ, prob_succ, ← avg_add]
    exact avg_congr fun x _ => ih _ _ fun t => h _

theorem prob_exists_lt (k N : Nat) (P : Nat → List U64 → Prop) (h : ∀ t r r', P r t → P r' t → r = r') :
    prob k (fun t => ∃ r < N, P r t) = ∑ r ∈ Finset.range N, prob k (P r) := by
  induction N with
  | zero =>
    rw [Finset.sum_range_zero, ← prob_false k]
    exact prob_congr fun t _ => ⟨fun ⟨r, hr, _⟩ => absurd hr (Nat.not_lt_zero r), False.elim⟩
  | succ N ih =>
    rw [Finset.sum_range_succ, ← ih, ← prob_or]
    · refine prob_congr fun t _ => ⟨?_, ?_⟩
      · rintro ⟨r, hr, hP⟩
        rcases Nat.lt_succ_iff_lt_or_eq.mp hr with h1 | rfl
        · exact Or.inl ⟨r, h1, hP⟩
        · exact Or.inr hP
      · rintro (⟨r, hr, hP⟩ | hP)
        · exact ⟨r, Nat.lt_succ_of_lt hr, hP⟩
        · exact ⟨N, Nat.lt_succ_self N, hP⟩
    · rintro t ⟨⟨r, hr, h1⟩, h2⟩
      have := h t r N h1 h2
      omega

theorem reads_draws (k : Nat) (next : List U64 → Go (U64 × List U64)) (h : Reads k next) (m : Nat) : Reads (m * k) (draws next m) := by
  induction m with
  | zero =>
    rw [Nat.zero_mul]
    exact Reads.pure []
  | succ m ih =>
    rw [Nat.succ_mul, Nat.add_comm]
    exact h.bind (g := fun x s => draws next m s >>= fun q => .ok (x :: q.1, q.2)) fun x => ih.map fun xs => x :: xs

/-- The probability that `m` calls of `Uintn(max)`, each with at most `n` rejections, return a list in `S`. -/
noncomputable def lawDraws (n : Nat) (max : U64) (m : Nat) (S : List Nat → Prop) : ℝ :=
  prob (m * (n + 1)) (fun w => ∃ js rest, draws (RNG.uintn tape n max) m w = .ok (js, rest) ∧ S (js.map BitVec.toNat))

theorem lawDraws_zero (n : Nat) (max : U64) (S : List Nat → Prop) [Decidable (S [])] : lawDraws n max 0 S = if S [] then 1 else 0 := by
  unfold lawDraws
  rw [Nat.zero_mul]
  classical
  rw [prob_zero]
  refine if_congr ⟨?_, fun h => ⟨[], [], rfl, h⟩⟩ rfl rfl
  rintro ⟨js, rest, h, hS⟩
  have h' : (Except.ok ([], []) : Go (List U64 × List U64)) = .ok (js, rest) := h
  rw [Except.ok.injEq, Prod.mk.injEq] at h'
  rw [← h'.1] at hS
  exact hS

theorem draws_succ_ok {σ : Type} (next : σ → Go (U64 × σ)) (m : Nat) (s : σ) (js : List U64) (s' : σ) :
    draws next (m + 1) s = .ok (js, s') ↔
      ∃ x s1 xs, next s = .ok (x, s1) ∧ draws next m s1 = .ok (xs, s') ∧ js = x :: xs := by
  rw [draws]
  cases next s with
  | error e =>
    simp only [bind, Except.bind]
    exact ⟨fun h => (by cases h), fun ⟨_, _, _, h, _⟩ => (by cases h)⟩
  | ok q =>
    obtain ⟨x, s1⟩ := q
    simp only [bind, Except.bind, pure, Except.pure]
    cases hd : draws next m s1 with
    | error e =>
      simp only []
      constructor
      · intro h; cases h
      · rintro ⟨x', s1', xs, h1, h2, -⟩
        rw [Except.ok.injEq, Prod.mk.injEq] at h1
        rw [← h1.2, hd] at h2
        cases h2
    | ok q =>
      obtain ⟨xs, s2⟩ := q
      simp only [Except.ok.injEq, Prod.mk.injEq]
      constructor
      · rintro ⟨h1, h2⟩
        exact ⟨x, s1, xs, ⟨rfl, rfl⟩, by rw [hd, h2], h1.symm⟩
      · rintro ⟨x', s1', xs', ⟨h1, h2⟩, h3, h4⟩
        rw [← h2, hd, Except.ok.injEq, Prod.mk.injEq] at h3
        exact ⟨by rw [h4, h1, h3.1], h3.2⟩

theorem lawDraws_succ (n : Nat) (max : U64) (m : Nat) (S : List Nat → Prop) :
    lawDraws n max (m + 1) S = ∑ r ∈ Finset.range max.toNat, law n max (· = r) * lawDraws n max m (fun l => S (r :: l)) := by
  unfold lawDraws
  rw [Nat.succ_mul, Nat.add_comm]
  have e : ∀ w, (∃ js rest, draws (RNG.uintn tape n max) (m + 1) w = .ok (js, rest) ∧ S (js.map BitVec.toNat)) ↔
      ∃ r < max.toNat, ∃ x s1, RNG.uintn tape n max w = .ok (x, s1) ∧ x.toNat = r ∧
        ∃ js rest, draws (RNG.uintn tape n max) m s1 = .ok (js, rest) ∧ S (r :: js.map BitVec.toNat) := by
    intro w
    constructor
    · rintro ⟨js, rest, h, hS⟩
      obtain ⟨x, s1, xs, h1, h2, rfl⟩ := (draws_succ_ok _ _ _ _ _).mp h
      exact ⟨x.toNat, C09_range tape n max w x s1 h1, x, s1, h1, rfl, xs, rest, h2, hS⟩
    · rintro ⟨r, -, x, s1, h1, h2, xs, rest, h3, hS⟩
      refine ⟨x :: xs, rest, (draws_succ_ok _ _ _ _ _).mpr ⟨x, s1, xs, h1, h3, rfl⟩, ?_⟩
      rw [List.map_cons, h2]
      exact hS
  rw [prob_congr fun w _ => e w, prob_exists_lt]
  · refine Finset.sum_congr rfl fun r _ => ?_
    exact (reads_uintn n max).indep (n + 1) (m * (n + 1)) _ (fun x => x.toNat = r) _ fun w v hw =>
      (reads_draws (n + 1) _ (reads_uintn n max) m).returns_iff (fun js => S (r :: js.map BitVec.toNat)) w v hw
  · rintro t r r' ⟨x, s1, h1, h2, -⟩ ⟨x', s1', h1', h2', -⟩
    rw [h1, Except.ok.injEq, Prod.mk.injEq] at h1'
    rw [← h2, ← h2', h1'.1]

theorem uniformShare_zero (N : Nat) (S : List Nat → Prop) [Decidable (S [])] : uniformShare N 0 S = if S [] then 1 else 0 := by
  unfold uniformShare
  rw [pow_zero, div_one]
  split
  · next h =>
    have : Nat.card {l : List (Fin N) // l.length = 0 ∧ S (l.map Fin.val)} = 1 := by
      rw [Nat.card_eq_one_iff_unique]
      exact ⟨⟨fun a b => Subtype.ext (by
        rw [List.length_eq_zero_iff.mp a.2.1, List.length_eq_zero_iff.mp b.2.1])⟩, ⟨⟨[], rfl, h⟩⟩⟩
    rw [this, Nat.cast_one]
  · next h =>
    have : IsEmpty {l : List (Fin N) // l.length = 0 ∧ S (l.map Fin.val)} :=
      ⟨fun a => h (by have := a.2.2; rwa [List.length_eq_zero_iff.mp a.2.1] at this)⟩
    rw [Nat.card_of_isEmpty, Nat.cast_zero]

instance finite_lists (N m : Nat) (S : List Nat → Prop) : Finite {l : List (Fin N) // l.length = m ∧ S (l.map Fin.val)} :=
  Set.Finite.subset (List.finite_length_eq (Fin N) m) fun _ h => h.1

theorem uniformShare_succ (N m : Nat) (S : List Nat → Prop) :
    uniformShare N (m + 1) S = ∑ r ∈ Finset.range N, (1 / N : ℝ) * uniformShare N m (fun l => S (r :: l)) := by
  let E : {l : List (Fin N) // l.length = m + 1 ∧ S (l.map Fin.val)} ≃
      (r : Fin N) × {l : List (Fin N) // l.length = m ∧ S (r.val :: l.map Fin.val)} := {
    toFun := fun t => match t with
      | ⟨r :: l, h⟩ => ⟨r, ⟨l, by simpa using h.1, h.2⟩⟩
    invFun := fun q => ⟨q.1 :: q.2.1, by simpa using q.2.2.1, q.2.2.2⟩
    left_inv := by
      rintro ⟨_ | ⟨r, l⟩, h1, h2⟩
      · cases h1
      · rfl
    right_inv := by
      rintro ⟨r, l, h1, h2⟩
      rfl }
  have h : Nat.card {l : List (Fin N) // l.length = m + 1 ∧ S (l.map Fin.val)} =
      ∑ r ∈ Finset.range N, Nat.card {l : List (Fin N) // l.length = m ∧ S (r :: l.map Fin.val)} := by
    have : ∀ a : Fin N, Finite {l : List (Fin N) // l.length = m ∧ S (a.val :: l.map Fin.val)} := fun a =>
      finite_lists N m fun l => S (a.val :: l)
    rw [Nat.card_congr E, Nat.card_sigma, Finset.sum_range]
  unfold uniformShare
  rw [h, Nat.cast_sum, Finset.sum_div]
  refine Finset.sum_congr rfl fun r _ => ?_
  rw [pow_succ', one_div_mul_eq_div, div_div, mul_comm ((N : ℝ) ^ m)]

theorem uniformShare_bounds (N m : Nat) (S : List Nat → Prop) : 0 ≤ uniformShare N m S ∧ uniformShare N m S ≤ 1 := by
  induction m generalizing S with
  | zero =>
    classical
    rw [uniformShare_zero]
    split <;> norm_num
  | succ m ih =>
    rw [uniformShare_succ]
    rcases Nat.eq_zero_or_pos N with rfl | hN
    · simp
    have hN' : (0 : ℝ) < N := Nat.cast_pos.mpr hN
    constructor
    · exact Finset.sum_nonneg fun r _ => mul_nonneg (by positivity) (ih _).1
    · have : ∑ r ∈ Finset.range N, (1 / N : ℝ) * uniformShare N m (fun l => S (r :: l)) ≤ ∑ _r ∈ Finset.range N, (1 / N : ℝ) :=
        Finset.sum_le_sum fun r _ => mul_le_of_le_one_right (by positivity) (ih _).2
      rw [Finset.sum_const, Finset.card_range, nsmul_eq_mul, mul_one_div_cancel hN'.ne'] at this
      exact this

/-- The values in a set are returned with the sum of their probabilities. -/
theorem law_sum (n : Nat) (max : U64) (g : Nat → Prop) [DecidablePred g] :
    law n max g = ∑ r ∈ (Finset.range max.toNat).filter g, law n max (· = r) := by
  unfold law
  rw [Finset.sum_filter]
  have e : ∀ w, (∃ r rest, RNG.uintn tape n max w = .ok (r, rest) ∧ g r.toNat) ↔
      ∃ q < max.toNat, (∃ r rest, RNG.uintn tape n max w = .ok (r, rest) ∧ r.toNat = q) ∧ g q := by
    intro w
    constructor
    · rintro ⟨r, rest, h, hg⟩
      exact ⟨r.toNat, C09_range tape n max w r rest h, ⟨r, rest, h, rfl⟩, hg⟩
    · rintro ⟨q, -, ⟨r, rest, h, rfl⟩, hg⟩
      exact ⟨r, rest, h, hg⟩
  rw [prob_congr fun w _ => e w, prob_exists_lt]
  · refine Finset.sum_congr rfl fun r _ => ?_
    split
    · next h => exact prob_congr fun w _ => and_iff_left h
    · next h =>
      rw [← prob_false (n + 1)]
      exact prob_congr fun w _ => ⟨fun q => h q.2, False.elim⟩
  · rintro t r r' ⟨⟨x, s1, h1, h2⟩, -⟩ ⟨⟨x', s1', h1', h2'⟩, -⟩
    rw [h1, Except.ok.injEq, Prod.mk.injEq] at h1'
    rw [← h2, ← h2', h1'.1]

/-- The error of a mean of values between 0 and 1. -/
theorem law_mean (n : Nat) (max : U64) (h0 : max ≠ 0#64) (f : Nat → ℝ) (hf : ∀ r, 0 ≤ f r ∧ f r ≤ 1) :
    |∑ r ∈ Finset.range max.toNat, law n max (· = r) * f r - ∑ r ∈ Finset.range max.toNat, (1 / max.toNat : ℝ) * f r| ≤
      1 / 2 ^ 63 + 1 / 2 ^ (n + 1) := by
  classical
  rw [← Finset.sum_sub_distrib]
  have key : ∀ g : Nat → Prop, |∑ r ∈ (Finset.range max.toNat).filter g, (law n max (· = r) - 1 / max.toNat)| ≤
      1 / 2 ^ 63 + 1 / 2 ^ (n + 1) := by
    intro g
    have h := law_near n max h0 g
    rwa [law_sum, ← mul_one_div, ← nsmul_eq_mul, ← Finset.sum_const, ← Finset.sum_sub_distrib] at h
  have hu := (abs_le.mp (key fun r => 0 ≤ law n max (· = r) - 1 / max.toNat)).2
  have hl := (abs_le.mp (key fun r => law n max (· = r) - 1 / max.toNat ≤ 0)).1
  rw [Finset.sum_filter] at hu hl
  rw [abs_le]
  constructor
  · refine hl.trans (Finset.sum_le_sum fun r _ => ?_)
    rw [← sub_mul]
    generalize law n max (· = r) - 1 / (max.toNat : ℝ) = d
    have := hf r
    split
    · next h => nlinarith
    · next h => nlinarith
  · refine (Finset.sum_le_sum fun r _ => ?_).trans hu
    rw [← sub_mul]
    generalize law n max (· = r) - 1 / (max.toNat : ℝ) = d
    have := hf r
    split
    · next h => nlinarith
    · next h => nlinarith

theorem law_total (n : Nat) (max : U64) : ∑ r ∈ Finset.range max.toNat, law n max (· = r) ≤ 1 := by
  have h := law_sum n max (fun _ => True)
  rw [Finset.filter_true] at h
  rw [← h]
  exact prob_le_one _ _

/-- Successive calls of `Uintn(max)` are uniform and independent up to `2^-63` each. -/
theorem lawDraws_near (n : Nat) (max : U64) (h0 : max ≠ 0#64) (m : Nat) (S : List Nat → Prop) :
    |lawDraws n max m S - uniformShare max.toNat m S| ≤ m * (1 / 2 ^ 63 + 1 / 2 ^ (n + 1)) := by
  induction m generalizing S with
  | zero =>
    classical
    rw [lawDraws_zero, uniformShare_zero, sub_self, abs_zero, Nat.cast_zero, zero_mul]
  | succ m ih =>
    rw [lawDraws_succ, uniformShare_succ]
    have h1 := law_mean n max h0 (fun r => uniformShare max.toNat m fun l => S (r :: l)) fun r => uniformShare_bounds _ _ _
    have h2 : |∑ r ∈ Finset.range max.toNat, law n max (· = r) * lawDraws n max m (fun l => S (r :: l)) -
        ∑ r ∈ Finset.range max.toNat, law n max (· = r) * uniformShare max.toNat m fun l => S (r :: l)| ≤
          m * (1 / 2 ^ 63 + 1 / 2 ^ (n + 1)) := by
      rw [← Finset.sum_sub_distrib]
      refine (Finset.abs_sum_le_sum_abs _ _).trans ?_
      have hc : (0 : ℝ) ≤ m * (1 / 2 ^ 63 + 1 / 2 ^ (n + 1)) := by positivity
      have h3 : ∑ r ∈ Finset.range max.toNat, |law n max (· = r) * lawDraws n max m (fun l => S (r :: l)) -
          law n max (· = r) * uniformShare max.toNat m fun l => S (r :: l)| ≤
            ∑ r ∈ Finset.range max.toNat, law n max (· = r) * (m * (1 / 2 ^ 63 + 1 / 2 ^ (n + 1))) := by
        refine Finset.sum_le_sum fun r _ => ?_
        have hp : 0 ≤ law n max (· = r) := prob_nonneg _ _
        rw [← mul_sub, abs_mul, abs_of_nonneg hp]
        exact mul_le_mul_of_nonneg_left (ih _) hp
      rw [← Finset.sum_mul] at h3
      exact h3.trans (mul_le_of_le_one_left hc (law_total n max))
    rw [Nat.cast_succ, add_mul, one_mul]
    exact (abs_sub_le _ _ _).trans (add_le_add h2 h1)

end Crazy
