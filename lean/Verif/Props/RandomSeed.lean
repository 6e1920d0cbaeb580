/-
C114: what seeding with random bytes guarantees.
-/
import Verif.Spec.RandomSeed
import Verif.Props.SeedBits
import Verif.Props.SeedRef
import Verif.Props.Compose2
import Verif.Props.PeriodDist
import Verif.Props.PeriodCalls
import Verif.Props.SeedHelpers
import Verif.Props.Apart
import Mathlib.Logic.Equiv.Prod
import Mathlib.Data.Fintype.BigOperators
import Mathlib.Tactic.DefEqTransformations
import Mathlib.Data.Set.Card
namespace Crazy

/-! ### Counting ivs by the state they lead to -/

theorem bytes_finite (n : Nat) : Finite {b : List Byte // b.length = n} := by
  refine Nat.finite_of_card_ne_zero ?_
  rw [card_bytes]
  positivity

section
variable {σ : Type} [Finite σ] (f : List Byte → σ) (M W : Nat) (hcard : Nat.card σ = 256 ^ W)
  (hinj : ∀ u, u.length = M → ∀ e e', e.length = W → e'.length = W → f (u ++ e) = f (u ++ e') → e = e')
include hcard hinj

theorem iv_reaches (u : List Byte) (hu : u.length = M) (s : σ) : ∃ e : List Byte, e.length = W ∧ f (u ++ e) = s := by
  have := bytes_finite W
  have hb : Function.Bijective fun e : {b : List Byte // b.length = W} => f (u ++ e.1) := by
    rw [Nat.bijective_iff_injective_and_card]
    refine ⟨fun a b h => Subtype.ext (hinj u hu _ _ a.2 b.2 h), ?_⟩
    rw [card_bytes, hcard]
  obtain ⟨e, he⟩ := hb.2 s
  exact ⟨e.1, e.2, he⟩

/-- Each state is reached from equally many ivs. -/
theorem iv_count (Q : σ → Prop) : countBytes (M + W) (fun iv => Q (f iv)) = 256 ^ M * Nat.card {s // Q s} := by
  rw [← card_bytes M, ← Nat.card_prod]
  refine Nat.card_congr (Equiv.ofBijective (fun b => (⟨b.1.take M, by rw [List.length_take, b.2.1]; omega⟩, ⟨f b.1, b.2.2⟩)) ⟨?_, ?_⟩)
  · rintro ⟨a, ha, qa⟩ ⟨b, hb, qb⟩ h
    have h1 : a.take M = b.take M := congrArg (fun p => p.1.1) h
    have h2 : f a = f b := congrArg (fun p => p.2.1) h
    refine Subtype.ext ?_
    show a = b
    rw [← List.take_append_drop M a, ← List.take_append_drop M b, h1] at h2
    have h3 := hinj (b.take M) (by rw [List.length_take]; omega) _ _ (by rw [List.length_drop]; omega) (by rw [List.length_drop]; omega) h2
    rw [← List.take_append_drop M a, ← List.take_append_drop M b, h1, h3]
  · rintro ⟨⟨u, hu⟩, ⟨s, hs⟩⟩
    obtain ⟨e, he, h1⟩ := iv_reaches f M W hcard hinj u hu s
    refine ⟨⟨u ++ e, by rw [List.length_append, hu, he], (show Q (f (u ++ e)) by rw [h1]; exact hs)⟩, ?_⟩
    refine Prod.ext (Subtype.ext ?_) (Subtype.ext h1)
    show (u ++ e).take M = u
    rw [← hu, List.take_left]

theorem iv_prob (Q : σ → Prop) : probBytes (M + W) (fun iv => Q (f iv)) = (Nat.card {s // Q s} : ℝ) / 256 ^ W := by
  unfold probBytes
  rw [iv_count f M W hcard hinj Q, Nat.cast_mul, pow_add]
  push_cast
  rw [mul_div_mul_left _ _ (by positivity)]

end

/-- Choices of `k` things, two of which are related. -/
theorem pairs_card {β : Type} [Finite β] (k c : Nat) (R : β → β → Prop) (hR : ∀ a, Nat.card {b // R a b} ≤ c) (i j : Fin k) (hij : i ≠ j) :
    Nat.card {v : Fin k → β // R (v i) (v j)} ≤ c * Nat.card β ^ (k - 1) := by
  classical
  have := Fintype.ofFinite β
  have e : {v : Fin k → β // R (v i) (v j)} ≃ Σ w : ({l : Fin k // l ≠ j} → β), {b : β // R (w ⟨i, hij⟩) b} :=
    { toFun := fun v => ⟨fun l => v.1 l.1, v.1 j, v.2⟩
      invFun := fun p => ⟨fun l => if h : l = j then p.2.1 else p.1 ⟨l, h⟩, by
        beta_reduce
        rw [dif_neg hij, dif_pos rfl]; exact p.2.2⟩
      left_inv := fun v => by
        refine Subtype.ext (funext fun l => ?_)
        by_cases h : l = j
        · subst h; exact dif_pos rfl
        · exact dif_neg h
      right_inv := fun p => by
        obtain ⟨w, b, hb⟩ := p
        have h1 : (fun l : {l : Fin k // l ≠ j} => if h : l.1 = j then b else w ⟨l.1, h⟩) = w := funext fun l => dif_neg l.2
        refine Sigma.ext h1 ?_
        have h2 : ∀ (w' : {l : Fin k // l ≠ j} → β) (x : β) (hx : R (w' ⟨i, hij⟩) x), w' = w → x = b →
            HEq (⟨x, hx⟩ : {b // R (w' ⟨i, hij⟩) b}) (⟨b, hb⟩ : {b // R (w ⟨i, hij⟩) b}) := by
          rintro w' x hx rfl rfl
          rfl
        exact h2 _ _ _ h1 (dif_pos rfl) }
  rw [Nat.card_congr e, Nat.card_sigma]
  refine le_trans (Finset.sum_le_card_nsmul _ _ c fun w _ => hR _) ?_
  rw [Finset.card_univ, Fintype.card_fun, smul_eq_mul, Nat.mul_comm, Fintype.card_subtype_compl, Fintype.card_fin, Fintype.card_subtype_eq,
    Nat.card_eq_fintype_card]

theorem meet_pure {σ : Type} {next : σ → Go (U64 × σ)} {out : σ → U64} {step : σ → σ} (h : ∀ s, next s = .ok (out s, step s)) (n : Nat) (s t : σ) :
    Meet next n s t ↔ ∃ a < n, ∃ b < n, step^[a] s = step^[b] t := by
  unfold Meet
  simp only [leads_pure h]
  constructor
  · rintro ⟨a, ha, b, hb, _, rfl, h2⟩
    exact ⟨a, ha, b, hb, h2.symm⟩
  · rintro ⟨a, ha, b, hb, h1⟩
    exact ⟨a, ha, b, hb, _, rfl, h1.symm⟩

/-- Of all states, at most `2n - 1` meet a given one within `n` steps. -/
theorem meet_card {σ : Type} [Finite σ] {step : σ → σ} (hs : Function.Injective step) (n : Nat) (s : σ) :
    Nat.card {t : σ // ∃ a < n, ∃ b < n, step^[a] s = step^[b] t} ≤ 2 * n - 1 := by
  have hi : ∀ k, Function.Injective step^[k] := fun k => hs.iterate k
  have h : ∀ t : {t : σ // ∃ a < n, ∃ b < n, step^[a] s = step^[b] t}, ∃ d : Fin (2 * n - 1), step^[d.1] s = step^[n - 1] t.1 := by
    rintro ⟨t, a, ha, b, hb, h1⟩
    refine ⟨⟨a + (n - 1 - b), by omega⟩, ?_⟩
    show step^[a + (n - 1 - b)] s = step^[n - 1] t
    rw [Nat.add_comm, Function.iterate_add_apply, h1, ← Function.iterate_add_apply, show n - 1 - b + b = n - 1 by omega]
  choose d hd using h
  have hdi : Function.Injective d := fun x y hxy => by
    refine Subtype.ext (hi (n - 1) ?_)
    rw [← hd x, ← hd y, hxy]
  have := Nat.card_le_card_of_injective d hdi
  rwa [Nat.card_eq_fintype_card (α := Fin (2 * n - 1)), Fintype.card_fin] at this

/-- The union bound. -/
theorem overlap_prob {σ : Type} [Finite σ] {next : σ → Go (U64 × σ)} {out : σ → U64} {step : σ → σ} (hp : ∀ s, next s = .ok (out s, step s))
    (hs : Function.Injective step) (f : List Byte → σ) (M W : Nat) (hcard : Nat.card σ = 256 ^ W)
    (hinj : ∀ u, u.length = M → ∀ e e', e.length = W → e'.length = W → f (u ++ e) = f (u ++ e') → e = e') (k n : Nat) :
    probSeedings k (M + W) (fun v => ∃ i j, i ≠ j ∧ Meet next n (f (v i)) (f (v j))) ≤ k ^ 2 * n / 256 ^ W := by
  have hfin := bytes_finite (M + W)
  unfold probSeedings
  rw [div_le_div_iff₀ (by positivity) (by positivity)]
  have e : Nat.card {v : Fin k → List Byte // (∀ i, (v i).length = M + W) ∧ ∃ i j, i ≠ j ∧ Meet next n (f (v i)) (f (v j))} =
      Nat.card {v : Fin k → {b : List Byte // b.length = M + W} // ∃ i j, i ≠ j ∧ Meet next n (f (v i).1) (f (v j).1)} :=
    Nat.card_congr
      { toFun := fun v => ⟨fun i => ⟨v.1 i, v.2.1 i⟩, v.2.2⟩
        invFun := fun v => ⟨fun i => (v.1 i).1, fun i => (v.1 i).2, v.2⟩
        left_inv := fun _ => rfl
        right_inv := fun _ => rfl }
  have hR : ∀ a : {b : List Byte // b.length = M + W}, Nat.card {b : {b : List Byte // b.length = M + W} // Meet next n (f a.1) (f b.1)} ≤
      256 ^ M * (2 * n) := fun a => by
    have h1 := iv_count f M W hcard hinj fun s => Meet next n (f a.1) s
    have h2 : Nat.card {b : {b : List Byte // b.length = M + W} // Meet next n (f a.1) (f b.1)} =
        countBytes (M + W) fun iv => Meet next n (f a.1) (f iv) :=
      Nat.card_congr
        { toFun := fun b => ⟨b.1.1, b.1.2, b.2⟩
          invFun := fun b => ⟨⟨b.1, b.2.1⟩, b.2.2⟩
          left_inv := fun _ => rfl
          right_inv := fun _ => rfl }
    rw [h2, h1]
    refine Nat.mul_le_mul_left _ ?_
    simp only [meet_pure hp]
    exact le_trans (meet_card hs n _) (by omega)
  have hcount : Nat.card {v : Fin k → {b : List Byte // b.length = M + W} // ∃ i j, i ≠ j ∧ Meet next n (f (v i).1) (f (v j).1)} ≤
      k ^ 2 * (256 ^ M * n * (256 ^ (M + W)) ^ (k - 1)) := by
    classical
    have := Fintype.ofFinite {b : List Byte // b.length = M + W}
    rw [Nat.card_eq_fintype_card, Fintype.card_subtype]
    have hsub : (Finset.univ.filter fun v : Fin k → {b : List Byte // b.length = M + W} => ∃ i j, i ≠ j ∧ Meet next n (f (v i).1) (f (v j).1)) ⊆
        (Finset.univ.filter fun q : Fin k × Fin k => q.1 < q.2).biUnion fun q => Finset.univ.filter fun v => Meet next n (f (v q.1).1) (f (v q.2).1) := by
      intro v hv
      obtain ⟨i, j, h1, h2⟩ := (Finset.mem_filter.mp hv).2
      rcases lt_or_gt_of_ne h1 with h | h
      · exact Finset.mem_biUnion.mpr ⟨(i, j), Finset.mem_filter.mpr ⟨Finset.mem_univ _, h⟩, Finset.mem_filter.mpr ⟨Finset.mem_univ _, h2⟩⟩
      · refine Finset.mem_biUnion.mpr ⟨(j, i), Finset.mem_filter.mpr ⟨Finset.mem_univ _, h⟩, Finset.mem_filter.mpr ⟨Finset.mem_univ _, ?_⟩⟩
        obtain ⟨a, ha, b, hb, w, h3, h4⟩ := h2
        exact ⟨b, hb, a, ha, w, h4, h3⟩
    refine le_trans (Finset.card_le_card hsub) (le_trans Finset.card_biUnion_le ?_)
    refine le_trans (Finset.sum_le_card_nsmul _ _ (256 ^ M * (2 * n) * (256 ^ (M + W)) ^ (k - 1)) fun q hq => ?_) ?_
    · have h1 := pairs_card k (256 ^ M * (2 * n)) (fun a b : {b : List Byte // b.length = M + W} => Meet next n (f a.1) (f b.1)) hR q.1 q.2
        (ne_of_lt (Finset.mem_filter.mp hq).2)
      rwa [card_bytes, Nat.card_eq_fintype_card, Fintype.card_subtype] at h1
    · have h1 : (Finset.univ.filter fun q : Fin k × Fin k => q.1 < q.2).card = (Finset.univ.filter fun q : Fin k × Fin k => q.2 < q.1).card :=
        Finset.card_bij (fun q _ => (q.2, q.1)) (fun q hq => Finset.mem_filter.mpr ⟨Finset.mem_univ _, (Finset.mem_filter.mp hq).2⟩)
          (fun a _ b _ h => Prod.ext (congrArg Prod.snd h) (congrArg Prod.fst h))
          (fun q hq => ⟨(q.2, q.1), Finset.mem_filter.mpr ⟨Finset.mem_univ _, (Finset.mem_filter.mp hq).2⟩, rfl⟩)
      have h2 : Disjoint (Finset.univ.filter fun q : Fin k × Fin k => q.1 < q.2) (Finset.univ.filter fun q : Fin k × Fin k => q.2 < q.1) :=
        Finset.disjoint_filter.mpr fun q _ h3 h4 => lt_asymm h3 h4
      have h3 := Finset.card_le_univ ((Finset.univ.filter fun q : Fin k × Fin k => q.1 < q.2) ∪ (Finset.univ.filter fun q : Fin k × Fin k => q.2 < q.1))
      rw [Finset.card_union_of_disjoint h2, ← h1, Fintype.card_prod, Fintype.card_fin] at h3
      rw [smul_eq_mul]
      generalize (Finset.univ.filter fun q : Fin k × Fin k => q.1 < q.2).card = c at h3
      generalize (256 ^ (M + W)) ^ (k - 1) = X
      calc c * (256 ^ M * (2 * n) * X) = (c + c) * (256 ^ M * n * X) := by ring
        _ ≤ k * k * (256 ^ M * n * X) := Nat.mul_le_mul_right _ h3
        _ = _ := by rw [pow_two]
  rw [e]
  rcases Nat.eq_zero_or_pos k with rfl | hk
  · have h0 : Nat.card {v : Fin 0 → {b : List Byte // b.length = M + W} // ∃ i j, i ≠ j ∧ Meet next n (f (v i).1) (f (v j).1)} = 0 :=
      Nat.card_eq_zero.mpr (Or.inl ⟨fun v => v.2.choose.elim0⟩)
    rw [h0]
    simp
  · obtain ⟨k, rfl⟩ : ∃ k', k = k' + 1 := ⟨k - 1, by omega⟩
    have h1 : (Nat.card {v : Fin (k + 1) → {b : List Byte // b.length = M + W} // ∃ i j, i ≠ j ∧ Meet next n (f (v i).1) (f (v j).1)} : ℝ) ≤
        (((k + 1) ^ 2 * (256 ^ M * n * (256 ^ (M + W)) ^ (k + 1 - 1)) : ℕ) : ℝ) := Nat.cast_le.mpr hcount
    refine le_trans (mul_le_mul_of_nonneg_right h1 (by positivity)) (le_of_eq ?_)
    rw [Nat.add_sub_cancel]
    push_cast
    rw [pow_succ ((256 : ℝ) ^ (M + W)) k]
    generalize ((256 : ℝ) ^ (M + W)) ^ k = X
    rw [pow_add]
    ring

/-! ### Xoroshiro -/

namespace Xoroshiro

/-- The state after `SeedIV`. -/
noncomputable def after (iv : List Byte) : Xoroshiro := (seedIV_total iv).choose

theorem after_eq (iv : List Byte) (g : Xoroshiro) : g.seedIV iv = .ok (after iv) := (seedIV_total iv).choose_spec g

theorem card_state : Nat.card Xoroshiro = 256 ^ 16 := by
  rw [Nat.card_congr equiv, card_words]
  norm_num

theorem after_inj (M : Nat) (hM : 8 ∣ M) (u : List Byte) (hu : u.length = M) (e e' : List Byte) (he : e.length = 16) (he' : e'.length = 16)
    (h : after (u ++ e) = after (u ++ e')) : e = e' := by
  obtain ⟨ws, rfl⟩ := whole_words u (by rw [hu]; exact hM)
  have key : ∀ a p, new.seedIV (bytesOf ws ++ (le64 a ++ le64 p)) =
      .ok ⟨smMix ((((smGamma ^^^ a) + smAfter ws + smGamma) ^^^ p) + smGamma), smMix ((smGamma ^^^ a) + smAfter ws + smGamma)⟩ := by
    intro a p
    have e : bytesOf ws ++ (le64 a ++ le64 p) = bytesOf (ws ++ [a]) ++ le64 p := by
      rw [bytesOf_append, bytesOf_one, List.append_assoc]
    rw [e, seedIV_words _ (le64 p) (by simp [le64]) (by simp) p (by simp [zeros]), smAfter_append, smAfter_one]
  obtain ⟨a, ha⟩ := pad_full (m := e.take 8) (by rw [List.length_take]; omega)
  obtain ⟨p, hp⟩ := pad_full (m := e.drop 8) (by rw [List.length_drop]; omega)
  obtain ⟨a', ha'⟩ := pad_full (m := e'.take 8) (by rw [List.length_take]; omega)
  obtain ⟨p', hp'⟩ := pad_full (m := e'.drop 8) (by rw [List.length_drop]; omega)
  have h1 : new.seedIV (bytesOf ws ++ e) = new.seedIV (bytesOf ws ++ e') := by rw [after_eq, after_eq, h]
  rw [← List.take_append_drop 8 e, ← List.take_append_drop 8 e', ha, hp, ha', hp', key, key] at h1
  have h2 := smMix_inj (congrArg s1 (Except.ok.inj h1))
  have h3 := xor_left_inj' _ (add_right_inj' _ (add_right_inj' _ h2))
  subst h3
  have h4 := smMix_inj (congrArg s0 (Except.ok.inj h1))
  have h5 := xor_left_inj' _ (add_right_inj' _ h4)
  subst h5
  rw [← List.take_append_drop 8 e, ← List.take_append_drop 8 e', ha, hp, ha', hp']

end Xoroshiro

theorem iter_card {σ : Type} [Finite σ] {step : σ → σ} (hs : Function.Injective step) (n : Nat) (A : σ → Prop) :
    Nat.card {s // A (step^[n] s)} = Nat.card {s // A s} := by
  have hb : Function.Bijective step^[n] := Finite.injective_iff_bijective.mp (hs.iterate n)
  exact Nat.card_congr ((Equiv.ofBijective _ hb).subtypeEquiv fun s => Iff.rfl)

theorem seedShare_pure {σ : Type} [Finite σ] {next : σ → Go (U64 × σ)} {out : σ → U64} {step : σ → σ} (hp : ∀ s, next s = .ok (out s, step s))
    (hs : Function.Injective step) (seedIV : List Byte → σ → Go σ) (f : List Byte → σ) (hf : ∀ iv g, seedIV iv g = .ok (f iv)) (M W : Nat)
    (hcard : Nat.card σ = 256 ^ W)
    (hinj : ∀ u, u.length = M → ∀ e e', e.length = W → e'.length = W → f (u ++ e) = f (u ++ e') → e = e') (g : σ) (n : Nat) (A : σ → Prop) :
    seedShare seedIV next g (M + W) n A = (Nat.card {s // A s} : ℝ) / 256 ^ W := by
  rw [← iter_card hs n A, ← iv_prob f M W hcard hinj]
  unfold seedShare probBytes
  congr 2
  refine congrArg Nat.card (congrArg _ (funext fun iv => propext (and_congr_right fun _ => ?_)))
  simp only [hf, leads_pure hp]
  constructor
  · rintro ⟨s, t, h1, rfl, h2⟩
    rwa [Except.ok.inj h1]
  · intro h
    exact ⟨_, _, rfl, rfl, h⟩

/-- A random iv against a random place in the period. -/
theorem seed_close (P pl c : ℕ) (hP : 0 < P) (hpl : pl ≤ P) (hc : c ≤ 1) : |((pl + c : ℕ) : ℝ) / (P + 1) - (pl : ℝ) / P| ≤ 1 / (P + 1) := by
  have h1 : (0 : ℝ) < P := Nat.cast_pos.mpr hP
  have h2 : (pl : ℝ) ≤ P := Nat.cast_le.mpr hpl
  have h3 : (c : ℝ) ≤ 1 := by exact_mod_cast hc
  have h4 : (0 : ℝ) ≤ pl := Nat.cast_nonneg _
  have h5 : (0 : ℝ) ≤ c := Nat.cast_nonneg _
  have e : ((pl + c : ℕ) : ℝ) / (P + 1) - (pl : ℝ) / P = (c - pl / P) / (P + 1) := by
    push_cast
    field_simp
    ring
  rw [e, abs_div, abs_of_pos (show (0 : ℝ) < P + 1 by linarith)]
  refine div_le_div_of_nonneg_right ?_ (by linarith)
  have h6 : (pl : ℝ) / P ≤ 1 := (div_le_one h1).mpr h2
  have h7 : 0 ≤ (pl : ℝ) / P := div_nonneg h4 h1.le
  rw [abs_le]
  constructor <;> linarith

theorem card_split_zero {σ : Type} [Finite σ] (z : σ) (A : σ → Prop) :
    ∃ c ≤ 1, Nat.card {s // A s} = Nat.card {s // s ≠ z ∧ A s} + c := by
  have e1 : Nat.card {s // A s} = {s | A s}.ncard := rfl
  have e2 : Nat.card {s // s ≠ z ∧ A s} = ({s | A s} \ {z}).ncard := by
    refine congrArg Nat.card (congrArg Subtype (funext fun s => propext ?_))
    exact and_comm
  rw [e1, e2]
  by_cases hz : A z
  · exact ⟨1, le_refl 1, (Set.ncard_sdiff_singleton_add_one hz (Set.toFinite _)).symm⟩
  · refine ⟨0, Nat.zero_le 1, ?_⟩
    rw [Set.sdiff_singleton_eq_self (show z ∉ {s | A s} from hz), Nat.add_zero]

theorem transfer {σ : Type} {next : σ → Go (U64 × σ)} {out : σ → U64} {step : σ → σ} (hp : ∀ s, next s = .ok (out s, step s)) {z : σ} {N : Nat}
    (hc : FullCycle step z (2 ^ N - 1)) (s0 : σ) (h0 : s0 ≠ z) (A : σ → Prop) (x : ℝ) [Finite σ] (hx : x = (Nat.card {s // A s} : ℝ) / 2 ^ N) :
    |x - shareOf next s0 (2 ^ N - 1) A| ≤ 1 / 2 ^ N := by
  classical
  have e : places next s0 (2 ^ N - 1) A = Nat.card {t : σ // t ≠ z ∧ A t} := by
    rw [← hc.card_visits h0 A]
    unfold places
    refine congrArg Nat.card (congrArg _ (funext fun n => propext (and_congr_right fun _ => ?_)))
    rw [draws_pure hp]
    constructor
    · rintro ⟨ws, t, h1, h2⟩
      have h3 := congrArg Prod.snd (Except.ok.inj h1)
      rwa [show step^[n] s0 = t from h3]
    · exact fun h => ⟨_, _, rfl, h⟩
  have hle : places next s0 (2 ^ N - 1) A ≤ 2 ^ N - 1 := by
    unfold places
    have h1 : Nat.card {n : Nat // n < 2 ^ N - 1} = 2 ^ N - 1 := by
      rw [Nat.card_congr (Fin.equivSubtype (n := 2 ^ N - 1)).symm, Nat.card_eq_fintype_card, Fintype.card_fin]
    refine le_trans ?_ (le_of_eq h1)
    have : Finite {n : Nat // n < 2 ^ N - 1} := Finite.of_equiv _ (Fin.equivSubtype (n := 2 ^ N - 1))
    exact Nat.card_le_card_of_injective (fun n => (⟨n.1, n.2.1⟩ : {n : Nat // n < 2 ^ N - 1})) fun a b h =>
      Subtype.ext (congrArg (fun q : {n : Nat // n < 2 ^ N - 1} => q.1) h)
  obtain ⟨c, hc1, hc2⟩ := card_split_zero z A
  have h1 := seed_close (2 ^ N - 1) (places next s0 (2 ^ N - 1) A) c hc.pos hle hc1
  have hN : (((2 ^ N - 1 : ℕ) : ℝ) + 1) = 2 ^ N := by
    rw [Nat.cast_sub Nat.one_le_two_pow]
    push_cast
    ring
  rw [hN] at h1
  unfold shareOf
  rw [hx, hc2, ← e]
  exact h1

/-! ### Xoroshiro -/

namespace Xoroshiro

theorem seedShare_eq (L : Nat) (hL : 16 ≤ L) (h8 : 8 ∣ L) (g : Xoroshiro) (n : Nat) (A : Xoroshiro → Prop) :
    seedShare seedIV uint64 g L n A = (Nat.card {s // A s} : ℝ) / 2 ^ 128 := by
  obtain ⟨M, rfl⟩ : ∃ M, L = M + 16 := ⟨L - 16, by omega⟩
  rw [seedShare_pure uint64_pure (fun _ _ h => step_inj h) seedIV after after_eq M 16 card_state
    (fun u hu e e' => after_inj M (by omega) u hu e e') g n A]
  norm_num

end Xoroshiro

/-- C114: after `SeedIV` with 16, 24, 32, ... random bytes, and any number of calls, every state of Xoroshiro is equally likely. -/
theorem C114_Xoroshiro_state (L : Nat) (hL : 16 ≤ L) (h8 : 8 ∣ L) (g : Xoroshiro) (n : Nat) (h : Xoroshiro) :
    seedShare Xoroshiro.seedIV Xoroshiro.uint64 g L n (fun t => t = h) = 1 / 2 ^ 128 := by
  rw [Xoroshiro.seedShare_eq L hL h8, Nat.card_unique, Nat.cast_one]

/-- C114: so is every word, as any one output. -/
theorem C114_Xoroshiro_output (L : Nat) (hL : 16 ≤ L) (h8 : 8 ∣ L) (g : Xoroshiro) (n : Nat) (w : U64) :
    probBytes L (fun iv => ∃ s, g.seedIV iv = .ok s ∧ Emits Xoroshiro.uint64 s n [w]) = 1 / 2 ^ 64 := by
  have h := Xoroshiro.seedShare_eq L hL h8 g n fun t => t.out = w
  rw [Xoroshiro.card_out] at h
  have e : (fun iv => ∃ s, g.seedIV iv = .ok s ∧ Emits Xoroshiro.uint64 s n [w]) =
      fun iv => ∃ s t, g.seedIV iv = .ok s ∧ Leads Xoroshiro.uint64 n s t ∧ t.out = w := by
    funext iv
    simp only [emits_one Xoroshiro.uint64_pure, leads_pure Xoroshiro.uint64_pure]
    refine propext (exists_congr fun s => ?_)
    constructor
    · rintro ⟨h1, h2⟩
      exact ⟨_, h1, rfl, h2⟩
    · rintro ⟨t, h1, rfl, h2⟩
      exact ⟨h1, h2⟩
  rw [e]
  refine Eq.trans h ?_
  norm_num

/-- C114: `k` Xoroshiros seeded with random bytes and used for `n` outputs each overlap with probability at most `k^2 n / 2^128`. -/
theorem C114_Xoroshiro_overlap (L : Nat) (hL : 16 ≤ L) (h8 : 8 ∣ L) (g : Xoroshiro) (k n : Nat) :
    probSeedings k L (fun v => ∃ i j, i ≠ j ∧ ∃ s t, g.seedIV (v i) = .ok s ∧ g.seedIV (v j) = .ok t ∧ Meet Xoroshiro.uint64 n s t) ≤
      k ^ 2 * n / 2 ^ 128 := by
  obtain ⟨M, rfl⟩ : ∃ M, L = M + 16 := ⟨L - 16, by omega⟩
  have h := overlap_prob Xoroshiro.uint64_pure (fun _ _ h => Xoroshiro.step_inj h) Xoroshiro.after M 16 Xoroshiro.card_state
    (fun u hu e e' => Xoroshiro.after_inj M (by omega) u hu e e') k n
  rw [show (256 : ℝ) ^ 16 = 2 ^ 128 by norm_num] at h
  simpa only [Xoroshiro.after_eq, Except.ok.injEq, exists_and_left, exists_eq_left'] using h

/-- C114: a random iv is as good as a random place in the period: whatever is asked of the state (the results of any calls from there), the
probability after random seeding and `n` calls is its share in a period, up to `2^-128`. -/
theorem C114_Xoroshiro_place (L : Nat) (hL : 16 ≤ L) (h8 : 8 ∣ L) (g s0 : Xoroshiro) (h0 : s0 ≠ ⟨0#64, 0#64⟩) (n : Nat) (A : Xoroshiro → Prop) :
    |seedShare Xoroshiro.seedIV Xoroshiro.uint64 g L n A - shareOf Xoroshiro.uint64 s0 (2 ^ 128 - 1) A| ≤ 1 / 2 ^ 128 :=
  transfer Xoroshiro.uint64_pure Xoroshiro.cycle s0 h0 A _ (Xoroshiro.seedShare_eq L hL h8 g n A)

/-! ### Xoshiro -/

namespace Xoshiro

/-- The state after `SeedIV`. -/
noncomputable def after (iv : List Byte) : Xoshiro := (seedIV_total iv).choose

theorem after_eq (iv : List Byte) (g : Xoshiro) : g.seedIV iv = .ok (after iv) := (seedIV_total iv).choose_spec g

theorem card_state : Nat.card Xoshiro = 256 ^ 32 := by
  rw [Nat.card_congr equiv, card_words]
  norm_num

theorem after_inj (M : Nat) (hM : 32 ∣ M) (u : List Byte) (hu : u.length = M) (e e' : List Byte) (he : e.length = 32) (he' : e'.length = 32)
    (h : after (u ++ e) = after (u ++ e')) : e = e' := by
  by_contra hne
  have h1 := C52_Xoshiro_block u e e' [] (by rw [hu]; exact hM) (by rw [he, he']) (by omega) (fun _ => he) hne new new
  rw [List.append_nil, List.append_nil, after_eq, after_eq, h] at h1
  exact h1 rfl

theorem seedShare_eq (L : Nat) (hL : 0 < L) (h32 : 32 ∣ L) (g : Xoshiro) (n : Nat) (A : Xoshiro → Prop) :
    seedShare seedIV uint64 g L n A = (Nat.card {s // A s} : ℝ) / 2 ^ 256 := by
  obtain ⟨M, rfl⟩ : ∃ M, L = M + 32 := ⟨L - 32, by omega⟩
  rw [seedShare_pure uint64_pure (fun _ _ h => step_inj h) seedIV after after_eq M 32 card_state
    (fun u hu e e' => after_inj M (by omega) u hu e e') g n A]
  norm_num

end Xoshiro

/-- C114: after `SeedIV` with 32, 64, ... random bytes, and any number of calls, every state of Xoshiro is equally likely. -/
theorem C114_Xoshiro_state (L : Nat) (hL : 0 < L) (h32 : 32 ∣ L) (g : Xoshiro) (n : Nat) (h : Xoshiro) :
    seedShare Xoshiro.seedIV Xoshiro.uint64 g L n (fun t => t = h) = 1 / 2 ^ 256 := by
  rw [Xoshiro.seedShare_eq L hL h32, Nat.card_unique, Nat.cast_one]

/-- C114: so are all four words, as any four outputs in a row: these are independent and uniform. -/
theorem C114_Xoshiro_outputs (L : Nat) (hL : 0 < L) (h32 : 32 ∣ L) (g : Xoshiro) (n : Nat) (a b c d : U64) :
    probBytes L (fun iv => ∃ s, g.seedIV iv = .ok s ∧ Emits Xoshiro.uint64 s n [a, b, c, d]) = (1 / 2 ^ 64) ^ 4 := by
  have h := Xoshiro.seedShare_eq L hL h32 g n fun t => t.outs = (a, b, c, d)
  obtain ⟨t0, ht0⟩ := Xoshiro.outs_bij.2 (a, b, c, d)
  have hu : Nat.card {t : Xoshiro // t.outs = (a, b, c, d)} = 1 :=
    Nat.card_eq_one_iff_exists.mpr ⟨⟨t0, ht0⟩, fun t => Subtype.ext (Xoshiro.outs_inj (t.2.trans ht0.symm))⟩
  rw [hu] at h
  have e : (fun iv => ∃ s, g.seedIV iv = .ok s ∧ Emits Xoshiro.uint64 s n [a, b, c, d]) =
      fun iv => ∃ s t, g.seedIV iv = .ok s ∧ Leads Xoshiro.uint64 n s t ∧ t.outs = (a, b, c, d) := by
    funext iv
    simp only [Xoshiro.emits_four, leads_pure Xoshiro.uint64_pure]
    refine propext (exists_congr fun s => ?_)
    constructor
    · rintro ⟨h1, h2⟩
      exact ⟨_, h1, rfl, h2⟩
    · rintro ⟨t, h1, rfl, h2⟩
      exact ⟨h1, h2⟩
  rw [e]
  refine Eq.trans h ?_
  norm_num

theorem C114_Xoshiro_overlap (L : Nat) (hL : 0 < L) (h32 : 32 ∣ L) (g : Xoshiro) (k n : Nat) :
    probSeedings k L (fun v => ∃ i j, i ≠ j ∧ ∃ s t, g.seedIV (v i) = .ok s ∧ g.seedIV (v j) = .ok t ∧ Meet Xoshiro.uint64 n s t) ≤
      k ^ 2 * n / 2 ^ 256 := by
  obtain ⟨M, rfl⟩ : ∃ M, L = M + 32 := ⟨L - 32, by omega⟩
  have h := overlap_prob Xoshiro.uint64_pure (fun _ _ h => Xoshiro.step_inj h) Xoshiro.after M 32 Xoshiro.card_state
    (fun u hu e e' => Xoshiro.after_inj M (by omega) u hu e e') k n
  rw [show (256 : ℝ) ^ 32 = 2 ^ 256 by norm_num] at h
  simpa only [Xoshiro.after_eq, Except.ok.injEq, exists_and_left, exists_eq_left'] using h

theorem C114_Xoshiro_place (L : Nat) (hL : 0 < L) (h32 : 32 ∣ L) (g s0 : Xoshiro) (h0 : s0 ≠ ⟨0#64, 0#64, 0#64, 0#64⟩) (n : Nat)
    (A : Xoshiro → Prop) :
    |seedShare Xoshiro.seedIV Xoshiro.uint64 g L n A - shareOf Xoshiro.uint64 s0 (2 ^ 256 - 1) A| ≤ 1 / 2 ^ 256 :=
  transfer Xoshiro.uint64_pure Xoshiro.cycle s0 h0 A _ (Xoshiro.seedShare_eq L hL h32 g n A)

/-! ### Rexoroshiro -/

namespace Rexoroshiro

/-- A state is one of Xoroshiro. -/
def same : Rexoroshiro ≃ Xoroshiro where
  toFun g := g.xoro
  invFun g := ⟨g⟩
  left_inv _ := rfl
  right_inv _ := rfl

theorem prob_eq (g : Rexoroshiro) (iv : List Byte) : g.seedIV iv = .ok ⟨Xoroshiro.after iv⟩ := by
  show (do let x ← g.xoro.seedIV iv; return Rexoroshiro.mk x) = _
  rw [Xoroshiro.after_eq]
  rfl

instance : Finite Rexoroshiro := Finite.of_equiv _ same.symm

theorem step_mk_inj {s t : Rexoroshiro} (h : (⟨s.xoro.step⟩ : Rexoroshiro) = ⟨t.xoro.step⟩) : s = t := by
  obtain ⟨s⟩ := s
  obtain ⟨t⟩ := t
  exact congrArg Rexoroshiro.mk (Xoroshiro.step_inj (congrArg Rexoroshiro.xoro h))

theorem after_inj (M : Nat) (hM : 8 ∣ M) (u : List Byte) (hu : u.length = M) (e e' : List Byte) (he : e.length = 16) (he' : e'.length = 16)
    (h : (⟨Xoroshiro.after (u ++ e)⟩ : Rexoroshiro) = ⟨Xoroshiro.after (u ++ e')⟩) : e = e' :=
  Xoroshiro.after_inj M hM u hu e e' he he' (congrArg Rexoroshiro.xoro h)

theorem seedShare_eq (L : Nat) (hL : 16 ≤ L) (h8 : 8 ∣ L) (g : Rexoroshiro) (n : Nat) (A : Rexoroshiro → Prop) :
    seedShare seedIV uint64 g L n A = (Nat.card {s // A s} : ℝ) / 2 ^ 128 := by
  obtain ⟨M, rfl⟩ : ∃ M, L = M + 16 := ⟨L - 16, by omega⟩
  rw [seedShare_pure uint64_pure (fun _ _ h => step_mk_inj h) seedIV (fun iv => ⟨Xoroshiro.after iv⟩) (fun iv g => prob_eq g iv) M 16
    ((Nat.card_congr same).trans Xoroshiro.card_state) (fun u hu e e' => after_inj M (by omega) u hu e e') g n A]
  norm_num

end Rexoroshiro

/-- C114: the same for Rexoroshiro. -/
theorem C114_Rexoroshiro_state (L : Nat) (hL : 16 ≤ L) (h8 : 8 ∣ L) (g : Rexoroshiro) (n : Nat) (h : Rexoroshiro) :
    seedShare Rexoroshiro.seedIV Rexoroshiro.uint64 g L n (fun t => t = h) = 1 / 2 ^ 128 := by
  rw [Rexoroshiro.seedShare_eq L hL h8, Nat.card_unique, Nat.cast_one]

theorem C114_Rexoroshiro_output (L : Nat) (hL : 16 ≤ L) (h8 : 8 ∣ L) (g : Rexoroshiro) (n : Nat) (w : U64) :
    probBytes L (fun iv => ∃ s, g.seedIV iv = .ok s ∧ Emits Rexoroshiro.uint64 s n [w]) = 1 / 2 ^ 64 := by
  have h := C114_Xoroshiro_output L hL h8 g.xoro n (reverseBytes64 w)
  rw [← h]
  refine congrArg (probBytes L) (funext fun iv => propext ?_)
  simp only [Rexoroshiro.prob_eq, Xoroshiro.after_eq, Except.ok.injEq, exists_eq_left']
  rw [emits_one Rexoroshiro.uint64_pure, Rexoroshiro.iter, emits_one Xoroshiro.uint64_pure]
  constructor
  · intro h1
    rw [← h1, Rexoroshiro.reverse_reverse]
  · intro h1
    show reverseBytes64 _ = w
    rw [h1, Rexoroshiro.reverse_reverse]

theorem C114_Rexoroshiro_overlap (L : Nat) (hL : 16 ≤ L) (h8 : 8 ∣ L) (g : Rexoroshiro) (k n : Nat) :
    probSeedings k L (fun v => ∃ i j, i ≠ j ∧ ∃ s t, g.seedIV (v i) = .ok s ∧ g.seedIV (v j) = .ok t ∧ Meet Rexoroshiro.uint64 n s t) ≤
      k ^ 2 * n / 2 ^ 128 := by
  obtain ⟨M, rfl⟩ : ∃ M, L = M + 16 := ⟨L - 16, by omega⟩
  have h := overlap_prob Rexoroshiro.uint64_pure (fun _ _ h => Rexoroshiro.step_mk_inj h) (fun iv => (⟨Xoroshiro.after iv⟩ : Rexoroshiro)) M 16
    ((Nat.card_congr Rexoroshiro.same).trans Xoroshiro.card_state) (fun u hu e e' => Rexoroshiro.after_inj M (by omega) u hu e e') k n
  rw [show (256 : ℝ) ^ 16 = 2 ^ 128 by norm_num] at h
  simpa only [Rexoroshiro.prob_eq, Except.ok.injEq, exists_and_left, exists_eq_left'] using h

theorem Rexoroshiro.cycle : FullCycle (fun g : Rexoroshiro => (⟨g.xoro.step⟩ : Rexoroshiro)) ⟨⟨0#64, 0#64⟩⟩ (2 ^ 128 - 1) where
  finite := inferInstance
  pos := Xoroshiro.cycle.pos
  card := (Nat.card_congr Rexoroshiro.same).trans Xoroshiro.cycle.card
  nz s hs h := Xoroshiro.cycle.nz s.xoro (fun h1 => hs (by rw [← h1])) (congrArg Rexoroshiro.xoro h)
  period s hs n := by
    rw [Rexoroshiro.iter]
    obtain ⟨s⟩ := s
    rw [Rexoroshiro.mk.injEq]
    exact Xoroshiro.cycle.period s (fun h1 => hs (congrArg _ h1)) n

theorem C114_Rexoroshiro_place (L : Nat) (hL : 16 ≤ L) (h8 : 8 ∣ L) (g s0 : Rexoroshiro) (h0 : s0 ≠ ⟨⟨0#64, 0#64⟩⟩) (n : Nat)
    (A : Rexoroshiro → Prop) :
    |seedShare Rexoroshiro.seedIV Rexoroshiro.uint64 g L n A - shareOf Rexoroshiro.uint64 s0 (2 ^ 128 - 1) A| ≤ 1 / 2 ^ 128 :=
  transfer Rexoroshiro.uint64_pure Rexoroshiro.cycle s0 h0 A _ (Rexoroshiro.seedShare_eq L hL h8 g n A)

/-! ### What follows for the results of calls -/

theorem near_share {x y z ε δ : ℝ} (h1 : |x - y| ≤ δ) (h2 : |y - z| ≤ ε) : |x - z| ≤ ε + δ :=
  le_trans (abs_sub_le x y z) (by linarith)

/-- C114: after random seeding and any number of calls, exponential variates drawn from Xoshiro follow their distribution up to `2^-15 + 2^-256`. -/
theorem C114_Xoshiro_exponential (L : Nat) (hL : 0 < L) (h32 : 32 ∣ L) (g : Xoshiro) (n : Nat) (lib : MathLib) (hl : LogOk lib) (he : ExpOk lib)
    (fused : Bool) (rate : F64) (hr : PosRate rate) (h1 : 1 / 2 ^ 900 ≤ rv rate) (h2 : rv rate ≤ 2 ^ 900) (t : ℝ) (ht : 0 ≤ t) :
    |seedShare Xoshiro.seedIV Xoshiro.uint64 g L n (ReturnsSome (exponential lib fused rate Xoshiro.source) (AtMost t)) -
      (1 - Real.exp (-(rv rate * t)))| ≤ 1 / 2 ^ 15 + 1 / 2 ^ 256 :=
  near_share (C114_Xoshiro_place L hL h32 g ⟨1#64, 0#64, 0#64, 0#64⟩ (by decide) n _)
    (C111_exponential_Xoshiro _ (by decide) lib hl he fused rate hr h1 h2 t ht)

/-- C114: ..., normal ones up to `2^-12 + 2^-256` and the rounding of the mean. -/
theorem C114_Xoshiro_normal (L : Nat) (hL : 0 < L) (h32 : 32 ∣ L) (g : Xoshiro) (n : Nat) (lib : MathLib) (hl : LogOk lib) (he : ExpOk lib)
    (fused fused' : Bool) (mean stddev : F64) (hm : mean.IsFin) (hm' : |rv mean| ≤ 2 ^ 900) (hd : stddev.IsFin) (h1 : 1 / 2 ^ 900 ≤ rv stddev)
    (h2 : rv stddev ≤ 2 ^ 900) (t : ℝ) :
    |seedShare Xoshiro.seedIV Xoshiro.uint64 g L n (ReturnsSome (normal lib fused fused' mean stddev Xoshiro.source) (AtMost t)) -
      (ProbabilityTheory.gaussianReal (rv mean) ⟨rv stddev ^ 2, sq_nonneg _⟩).real (Set.Iic t)| ≤
        1 / 2 ^ 12 + |rv mean| / rv stddev / 2 ^ 53 + 1 / 2 ^ 256 :=
  near_share (C114_Xoshiro_place L hL h32 g ⟨1#64, 0#64, 0#64, 0#64⟩ (by decide) n _)
    (C111_normal_Xoshiro _ (by decide) lib hl he fused fused' mean stddev hm hm' hd h1 h2 t)

/-- C114: up to four random numbers below `max` are independent and uniform up to `m (max + 2) / 2^64 + 2^-256`. -/
theorem C114_Xoshiro_uintn (L : Nat) (hL : 0 < L) (h32 : 32 ∣ L) (g : Xoshiro) (n : Nat) (max : U64) (hm : max ≠ 0#64) (m : Nat) (h0 : 0 < m)
    (h4 : m ≤ 4) (S : List Nat → Prop) :
    |seedShare Xoshiro.seedIV Xoshiro.uint64 g L n
        (ReturnsSome (fun retries => draws (RNG.uintn Xoshiro.source retries max) m) fun js => S (js.map BitVec.toNat)) -
      uniformShare max.toNat m S| ≤ m * (max.toNat + 2) / 2 ^ 64 + 1 / 2 ^ 256 :=
  near_share (C114_Xoshiro_place L hL h32 g ⟨1#64, 0#64, 0#64, 0#64⟩ (by decide) n _)
    ((C112_Xoshiro ⟨1#64, 0#64, 0#64, 0#64⟩ (by decide)).uintn max hm m h0 h4 S)

/-! ### LFG and MT64: how often a stream comes again -/

theorem probSeedings_two (L N : Nat) (hN : N ≤ L) (R : List Byte → List Byte → Prop)
    (hR : ∀ a, a.length = L → Nat.card {b : List Byte // b.length = L ∧ R a b} = 256 ^ (L - N)) :
    probSeedings 2 L (fun v => R (v 0) (v 1)) = 1 / 256 ^ N := by
  classical
  have hfin := bytes_finite L
  have := Fintype.ofFinite {b : List Byte // b.length = L}
  have e : {v : Fin 2 → List Byte // (∀ i, (v i).length = L) ∧ R (v 0) (v 1)} ≃
      Σ a : {b : List Byte // b.length = L}, {b : List Byte // b.length = L ∧ R a.1 b} :=
    { toFun := fun v => ⟨⟨v.1 0, v.2.1 0⟩, ⟨v.1 1, v.2.1 1, v.2.2⟩⟩
      invFun := fun p => ⟨![p.1.1, p.2.1], fun i => by
        match i with
        | 0 => exact p.1.2
        | 1 => exact p.2.2.1, p.2.2.2⟩
      left_inv := fun v => by
        refine Subtype.ext (funext fun i => ?_)
        match i with
        | 0 => rfl
        | 1 => rfl
      right_inv := fun p => rfl }
  unfold probSeedings
  have hf : ∀ a : {b : List Byte // b.length = L}, Finite {b : List Byte // b.length = L ∧ R a.1 b} := fun a =>
    Finite.of_injective (fun b => (⟨b.1, b.2.1⟩ : {b : List Byte // b.length = L})) fun x y h =>
      Subtype.ext (congrArg (fun q : {b : List Byte // b.length = L} => q.1) h)
  have hc : Nat.card {v : Fin 2 → List Byte // (∀ i, (v i).length = L) ∧ R (v 0) (v 1)} = 256 ^ L * 256 ^ (L - N) := by
    rw [Nat.card_congr e, Nat.card_sigma, Finset.sum_congr rfl fun a _ => hR a.1 a.2, Finset.sum_const, smul_eq_mul, Finset.card_univ,
      ← Nat.card_eq_fintype_card, card_bytes]
  rw [hc, pow_two]
  push_cast
  rw [mul_div_mul_left _ _ (by positivity), div_eq_div_iff (by positivity) (by positivity), one_mul, ← pow_add]
  congr 1
  omega

/-- Two LFG seedings with ivs of one length give the same outputs exactly if the ivs agree at the positions 0, 273, 274, ... -/
theorem lfg_same (iv iv' : List Byte) (hl : iv.length = iv'.length) (h607 : iv.length ≤ 607) (g : LFG) :
    (∃ s t, g.seedIV iv = .ok s ∧ g.seedIV iv' = .ok t ∧ ShiftOf LFG.uint64 0 s t) ↔ ∀ i, LfgLive i → iv[i]? = iv'[i]? := by
  constructor
  · rintro ⟨s, t, hs, ht, h⟩ i hi
    by_contra hne
    obtain ⟨xs, ys, s', t', h1, h2, h3⟩ := C53_LFG_live iv iv' hl h607 i hi hne g g s t hs ht
    rw [LFG.seedIV_eq] at hs ht
    obtain rfl := Except.ok.inj hs
    obtain rfl := Except.ok.inj ht
    obtain ⟨n, -, x, y, h4, h5, h6⟩ := apart_of_draws (LFG.inv_nexts 4856 _ (LFG.inv_seedStart _)) (LFG.inv_nexts 4856 _ (LFG.inv_seedStart _)) h1 h2 h3
    have h7 := (h n y).mp h5
    rw [Nat.zero_add] at h7
    exact h6 (((LFG.emits_iff _ (LFG.inv_nexts 4856 _ (LFG.inv_seedStart _)) n x).mp h4).symm.trans
      ((LFG.emits_iff _ (LFG.inv_nexts 4856 _ (LFG.inv_seedStart _)) n y).mp h7))
  · intro h
    have h1 := C53_LFG_ignored iv iv' hl h g g
    refine ⟨_, _, LFG.seedIV_eq iv g, h1.symm.trans (LFG.seedIV_eq iv g), fun n x => ?_⟩
    rw [Nat.zero_add]

theorem agree_card (L : Nat) (h0 : 0 < L) (a : List Byte) (ha : a.length = L) (h607 : L ≤ 607) :
    Nat.card {b : List Byte // b.length = L ∧ ∀ i, LfgLive i → a[i]? = b[i]?} = 256 ^ min (L - 1) 272 := by
  rw [← card_bytes (min (L - 1) 272)]
  have hlen : ∀ m : List Byte, m.length = min (L - 1) 272 → (a.take 1 ++ (m ++ a.drop 273)).length = L := fun m hm => by
    rw [List.length_append, List.length_append, List.length_take, List.length_drop, hm]
    omega
  refine (Nat.card_congr (Equiv.ofBijective (fun m : {b : List Byte // b.length = min (L - 1) 272} =>
    (⟨a.take 1 ++ (m.1 ++ a.drop 273), hlen m.1 m.2, fun i hi => ?_⟩ : {b : List Byte // b.length = L ∧ ∀ i, LfgLive i → a[i]? = b[i]?})) ⟨?_, ?_⟩)).symm
  · have hm := m.2
    have ht : (a.take 1).length = 1 := by rw [List.length_take]; omega
    by_cases hiL : L ≤ i
    · rw [List.getElem?_eq_none (by omega), List.getElem?_eq_none (by rw [hlen m.1 m.2]; omega)]
    · by_cases hi0 : i = 0
      · subst hi0
        rw [List.getElem?_append_left (by omega), List.getElem?_take, if_pos (by omega)]
      · have h273 : 273 ≤ i := by unfold LfgLive at hi; omega
        rw [List.getElem?_append_right (by omega), ht, List.getElem?_append_right (by omega), List.getElem?_drop]
        congr 1
        omega
  · intro m m' h
    have h1 : a.take 1 ++ (m.1 ++ a.drop 273) = a.take 1 ++ (m'.1 ++ a.drop 273) := congrArg Subtype.val h
    exact Subtype.ext (List.append_cancel_right (List.append_cancel_left h1))
  · rintro ⟨b, hb, hab⟩
    refine ⟨⟨(b.drop 1).take 272, by rw [List.length_take, List.length_drop]; omega⟩, Subtype.ext ?_⟩
    show a.take 1 ++ ((b.drop 1).take 272 ++ a.drop 273) = b
    have e1 : a.take 1 = b.take 1 := by
      apply List.ext_getElem?
      intro i
      rw [List.getElem?_take, List.getElem?_take]
      split_ifs with hi
      · obtain rfl : i = 0 := by omega
        exact hab 0 (by unfold LfgLive; omega)
      · rfl
    have e2 : a.drop 273 = b.drop 273 := by
      apply List.ext_getElem?
      intro i
      rw [List.getElem?_drop, List.getElem?_drop]
      by_cases hi : 273 + i < L
      · exact hab _ (by unfold LfgLive; omega)
      · rw [List.getElem?_eq_none (by omega), List.getElem?_eq_none (by omega)]
    have e3 : b.drop 273 = (b.drop 1).drop 272 := by rw [List.drop_drop]
    rw [e1, e2, e3, List.take_append_drop, List.take_append_drop]

/-- C114, the warning: two LFGs seeded with `L` random bytes each give the same outputs for ever with probability 1/256, for every `L` up
to 273; beyond, up to 607 bytes, with probability `256^-(L-272)`. -/
theorem C114_LFG_repeat (L : Nat) (h0 : 0 < L) (h607 : L ≤ 607) (g : LFG) :
    probSeedings 2 L (fun v => ∃ s t, g.seedIV (v 0) = .ok s ∧ g.seedIV (v 1) = .ok t ∧ ShiftOf LFG.uint64 0 s t) = 1 / 256 ^ max 1 (L - 272) := by
  refine probSeedings_two L (max 1 (L - 272)) (by omega)
    (fun a b => ∃ s t, g.seedIV a = .ok s ∧ g.seedIV b = .ok t ∧ ShiftOf LFG.uint64 0 s t) fun a ha => ?_
  rw [show L - max 1 (L - 272) = min (L - 1) 272 by omega, ← agree_card L h0 a ha h607]
  refine congrArg Nat.card (congrArg Subtype (funext fun b => propext (and_congr_right fun hb => ?_)))
  exact lfg_same a b (by rw [ha, hb]) (by omega) g

/-- C114: of any 257 LFGs seeded with ivs of one length up to 273 bytes, two are in the same state. -/
theorem C114_LFG_pigeonhole (L : Nat) (h273 : L ≤ 273) (g : LFG) (v : Fin 257 → List Byte) (hv : ∀ i, (v i).length = L) :
    ∃ i j, i ≠ j ∧ g.seedIV (v i) = g.seedIV (v j) := by
  obtain ⟨i, j, hij, h⟩ := Fintype.exists_ne_map_eq_of_card_lt (fun i => ((v i).headD 0#8).toFin) (by
    rw [Fintype.card_fin, Fintype.card_fin]; decide)
  refine ⟨i, j, hij, C53_LFG_ignored _ _ (by rw [hv, hv]) (fun k hk => ?_) g g⟩
  by_cases hkL : L ≤ k
  · rw [List.getElem?_eq_none (by rw [hv]; omega), List.getElem?_eq_none (by rw [hv]; omega)]
  · obtain rfl : k = 0 := by unfold LfgLive at hk; omega
    have h1 : (v i).headD 0#8 = (v j).headD 0#8 := BitVec.eq_of_toFin_eq h
    have hi := hv i
    have hj := hv j
    revert h1 hi hj
    generalize v i = a
    generalize v j = b
    intro h1 hi hj
    match a, b with
    | [], _ => rw [List.length_nil] at hi; omega
    | _, [] => rw [List.length_nil] at hj; omega
    | x :: a, y :: b =>
      have h1 : x = y := h1
      rw [h1]
      rfl

/-- C114: two MT64s seeded with the same number of bytes, up to 312, have the same outputs only if the ivs are the same. -/
theorem C114_MT64_repeat (L : Nat) (h312 : L ≤ 312) (g : MT64) :
    probSeedings 2 L (fun v => ∃ s t, g.seedIV (v 0) = .ok s ∧ g.seedIV (v 1) = .ok t ∧ ShiftOf MT64.uint64 0 s t) = 1 / 256 ^ L := by
  refine probSeedings_two L L (le_refl L) (fun a b => ∃ s t, g.seedIV a = .ok s ∧ g.seedIV b = .ok t ∧ ShiftOf MT64.uint64 0 s t) fun a ha => ?_
  rw [Nat.sub_self, pow_zero]
  have hself : ∃ s t, g.seedIV a = .ok s ∧ g.seedIV a = .ok t ∧ ShiftOf MT64.uint64 0 s t := by
    obtain ⟨s, hs⟩ := MT64.seedIV_total a
    exact ⟨_, _, hs g, hs g, fun n x => by rw [Nat.zero_add]⟩
  refine Nat.card_eq_one_iff_exists.mpr ⟨⟨a, ha, hself⟩, fun b => Subtype.ext ?_⟩
  obtain ⟨b, hb, s, t, hs, ht, h⟩ := b
  by_contra hne
  have hne : b ≠ a := hne
  obtain ⟨s', t', hs', ht', n, -, x, y, h4, h5, h6⟩ := C113_MT64_SeedIV a b (by rw [ha, hb]) (by omega)
    (fun he => hne (List.append_inj_left he (by rw [ha, hb])).symm) g g
  obtain rfl := Except.ok.inj (hs.symm.trans hs')
  obtain rfl := Except.ok.inj (ht.symm.trans ht')
  have h7 := (h n y).mp h5
  rw [Nat.zero_add] at h7
  exact h6 (((MT64.emits_one _ n x).mp h4).symm.trans ((MT64.emits_one _ n y).mp h7))

/-! ### CryptoSeeded -/

/-- C114: `CryptoSeeded(g, L)` gives `SeedIV` the next `L` bytes of `crypto/rand`, no others, and leaves the rest. -/
theorem C114_CryptoSeeded {σ : Type} (seedIV : List Byte → σ → Go σ) (src : Source σ) (iv rest : List Byte) (hL : iv.length ≤ RNG.maxAlloc) (g s : σ)
    (h : seedIV iv g = .ok s) :
    cryptoSeeded (cryptoTape σ) (beside seedIV src) iv.length (iv ++ rest, g) = .ok (beside seedIV src, (rest, s)) := by
  have hr : (cryptoTape σ).read (List.replicate iv.length 0#8) (iv ++ rest, g) = .ok (⟨iv, iv.length, none⟩, (rest, g)) := by
    show (do let (r, t) ← byteTape.read (List.replicate iv.length 0#8) (iv ++ rest); return (r, (t, g))) = _
    rw [byteTape_reads (List.replicate iv.length 0#8) iv rest (by rw [List.length_replicate])]
    simp only [List.length_replicate]
    rfl
  refine (C34_cryptoSeeded (cryptoTape σ) (beside seedIV src) iv.length hL _ _ _ hr).2.1 _ ?_
  show (do let t ← seedIV iv g; return (rest, t)) = _
  rw [h]
  rfl

/-! ### Non-vacuity -/

/-- A million generators with `2^40` outputs each. -/
example (g : Xoroshiro) : probSeedings (2 ^ 20) 16 (fun v => ∃ i j, i ≠ j ∧ ∃ s t, g.seedIV (v i) = .ok s ∧ g.seedIV (v j) = .ok t ∧
    Meet Xoroshiro.uint64 (2 ^ 40) s t) ≤ 1 / 2 ^ 48 := by
  refine le_trans (C114_Xoroshiro_overlap 16 (by decide) (by decide) g _ _) (le_of_eq ?_)
  push_cast
  norm_num
example (s : Xoroshiro) : Meet Xoroshiro.uint64 1 s s := ⟨0, by decide, 0, by decide, s, ⟨[], rfl⟩, ⟨[], rfl⟩⟩

end Crazy
