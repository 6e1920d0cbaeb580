/-
C106: tuples of results of the methods over a whole period of Xoshiro and MT64.
-/
import Verif.Spec.EvenTuples
import Verif.Props.ApiPeriod
import Verif.Props.Predict
import Mathlib.SetTheory.Cardinal.NatCard
set_option exponentiation.threshold 2200
namespace Crazy

theorem even_fibres {τ : Type} [Finite τ] (b : Nat → τ) (z : τ) (P C : Nat) (hC : 0 < C) [DecidableEq τ]
    (hc : ∀ v, Nat.card {n : Nat // n < P ∧ b n = v} = if v = z then C - 1 else C)
    (S : τ → Prop) [DecidablePred S] : Nat.card {n : Nat // n < P ∧ S (b n)} + (if S z then 1 else 0) = Nat.card {v // S v} * C := by
  have fin : ∀ v, Finite {n : Nat // n < P ∧ b n = v} := fun v => Set.Finite.subset (Set.finite_lt_nat P) fun n hn => hn.1
  have : Fintype τ := Fintype.ofFinite _
  have e : {n : Nat // n < P ∧ S (b n)} ≃ (Σ v : {v : τ // S v}, {n : Nat // n < P ∧ b n = v.1}) :=
    ⟨fun n => ⟨⟨b n.1, n.2.2⟩, ⟨n.1, n.2.1, rfl⟩⟩, fun x => ⟨x.2.1, x.2.2.1, by rw [x.2.2.2]; exact x.1.2⟩, fun _ => rfl, by
      rintro ⟨⟨v, hv⟩, ⟨n, hn, h⟩⟩
      obtain rfl : b n = v := h
      rfl⟩
  rw [Nat.card_congr e, Nat.card_sigma, Finset.sum_congr rfl fun v _ => hc v.1]
  have h1 : ∀ v : {v : τ // S v}, (if v.1 = z then C - 1 else C) + (if v.1 = z then 1 else 0) = C := fun v => by
    by_cases h : v.1 = z
    · simp only [if_pos h]; omega
    · simp only [if_neg h, Nat.add_zero]
  have h2 : (∑ v : {v : τ // S v}, if v.1 = z then 1 else 0) = if S z then 1 else 0 := by
    by_cases h : S z
    · rw [if_pos h, Finset.sum_eq_single ⟨z, h⟩ (fun v _ hv => if_neg fun h => hv (Subtype.ext h)) (fun h => absurd (Finset.mem_univ _) h), if_pos rfl]
    · rw [if_neg h]
      exact Finset.sum_eq_zero fun v _ => if_neg fun hv : v.1 = z => h (hv ▸ v.2)
  have hs := Finset.sum_congr rfl (s₁ := (Finset.univ : Finset {v : τ // S v})) fun v _ => h1 v
  rw [Finset.sum_add_distrib, h2, Finset.sum_const, Finset.card_univ, smul_eq_mul] at hs
  rw [hs, Nat.card_eq_fintype_card]

/-- How many tuples of words have the given low bits in the first `l` places. -/
theorem card_low_tuple (D l k : Nat) (hl : l ≤ D) (hk : k ≤ 64) (m : Nat → Nat) (hm : ∀ i, m i < 2 ^ k) :
    Nat.card {w : Fin D → U64 // ∀ i : Fin D, i.val < l → (w i).toNat % 2 ^ k = m i.val} = 2 ^ (64 * D - k * l) := by
  have e : {w : Fin D → U64 // ∀ i : Fin D, i.val < l → (w i).toNat % 2 ^ k = m i.val} ≃
      ((i : Fin D) → {w : U64 // i.val < l → w.toNat % 2 ^ k = m i.val}) :=
    Equiv.subtypePiEquivPi (p := fun (i : Fin D) (w : U64) => i.val < l → w.toNat % 2 ^ k = m i.val)
  rw [Nat.card_congr e, Nat.card_pi]
  have h1 : ∀ i : Fin D, Nat.card {w : U64 // i.val < l → w.toNat % 2 ^ k = m i.val} =
      (fun i => if i < l then 2 ^ (64 - k) else 2 ^ 64) i.val := fun i => by
    beta_reduce
    by_cases h : i.val < l
    · rw [if_pos h, ← card_low k (m i.val) hk (hm _)]
      exact Nat.card_congr (Equiv.subtypeEquivRight fun w => ⟨fun g => g h, fun g _ => g⟩)
    · rw [if_neg h, ← card_U64]
      exact Nat.card_congr (Equiv.subtypeUnivEquiv fun w h' => absurd h' h)
  rw [Finset.prod_congr rfl fun i _ => h1 i, Fin.prod_univ_eq_prod_range (fun i => if i < l then 2 ^ (64 - k) else 2 ^ 64) D]
  obtain ⟨r, rfl⟩ := Nat.exists_eq_add_of_le hl
  rw [Finset.prod_range_add, Finset.prod_congr rfl (g := fun _ => 2 ^ (64 - k)) fun i hi => if_pos (Finset.mem_range.1 hi),
    Finset.prod_congr rfl (s₁ := Finset.range r) (g := fun _ => 2 ^ 64) fun i _ => if_neg (by omega), Finset.prod_const, Finset.prod_const,
    Finset.card_range, Finset.card_range, ← pow_mul, ← pow_mul, ← pow_add]
  refine congrArg _ ?_
  rw [Nat.sub_mul, Nat.mul_add]
  have := Nat.mul_le_mul_right l hk
  omega

section
variable {σ : Type}

open Classical in
/-- Words whose tuples are even. -/
def EvenWordTuples (out : σ → U64) (step : σ → σ) (s : σ) (N D : Nat) : Prop :=
  ∀ w : Fin D → U64, Nat.card {n : Nat // n < 2 ^ N - 1 ∧ (fun i : Fin D => out (step^[n + i.val] s)) = w} =
    if w = fun _ => 0#64 then 2 ^ (N - 64 * D) - 1 else 2 ^ (N - 64 * D)

open Classical in
theorem EvenWordTuples.low {out : σ → U64} {step : σ → σ} {s : σ} {N D : Nat} (h : EvenWordTuples out step s N D) (hN : 64 * D ≤ N)
    (k l : Nat) (hk : k ≤ 64) (hl : l ≤ D) (m : Nat → Nat) (hm : ∀ i, m i < 2 ^ k) :
    Nat.card {n : Nat // n < 2 ^ N - 1 ∧ ∀ i < l, (out (step^[n + i] s)).toNat % 2 ^ k = m i} =
      if ∀ i < l, m i = 0 then 2 ^ (N - k * l) - 1 else 2 ^ (N - k * l) := by
  have h1 := even_fibres (fun n => fun i : Fin D => out (step^[n + i.val] s)) (fun _ => 0#64) (2 ^ N - 1) (2 ^ (N - 64 * D)) (Nat.two_pow_pos _) h
    (fun w => ∀ i : Fin D, i.val < l → (w i).toNat % 2 ^ k = m i.val)
  have hkl : k * l ≤ 64 * D := Nat.mul_le_mul hk hl
  rw [card_low_tuple D l k hl hk m hm, ← pow_add, show 64 * D - k * l + (N - 64 * D) = N - k * l by omega] at h1
  have e1 : Nat.card {n : Nat // n < 2 ^ N - 1 ∧ ∀ i < l, (out (step^[n + i] s)).toNat % 2 ^ k = m i} =
      Nat.card {n : Nat // n < 2 ^ N - 1 ∧ ∀ i : Fin D, i.val < l → (out (step^[n + i.val] s)).toNat % 2 ^ k = m i.val} :=
    Nat.card_congr (Equiv.subtypeEquivRight fun n => and_congr_right fun _ =>
      ⟨fun g i hi => g i.val hi, fun g i hi => g ⟨i, by omega⟩ hi⟩)
  have e2 : (∀ i : Fin D, i.val < l → ((0#64 : U64)).toNat % 2 ^ k = m i.val) ↔ ∀ i < l, m i = 0 := by
    simp only [BitVec.toNat_ofNat, Nat.zero_mod]
    exact ⟨fun g i hi => (g ⟨i, by omega⟩ hi).symm, fun g i hi => (g i.val hi).symm⟩
  rw [e1]
  simp only [e2] at h1
  have := Nat.two_pow_pos (N - k * l)
  split
  · rename_i h0
    rw [if_pos h0] at h1
    omega
  · rename_i h0
    rw [if_neg h0] at h1
    omega

theorem emits_ofFn {out : σ → U64} {step : σ → σ} {call : σ → Go (U64 × σ)} (h : ∀ s, call s = .ok (out s, step s)) (s : σ) (n D : Nat)
    (w : Fin D → U64) : Emits call s n (List.ofFn w) ↔ (fun i : Fin D => out (step^[n + i.val] s)) = w := by
  rw [emits_pure h, List.length_ofFn]
  have e : (List.range D).map (fun k => out (step^[k] (step^[n] s))) = List.ofFn fun i : Fin D => out (step^[n + i.val] s) := by
    refine List.ext_getElem (by simp) fun i h1 h2 => ?_
    simp only [List.getElem_map, List.getElem_range, List.getElem_ofFn, ← Function.iterate_add_apply]
    rw [Nat.add_comm]
  rw [e, List.ofFn_inj]

theorem inRow_pure {α : Type} {call : σ → Go (α × σ)} {val : σ → α} {step : σ → σ} (h : ∀ s, call s = .ok (val s, step s))
    (s : σ) (P l : Nat) (A : Nat → α → Prop) :
    timesInRow call s P l A = Nat.card {n : Nat // n < P ∧ ∀ i < l, A i (val (step^[n + i] s))} := by
  unfold timesInRow
  simp only [nth_pure h, exists_eq_left']

theorem evenTuples_of (src : Source σ) (s : σ) (N D : Nat) (hN : 64 * D ≤ N) (out : σ → U64) (step : σ → σ)
    (hr : ∀ k ≤ 8, ReadsOut src out step k) (ev : EvenWordTuples out step s N D) : EvenTuples src s N D := by
  classical
  have le : ∀ (x : U64) k, k ≤ 8 → leNat ((le64 x).take k) = x.toNat % 2 ^ (8 * k) := fun x k hk => by
    rw [leNat_take_le64 _ _ hk, Nat.pow_mul]
  have c64 : ∀ s, RNG.uint64 src s = .ok (out s, step s) := fun s => by
    rw [RNG.uint64_eq, hr 8 (by decide) s]
    simp only [Except.map]
    rw [le _ 8 (by decide), Nat.mod_eq_of_lt (out s).isLt, BitVec.ofNat_toNat, BitVec.setWidth_eq]
  have c32 : ∀ s, RNG.uint32 src s = .ok (BitVec.ofNat 32 ((out s).toNat % 2 ^ 32), step s) := fun s => by
    rw [RNG.uint32_eq, hr 4 (by decide) s]
    simp only [Except.map]
    rw [le _ 4 (by decide)]
  have c16 : ∀ s, RNG.uint16 src s = .ok (BitVec.ofNat 16 ((out s).toNat % 2 ^ 16), step s) := fun s => by
    rw [RNG.uint16_eq, hr 2 (by decide) s]
    simp only [Except.map]
    rw [le _ 2 (by decide)]
  have c12 : ∀ s, uniform12 src s = .ok (.fin false ((2 ^ 52 + (out s).toNat % 2 ^ 52) * 2 ^ 1022), step s) := fun s => by
    rw [uniform12_eq src s _ _ (hr 7 (by decide) s), le _ 7 (by decide), Nat.mod_mod_of_dvd _ (pow_dvd_pow 2 (by decide))]
  have c01 : ∀ s, uniform01 src s = .ok (.fin false ((out s).toNat % 2 ^ 53 * 2 ^ 1021), step s) := fun s => by
    rw [uniform01_eq src s _ _ (hr 8 (by decide) s), le _ 8 (by decide), Nat.mod_eq_of_lt (b := 2 ^ (8 * 8)) (out s).isLt]
  refine ⟨fun l hl v => ?_, fun l hl v => ?_, fun l hl v => ?_, fun l hl m hm => ?_, fun l hl m hm => ?_⟩
  · rw [inRow_pure c64]
    have e : ∀ (x : U64) i, (x = v i) ↔ x.toNat % 2 ^ 64 = (v i).toNat := fun x i => by
      rw [Nat.mod_eq_of_lt x.isLt, BitVec.toNat_inj]
    simp only [e]
    rw [ev.low hN 64 l (by decide) hl (fun i => (v i).toNat) fun i => (v i).isLt]
    exact if_congr (forall₂_congr fun i _ => by rw [← BitVec.toNat_inj]; rfl) rfl rfl
  · rw [inRow_pure c32]
    have e : ∀ (x : U64) i, (BitVec.ofNat 32 (x.toNat % 2 ^ 32) = v i) ↔ x.toNat % 2 ^ 32 = (v i).toNat := fun x i => by
      rw [← BitVec.toNat_inj, BitVec.toNat_ofNat, Nat.mod_mod]
    simp only [e]
    rw [ev.low hN 32 l (by decide) hl (fun i => (v i).toNat) fun i => (v i).isLt]
    exact if_congr (forall₂_congr fun i _ => by rw [← BitVec.toNat_inj]; rfl) rfl rfl
  · rw [inRow_pure c16]
    have e : ∀ (x : U64) i, (BitVec.ofNat 16 (x.toNat % 2 ^ 16) = v i) ↔ x.toNat % 2 ^ 16 = (v i).toNat := fun x i => by
      rw [← BitVec.toNat_inj, BitVec.toNat_ofNat, Nat.mod_mod]
    simp only [e]
    rw [ev.low hN 16 l (by decide) hl (fun i => (v i).toNat) fun i => (v i).isLt]
    exact if_congr (forall₂_congr fun i _ => by rw [← BitVec.toNat_inj]; rfl) rfl rfl
  · rw [inRow_pure c12]
    have e : ∀ (x : U64) i, ((F64.fin false ((2 ^ 52 + x.toNat % 2 ^ 52) * 2 ^ 1022)).IsFin ∧
        (F64.fin false ((2 ^ 52 + x.toNat % 2 ^ 52) * 2 ^ 1022)).val = 1 + (m i : ℚ) / 2 ^ 52) ↔ x.toNat % 2 ^ 52 = m i := fun x i => by
      rw [val_scaled _ 1022 52 rfl, Nat.cast_add, add_div, Nat.cast_pow, Nat.cast_ofNat, div_self (by positivity), add_right_inj,
        div_left_inj' (by positivity), Nat.cast_inj]
      exact ⟨fun h => h.2, fun h => ⟨trivial, h⟩⟩
    simp only [e]
    exact ev.low hN 52 l (by decide) hl m hm
  · rw [inRow_pure c01]
    have e : ∀ (x : U64) i, ((F64.fin false (x.toNat % 2 ^ 53 * 2 ^ 1021)).IsFin ∧
        (F64.fin false (x.toNat % 2 ^ 53 * 2 ^ 1021)).val = (m i : ℚ) / 2 ^ 53) ↔ x.toNat % 2 ^ 53 = m i := fun x i => by
      rw [val_scaled _ 1021 53 rfl, div_left_inj' (by positivity), Nat.cast_inj]
      exact ⟨fun h => h.2, fun h => ⟨trivial, h⟩⟩
    simp only [e]
    exact ev.low hN 53 l (by decide) hl m hm

end

namespace Xoshiro

theorem evenWordTuples (g : Xoshiro) (hg : g ≠ ⟨0#64, 0#64, 0#64, 0#64⟩) : EvenWordTuples out step g 256 4 := fun w => by
  classical
  have e : ∀ n, ((fun i : Fin 4 => out (step^[n + i.val] g)) = w) ↔ (step^[n] g).outs = (w 0, w 1, w 2, w 3) := fun n => by
    rw [← emits_four, emits_pure uint64_pure]
    simp [List.range_succ, funext_iff, Fin.forall_fin_succ, ← Function.iterate_add_apply, Nat.add_comm n]
  simp only [e]
  obtain ⟨t, ht⟩ := outs_bij.2 (w 0, w 1, w 2, w 3)
  simp only [← ht, outs_inj.eq_iff]
  have hz : (w = fun _ => 0#64) ↔ t = ⟨0#64, 0#64, 0#64, 0#64⟩ := by
    rw [← outs_inj.eq_iff, outs_zero, ht]
    simp [funext_iff, Fin.forall_fin_succ, Prod.ext_iff]
  rw [cycle.card_visits hg (fun s => s = t)]
  simp only [hz]
  split
  · rename_i h
    subst h
    have : IsEmpty {s : Xoshiro // s ≠ ⟨0#64, 0#64, 0#64, 0#64⟩ ∧ s = ⟨0#64, 0#64, 0#64, 0#64⟩} := ⟨fun s => s.2.1 s.2.2⟩
    rw [Nat.card_of_isEmpty]
    decide
  · rename_i h
    have : Unique {s : Xoshiro // s ≠ ⟨0#64, 0#64, 0#64, 0#64⟩ ∧ s = t} := ⟨⟨⟨t, h, rfl⟩⟩, fun s => Subtype.ext s.2.2⟩
    rw [Nat.card_unique]
    decide

end Xoshiro

namespace MT64

theorem evenWordTuples (g : MT64) (hg : g.Alive) (hi : g.Begun) : EvenWordTuples (fun g => temper (seq g.s g.pos)) next g 19937 311 := fun w => by
  classical
  have h := count g hg hi (List.ofFn w) (List.length_ofFn)
  have e : ∀ n, ((fun i : Fin 311 => temper (seq (next^[n + i.val] g).s (next^[n + i.val] g).pos)) = w) ↔ Emits uint64 g n (List.ofFn w) := fun n => by
    rw [emits_ofFn uint64_eq]
  simp only [e]
  rw [h]
  have hz : (List.ofFn w = List.replicate 311 0#64) ↔ w = fun _ => 0#64 := by
    rw [← List.ofFn_const, List.ofFn_inj]
  simp only [hz]

end MT64

/-- C106: in a period of Xoshiro every tuple of up to four successive results of a method comes equally often, but the one of zeros once less. -/
theorem C106_Xoshiro (g : Xoshiro) (hg : g ≠ ⟨0#64, 0#64, 0#64, 0#64⟩) : EvenTuples Xoshiro.source g 256 4 :=
  evenTuples_of _ _ _ _ (by decide) _ _ Xoshiro.readsOut (Xoshiro.evenWordTuples g hg)

/-- C106: in a period of MT64 likewise every tuple of up to 311. -/
theorem C106_MT64 (g : MT64) (hg : g.Alive) (hi : g.Begun) : EvenTuples MT64.source g 19937 311 :=
  evenTuples_of _ _ _ _ (by decide) _ _ MT64.readsOut (MT64.evenWordTuples g hg hi)

/-! ### Xoroshiro -/

/-- A state of 128 bits that is not determined by two words misses some pair of them. -/
theorem pair_missed {σ : Type} (e : σ ≃ U64 × U64) (f : σ → U64 × U64) (s t : σ) (hst : s ≠ t) (hf : f s = f t) : ∃ p, ∀ g, f g ≠ p := by
  have fin : Finite σ := Finite.of_equiv _ e.symm
  by_contra h
  push Not at h
  have : Function.Surjective (fun p => f (e.symm p)) := fun p => by
    obtain ⟨g, hg⟩ := h p
    exact ⟨e g, (congrArg f (e.symm_apply_apply g)).trans hg⟩
  have h1 := Finite.injective_iff_surjective.2 this (a₁ := e s) (a₂ := e t) (by simp only [e.symm_apply_apply]; exact hf)
  exact hst (e.injective h1)

def xoroPair : Xoroshiro ≃ U64 × U64 := ⟨fun g => (g.s0, g.s1), fun p => ⟨p.1, p.2⟩, fun _ => rfl, fun _ => rfl⟩

/-- C106: Xoroshiro is not even in pairs: some pair of words never comes as two successive results of its `Uint64`, from any state. -/
theorem C106_Xoroshiro_not : ∃ a b : U64, ∀ (g : Xoroshiro) n, ¬ Emits Xoroshiro.uint64 g n [a, b] := by
  obtain ⟨p, hp⟩ := pair_missed xoroPair (fun g => (g.out, g.step.out)) ⟨0x88de2858eb808473#64, 0x78451d0e9e2b497c#64⟩
    ⟨0x9b2a3a8b9c2084ed#64, 0x65f90adbed8b4902#64⟩ (by decide) (by decide +kernel)
  refine ⟨p.1, p.2, fun g n h => hp (Xoroshiro.step^[n] g) ?_⟩
  rw [emits_pure Xoroshiro.uint64_pure] at h
  simp [List.range_succ] at h
  exact Prod.ext h.1 h.2

/-- C106: nor, from any state, as two successive results of `Uint64` of an `RNG` over it (which skips every second output). -/
theorem C106_Xoroshiro_RNG_not : ∃ a b : U64, ∀ (g : Xoroshiro) n,
    ¬ (Nth (RNG.uint64 Xoroshiro.source) n g a ∧ Nth (RNG.uint64 Xoroshiro.source) (n + 1) g b) := by
  obtain ⟨p, hp⟩ := pair_missed xoroPair (fun g => (g.out, g.step.step.out)) ⟨0x906fbf0a872eda51#64, 0x6f9040f578d125b0#64⟩
    ⟨0xf52dc50412fbe11d#64, 0x0ad23afbed041ee4#64⟩ (by decide) (by decide +kernel)
  have c64 : ∀ s, RNG.uint64 Xoroshiro.source s = .ok (s.out, s.step.step) := fun s => by
    rw [RNG.uint64_eq, Xoroshiro.readsOut8 s]
    simp only [Except.map]
    rw [leNat_take_le64 _ 8 (by decide), Nat.mod_eq_of_lt (by exact s.out.isLt), BitVec.ofNat_toNat, BitVec.setWidth_eq]
  refine ⟨p.1, p.2, fun g n h => hp ((fun s => s.step.step)^[n] g) ?_⟩
  rw [nth_pure c64, nth_pure c64, Function.iterate_succ_apply'] at h
  exact Prod.ext h.1 h.2

/-- C106: Rexoroshiro, alone or in an `RNG`. -/
theorem C106_Rexoroshiro_not : ∃ a b : U64, ∀ (g : Rexoroshiro) n, ¬ Emits Rexoroshiro.uint64 g n [a, b] ∧
    ¬ (Nth (RNG.uint64 Rexoroshiro.source) n g a ∧ Nth (RNG.uint64 Rexoroshiro.source) (n + 1) g b) := by
  obtain ⟨p, hp⟩ := pair_missed (σ := Rexoroshiro) ⟨fun g => (g.xoro.s0, g.xoro.s1), fun p => ⟨⟨p.1, p.2⟩⟩, fun _ => rfl, fun _ => rfl⟩
    (fun g => (reverseBytes64 g.xoro.out, reverseBytes64 g.xoro.step.out)) ⟨⟨0x88de2858eb808473#64, 0x78451d0e9e2b497c#64⟩⟩
    ⟨⟨0x9b2a3a8b9c2084ed#64, 0x65f90adbed8b4902#64⟩⟩ (fun h => absurd (congrArg (fun g => g.xoro.s0) h) (by decide))
    (Prod.ext (congrArg reverseBytes64 (by decide +kernel)) (congrArg reverseBytes64 (by decide +kernel)))
  have c64 : ∀ s, RNG.uint64 Rexoroshiro.source s = .ok (reverseBytes64 s.xoro.out, ⟨s.xoro.step⟩) := fun s => by
    rw [RNG.uint64_eq, Rexoroshiro.readsOut 8 (by decide) s]
    simp only [Except.map]
    rw [leNat_take_le64 _ 8 (by decide), Nat.mod_eq_of_lt (by exact (reverseBytes64 s.xoro.out).isLt), BitVec.ofNat_toNat, BitVec.setWidth_eq]
  refine ⟨p.1, p.2, fun g n => ⟨fun h => hp ((fun s : Rexoroshiro => ⟨s.xoro.step⟩)^[n] g) ?_, fun h => hp ((fun s : Rexoroshiro => ⟨s.xoro.step⟩)^[n] g) ?_⟩⟩
  · rw [emits_pure Rexoroshiro.uint64_pure] at h
    simp [List.range_succ] at h
    exact Prod.ext h.1 h.2
  · rw [nth_pure c64, nth_pure c64, Function.iterate_succ_apply'] at h
    exact Prod.ext h.1 h.2

/-- C106: 311 successive numbers from `Uniform0_1` on a seeded MT64 take each combination of values exactly `2^3454` times in a period. -/
example (x : U64) (g : MT64) : ∃ s, g.seed x = .ok s ∧ timesInRow (uniform01 MT64.source) s (2 ^ 19937 - 1) 311
    (fun i x => x.IsFin ∧ x.val = ((i : Nat) : ℚ) / 2 ^ 53) = 2 ^ 3454 := by
  classical
  obtain ⟨s, h1, h2, h3⟩ := C61_MT64_Seed_alive x g
  refine ⟨s, h1, ?_⟩
  have h := (C106_MT64 s h2 h3).uniform0_1 311 (Nat.le_refl _) (fun i => i % 2 ^ 53) fun i => Nat.mod_lt _ (by decide)
  rw [if_neg fun h => absurd (h 1 (by decide)) (by decide)] at h
  rw [← show 19937 - 53 * 311 = 3454 by decide, ← h]
  unfold timesInRow
  refine Nat.card_congr (Equiv.subtypeEquivRight fun n => and_congr_right fun _ => forall₂_congr fun i hi => ?_)
  beta_reduce
  rw [Nat.mod_eq_of_lt (by omega : i < 2 ^ 53)]

end Crazy
