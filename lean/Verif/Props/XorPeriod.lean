/-
C94: generators composed with XorCompose: their periods multiply and their values are even; two MT64s give only an MT64.
-/
import Verif.Spec.Pair
import Verif.Props.ApiPeriod
import Verif.Props.LfgExact
import Verif.Props.Recover
import Verif.Props.DeadState
import Mathlib.Data.Nat.ChineseRemainder
import Mathlib.Data.Nat.Prime.Basic
set_option exponentiation.threshold 2200
namespace Crazy

/-! ### The stream -/

theorem leNat_xor (a b : List Byte) (h : a.length = b.length) : leNat (List.zipWith (· ^^^ ·) a b) = leNat a ^^^ leNat b := by
  induction a generalizing b with
  | nil =>
    cases b with
    | nil => rfl
    | cons y b => simp at h
  | cons x a ih =>
    cases b with
    | nil => simp at h
    | cons y b =>
      rw [List.zipWith_cons_cons]
      show (x ^^^ y).toNat + 256 * leNat (List.zipWith (· ^^^ ·) a b) = (x.toNat + 256 * leNat a) ^^^ (y.toNat + 256 * leNat b)
      rw [ih b (by simpa using h)]
      generalize leNat a = m
      generalize leNat b = n
      refine Nat.eq_of_testBit_eq fun j => ?_
      have e : (256 : Nat) = 2 ^ 8 := rfl
      rw [BitVec.toNat_xor, Nat.testBit_xor, Nat.add_comm _ (256 * _), Nat.add_comm _ (256 * m), Nat.add_comm _ (256 * n), e,
        Nat.testBit_two_pow_mul_add _ x.isLt, Nat.testBit_two_pow_mul_add _ y.isLt,
        Nat.testBit_two_pow_mul_add _ (Nat.xor_lt_two_pow x.isLt y.isLt)]
      split <;> rw [Nat.testBit_xor]

section
variable {σ τ : Type}

/-- C94: `RNG{XorCompose{A, B}}.Uint64` calls `RNG{A}.Uint64` and `RNG{B}.Uint64`, whatever the sources are, and returns the XOR of
the results. -/
theorem C94_xor_uint64 (A : Source σ) (B : Source τ) (s s' : σ) (t t' : τ) (a b : U64) (ha : RNG.uint64 A s = .ok (a, s'))
    (hb : RNG.uint64 B t = .ok (b, t')) : RNG.uint64 (A.xor B) (s, t) = .ok (a ^^^ b, (s', t')) := by
  rw [RNG.uint64_eq] at ha hb ⊢
  cases h1 : A.read (zeros 8) s with
  | error e => rw [h1] at ha; contradiction
  | ok ra =>
    cases h2 : B.read (zeros 8) t with
    | error e => rw [h2] at hb; contradiction
    | ok rb =>
      rw [h1] at ha
      rw [h2] at hb
      simp only [Except.map, Except.ok.injEq, Prod.mk.injEq] at ha hb
      have l1 := A.len_buf _ _ _ _ (show A.read (zeros 8) s = .ok (ra.1, ra.2) from h1)
      have l2 := B.len_buf _ _ _ _ (show B.read (zeros 8) t = .ok (rb.1, rb.2) from h2)
      have e1 : (A.left (τ := τ)).read (zeros 8) (s, t) = .ok (ra.1, (ra.2, t)) := by
        simp only [Source.left, h1, Except.map]
      have e2 : (B.right (σ := σ)).read (zeros (zeros 8).length) (ra.2, t) = .ok (rb.1, (ra.2, rb.2)) := by
        rw [zeros_length]
        simp only [Source.right, h2, Except.map]
      have e3 : (A.xor B).read (zeros 8) (s, t) = _ := xorCompose_ok e1 e2
      rw [e3]
      simp only [Except.map]
      rw [leNat_xor _ _ (l1.trans l2.symm), BitVec.ofNat_xor, ha.1, hb.1, ha.2, hb.2]

theorem emits_nth (next : σ → Go (U64 × σ)) (s : σ) (n : Nat) (x : U64) : Emits next s n [x] ↔ Nth next n s x := by
  induction n generalizing s with
  | zero =>
    constructor
    · rintro ⟨t, t', ⟨xs, h1⟩, h2⟩
      rw [draws, Except.ok.injEq, Prod.mk.injEq] at h1
      rw [← h1.2, List.length_singleton, draws_one] at h2
      cases hn : next s with
      | error e => rw [hn] at h2; contradiction
      | ok r =>
        rw [hn] at h2
        simp only [bind, Except.bind, pure, Except.pure, Except.ok.injEq, Prod.mk.injEq, List.cons.injEq, and_true] at h2
        exact ⟨r.2, by rw [hn, ← h2.1]⟩
    · rintro ⟨t, h⟩
      refine ⟨s, t, ⟨[], rfl⟩, ?_⟩
      rw [List.length_singleton, draws_one, h]
      rfl
  | succ n ih =>
    constructor
    · rintro ⟨t, t', ⟨xs, h1⟩, h2⟩
      cases hn : next s with
      | error e =>
        simp only [draws, hn, bind, Except.bind] at h1
        contradiction
      | ok r =>
        refine ⟨r.1, r.2, hn, (ih r.2).mp ⟨t, t', ?_, h2⟩⟩
        simp only [draws, hn, bind, Except.bind, pure, Except.pure] at h1
        cases hd : draws next n r.2 with
        | error e => rw [hd] at h1; contradiction
        | ok q =>
          rw [hd] at h1
          simp only [Except.ok.injEq, Prod.mk.injEq] at h1
          exact ⟨q.1, by rw [← h1.2]; exact hd⟩
    · rintro ⟨w, u, h1, h2⟩
      obtain ⟨t, t', ⟨xs, h3⟩, h4⟩ := (ih u).mpr h2
      refine ⟨t, t', ⟨w :: xs, ?_⟩, h4⟩
      simp only [draws, h1, h3, bind, Except.bind, pure, Except.pure]

theorem nth_unique {α : Type} {call : σ → Go (α × σ)} {n : Nat} {s : σ} {v w : α} (h1 : Nth call n s v) (h2 : Nth call n s w) : v = w := by
  induction n generalizing s with
  | zero =>
    obtain ⟨t, h1⟩ := h1
    obtain ⟨u, h2⟩ := h2
    rw [h1, Except.ok.injEq, Prod.mk.injEq] at h2
    exact h2.1
  | succ n ih =>
    obtain ⟨x, t, h1, k1⟩ := h1
    obtain ⟨y, u, h2, k2⟩ := h2
    rw [h1, Except.ok.injEq, Prod.mk.injEq] at h2
    rw [← h2.2] at k2
    exact ih k1 k2

theorem nth_xor {A : Source σ} {B : Source τ} {n : Nat} {s : σ} {t : τ} {a b : U64} (ha : Nth (RNG.uint64 A) n s a)
    (hb : Nth (RNG.uint64 B) n t b) : Nth (RNG.uint64 (A.xor B)) n (s, t) (a ^^^ b) := by
  induction n generalizing s t with
  | zero =>
    obtain ⟨s', ha⟩ := ha
    obtain ⟨t', hb⟩ := hb
    exact ⟨_, C94_xor_uint64 A B s s' t t' a b ha hb⟩
  | succ n ih =>
    obtain ⟨x, s', ha, ka⟩ := ha
    obtain ⟨y, t', hb, kb⟩ := hb
    exact ⟨_, _, C94_xor_uint64 A B s s' t t' x y ha hb, ih ka kb⟩

/-- The sequence of the results of a run that never fails. -/
theorem NeverFails.seq {next : σ → Go (U64 × σ)} {s : σ} (h : NeverFails next s) :
    ∃ a : Nat → U64, (∀ n x, Nth next n s x ↔ a n = x) ∧ ∀ p, OutputPeriod next s p ↔ ∀ n, a (n + p) = a n := by
  obtain ⟨a, ha⟩ : ∃ a : Nat → U64, ∀ n, Emits next s n [a n] := ⟨fun n => (h n).choose, fun n => (h n).choose_spec⟩
  refine ⟨a, ?_⟩
  have h1 : ∀ n x, Nth next n s x ↔ a n = x := fun n x => by
    have := (emits_nth _ _ _ _).mp (ha n)
    exact ⟨fun k => nth_unique this k, fun k => k ▸ this⟩
  refine ⟨h1, fun p => ?_⟩
  unfold OutputPeriod
  simp only [emits_nth, h1]
  exact ⟨fun k n => ((k n _).mp rfl), fun k n x => by rw [k]⟩

theorem per_mul {α : Type} {a : Nat → α} {p : Nat} (h : ∀ n, a (n + p) = a n) (k n : Nat) : a (n + p * k) = a n := by
  induction k with
  | zero => rfl
  | succ k ih => rw [Nat.mul_succ, ← Nat.add_assoc, h, ih]

theorem xor_cancel {a b c d : U64} (h : a ^^^ b = c ^^^ d) (hb : b = d) : a = c := by
  subst hb
  rw [← BitVec.xor_zero (x := a), ← BitVec.xor_self (x := b), ← BitVec.xor_assoc, h, BitVec.xor_assoc, BitVec.xor_self, BitVec.xor_zero]

theorem xor_flip {a b w : U64} (h : a ^^^ b = w) : b = a ^^^ w := by
  rw [← h, ← BitVec.xor_assoc, BitVec.xor_self, BitVec.zero_xor]

/-- The periods of the XOR of two sequences whose periods have no factor in common. -/
theorem xor_period (a b : Nat → U64) (P Q : Nat) (hc : Nat.Coprime P Q) (ha : ∀ k, (∀ n, a (n + k) = a n) ↔ P ∣ k)
    (hb : ∀ k, (∀ n, b (n + k) = b n) ↔ Q ∣ k) (k : Nat) : (∀ n, a (n + k) ^^^ b (n + k) = a n ^^^ b n) ↔ P * Q ∣ k := by
  constructor
  · intro h
    have h1 := fun j n => per_mul (a := fun n => a n ^^^ b n) h j n
    refine hc.mul_dvd_of_dvd_of_dvd (hc.dvd_of_dvd_mul_right ((ha (k * Q)).mp fun n => ?_)) (hc.symm.dvd_of_dvd_mul_right ((hb (k * P)).mp fun n => ?_))
    · exact xor_cancel (h1 Q n) ((hb (k * Q)).mpr (Dvd.intro_left _ rfl) n)
    · have : a (n + k * P) ^^^ b (n + k * P) = a n ^^^ b n := h1 P n
      rw [BitVec.xor_comm, BitVec.xor_comm (a n)] at this
      exact xor_cancel this ((ha (k * P)).mpr (Dvd.intro_left _ rfl) n)
  · intro h n
    rw [(ha k).mpr ((Dvd.intro _ rfl).trans h), (hb k).mpr ((Dvd.intro_left _ rfl).trans h)]

/-- C94: if the results of `RNG{A}.Uint64` repeat after the multiples of `P` and those of `RNG{B}.Uint64` after the multiples of `Q`,
and `P` and `Q` have no factor in common, those of `RNG{XorCompose{A, B}}.Uint64` repeat exactly after the multiples of `P * Q`. -/
theorem C94_period (A : Source σ) (B : Source τ) (s : σ) (t : τ) (P Q : Nat) (hc : Nat.Coprime P Q)
    (fa : NeverFails (RNG.uint64 A) s) (fb : NeverFails (RNG.uint64 B) t) (ha : ∀ k, OutputPeriod (RNG.uint64 A) s k ↔ P ∣ k)
    (hb : ∀ k, OutputPeriod (RNG.uint64 B) t k ↔ Q ∣ k) (k : Nat) : OutputPeriod (RNG.uint64 (A.xor B)) (s, t) k ↔ P * Q ∣ k := by
  obtain ⟨a, a1, a2⟩ := fa.seq
  obtain ⟨b, b1, b2⟩ := fb.seq
  have hn : ∀ n x, Nth (RNG.uint64 (A.xor B)) n (s, t) x ↔ a n ^^^ b n = x := fun n x => by
    have := nth_xor ((a1 n _).mpr rfl) ((b1 n _).mpr rfl)
    exact ⟨fun k => nth_unique this k, fun k => k ▸ this⟩
  rw [← xor_period a b P Q hc (fun k => (a2 k).symm.trans (ha k)) (fun k => (b2 k).symm.trans (hb k)) k]
  unfold OutputPeriod
  simp only [emits_nth, hn]
  exact ⟨fun k n => ((k n _).mp rfl), fun k n x => by rw [k]⟩

/-! ### How often each value occurs -/

/-- The places in `P * Q` steps of two sequences. -/
theorem crt_bij (P Q : Nat) (hc : Nat.Coprime P Q) (hP : 0 < P) (hQ : 0 < Q) :
    Function.Bijective fun n : Fin (P * Q) => ((⟨n.1 % P, Nat.mod_lt _ hP⟩, ⟨n.1 % Q, Nat.mod_lt _ hQ⟩) : Fin P × Fin Q) := by
  rw [Fintype.bijective_iff_injective_and_card]
  refine ⟨fun m n h => ?_, by rw [Fintype.card_prod, Fintype.card_fin, Fintype.card_fin, Fintype.card_fin]⟩
  simp only [Prod.mk.injEq, Fin.mk.injEq] at h
  have := (Nat.modEq_and_modEq_iff_modEq_mul hc).mp h
  exact Fin.ext (Nat.ModEq.eq_of_lt_of_lt this m.2 n.2)

theorem xor_count (a b : Nat → U64) (P Q C D : Nat) (hc : Nat.Coprime P Q) (hP : 0 < P) (hQ : 0 < Q) (ha : ∀ n, a (n + P) = a n)
    (hb : ∀ n, b (n + Q) = b n) (hC : 0 < C) (hD : 0 < D)
    (ca : ∀ x, Nat.card {n : Nat // n < P ∧ a n = x} = if x = 0#64 then C - 1 else C)
    (cb : ∀ x, Nat.card {n : Nat // n < Q ∧ b n = x} = if x = 0#64 then D - 1 else D) (w : U64) :
    Nat.card {n : Nat // n < P * Q ∧ a n ^^^ b n = w} + C + D = 2 ^ 64 * (C * D) + if w = 0#64 then 1 else 0 := by
  classical
  have ma : ∀ n, a (n % P) = a n := fun n => by
    have := per_mul ha (n / P) (n % P)
    rw [Nat.mod_add_div] at this
    exact this.symm
  have mb : ∀ n, b (n % Q) = b n := fun n => by
    have := per_mul hb (n / Q) (n % Q)
    rw [Nat.mod_add_div] at this
    exact this.symm
  have e1 : {n : Nat // n < P * Q ∧ a n ^^^ b n = w} ≃ {n : Fin (P * Q) // a n.1 ^^^ b n.1 = w} :=
    ⟨fun n => ⟨⟨n.1, n.2.1⟩, n.2.2⟩, fun n => ⟨n.1.1, n.1.2, n.2⟩, fun _ => rfl, fun _ => rfl⟩
  have e2 : {n : Fin (P * Q) // a n.1 ^^^ b n.1 = w} ≃ {q : Fin P × Fin Q // a q.1.1 ^^^ b q.2.1 = w} :=
    (Equiv.ofBijective _ (crt_bij P Q hc hP hQ)).subtypeEquiv fun n => by
      rw [Equiv.ofBijective_apply]
      simp only [ma, mb]
  have e3 : {q : Fin P × Fin Q // a q.1.1 ^^^ b q.2.1 = w} ≃
      (Σ x : U64, {n : Nat // n < P ∧ a n = x} × {n : Nat // n < Q ∧ b n = x ^^^ w}) :=
    ⟨fun q => ⟨a q.1.1.1, ⟨q.1.1.1, q.1.1.2, rfl⟩, ⟨q.1.2.1, q.1.2.2, xor_flip q.2⟩⟩,
      fun q => ⟨(⟨q.2.1.1, q.2.1.2.1⟩, ⟨q.2.2.1, q.2.2.2.1⟩), by
        show a q.2.1.1 ^^^ b q.2.2.1 = w
        rw [q.2.1.2.2, q.2.2.2.2, ← BitVec.xor_assoc, BitVec.xor_self, BitVec.zero_xor]⟩,
      fun _ => rfl, by
        rintro ⟨x, ⟨m, hm, rfl⟩, ⟨n, hn, h⟩⟩
        rfl⟩
  have hfa : ∀ x, Finite {n : Nat // n < P ∧ a n = x} := fun x => Set.Finite.subset (Set.finite_lt_nat P) fun n hn => hn.1
  have hfb : ∀ x, Finite {n : Nat // n < Q ∧ b n = x} := fun x => Set.Finite.subset (Set.finite_lt_nat Q) fun n hn => hn.1
  have : Fintype U64 := Fintype.ofFinite _
  have hU : Fintype.card U64 = 2 ^ 64 := by rw [← Nat.card_eq_fintype_card, card_U64]
  rw [Nat.card_congr ((e1.trans e2).trans e3), Nat.card_sigma]
  simp only [Nat.card_prod, ca, cb]
  have key : ∀ x : U64, (if x = 0#64 then C - 1 else C) * (if x ^^^ w = 0#64 then D - 1 else D) +
      (if x = 0#64 then D else 0) + (if x = w then C else 0) = C * D + if x = 0#64 then (if w = 0#64 then 1 else 0) else 0 := by
    intro x
    have hx : x ^^^ w = 0#64 ↔ x = w := BitVec.xor_eq_zero_iff
    obtain ⟨c, rfl⟩ : ∃ c, C = c + 1 := ⟨C - 1, by omega⟩
    obtain ⟨d, rfl⟩ : ∃ d, D = d + 1 := ⟨D - 1, by omega⟩
    simp only [hx, Nat.add_sub_cancel]
    by_cases h0 : x = 0#64
    · subst h0
      by_cases hw : (0#64 : U64) = w
      · subst hw
        simp only [if_true]; ring
      · have hw' : ¬ w = 0#64 := fun h => hw h.symm
        simp only [if_true, if_neg hw, if_neg hw']; ring
    · simp only [if_neg h0]
      by_cases hw : x = w
      · simp only [if_pos hw]; ring
      · simp only [if_neg hw, Nat.add_zero]
  have hs := Finset.sum_congr rfl (s₁ := (Finset.univ : Finset U64)) fun x _ => key x
  rw [Finset.sum_add_distrib, Finset.sum_add_distrib, Finset.sum_add_distrib, Finset.sum_ite_eq', Finset.sum_ite_eq', Finset.sum_ite_eq',
    if_pos (Finset.mem_univ _), if_pos (Finset.mem_univ _), if_pos (Finset.mem_univ _), Finset.sum_const, Finset.card_univ, hU, smul_eq_mul] at hs
  omega

/-- C94: if moreover every word but 0 comes `C` times in a period of `A`, and 0 once less, and likewise `D` times for `B`, then in a
period of the composition every word but 0 comes `2^64 C D - C - D` times, and 0 once more. -/
theorem C94_even (A : Source σ) (B : Source τ) (s : σ) (t : τ) (P Q C D : Nat) (hc : Nat.Coprime P Q) (hP : 0 < P) (hQ : 0 < Q)
    (fa : NeverFails (RNG.uint64 A) s) (fb : NeverFails (RNG.uint64 B) t) (pa : OutputPeriod (RNG.uint64 A) s P)
    (pb : OutputPeriod (RNG.uint64 B) t Q) (hC : 0 < C) (hD : 0 < D)
    (ca : ∀ v, timesReturned (RNG.uint64 A) s P (· = v) = if v = 0#64 then C - 1 else C)
    (cb : ∀ v, timesReturned (RNG.uint64 B) t Q (· = v) = if v = 0#64 then D - 1 else D) (w : U64) :
    timesReturned (RNG.uint64 (A.xor B)) (s, t) (P * Q) (· = w) + C + D = 2 ^ 64 * (C * D) + if w = 0#64 then 1 else 0 := by
  obtain ⟨a, a1, a2⟩ := fa.seq
  obtain ⟨b, b1, b2⟩ := fb.seq
  have hn : ∀ n x, Nth (RNG.uint64 (A.xor B)) n (s, t) x ↔ a n ^^^ b n = x := fun n x => by
    have := nth_xor ((a1 n _).mpr rfl) ((b1 n _).mpr rfl)
    exact ⟨fun k => nth_unique this k, fun k => k ▸ this⟩
  unfold timesReturned at ca cb ⊢
  simp only [a1, b1, hn, exists_eq_left'] at ca cb ⊢
  exact xor_count a b P Q C D hc hP hQ ((a2 P).mp pa) ((b2 Q).mp pb) hC hD ca cb w

/-! ### The bundled generators -/

theorem rng64_readGt (src : Source σ) (next : σ → Go (U64 × σ))
    (h : ∀ p s, src.read p s = (do let (q, g) ← readGt next p s; return (⟨q, p.length, none⟩, g))) : RNG.uint64 src = next := by
  funext s
  rw [RNG.uint64_eq, h, readGt_small _ 8 (by decide)]
  cases next s with
  | error e => rfl
  | ok r =>
    simp only [Except.map, bind, Except.bind, pure, Except.pure]
    rw [List.take_of_length_le (by rw [le64_length]), leNat_le64, BitVec.ofNat_toNat, BitVec.setWidth_eq]

theorem Xoshiro.rng64 : RNG.uint64 Xoshiro.source = Xoshiro.uint64 := rng64_readGt _ _ fun _ _ => rfl
theorem Rexoroshiro.rng64 : RNG.uint64 Rexoroshiro.source = Rexoroshiro.uint64 := rng64_readGt _ _ fun _ _ => rfl
theorem MT64.rng64 : RNG.uint64 MT64.source = MT64.uint64 := rng64_readGt _ _ fun _ _ => rfl
theorem LFG.rng64 : RNG.uint64 LFG.source = LFG.uint64 := rng64_readGt _ _ fun _ _ => rfl

theorem Xoroshiro.rng64 (s : Xoroshiro) : RNG.uint64 Xoroshiro.source s = .ok (s.out, s.step.step) := by
  rw [RNG.uint64_eq, Xoroshiro.readsOut8 s]
  simp only [Except.map]
  rw [List.take_of_length_le (by rw [le64_length]), leNat_le64, BitVec.ofNat_toNat, BitVec.setWidth_eq]

end

theorem neverFails_pure {σ : Type} {next : σ → Go (U64 × σ)} {out : σ → U64} {step : σ → σ} (h : ∀ s, next s = .ok (out s, step s)) (s : σ) :
    NeverFails next s := fun n => ⟨_, (emits_one h s n _).mpr rfl⟩

theorem coprime_mersenne (a b : Nat) (h : Nat.gcd a b = 1) : Nat.Coprime (2 ^ a - 1) (2 ^ b - 1) := by
  unfold Nat.Coprime
  rw [Nat.pow_sub_one_gcd_pow_sub_one, h, pow_one]


theorem Xoroshiro.rng_period (g : Xoroshiro) (hg : g ≠ ⟨0#64, 0#64⟩) (k : Nat) :
    OutputPeriod (RNG.uint64 Xoroshiro.source) g k ↔ 2 ^ 128 - 1 ∣ k := by
  rw [outputPeriod_pure Xoroshiro.rng64]
  have e : ∀ n, (fun s : Xoroshiro => s.step.step)^[n] g = Xoroshiro.step^[2 * n] g := fun n => by
    rw [Function.iterate_mul]
    rfl
  simp only [e]
  have hodd : (2 ^ 128 - 1) % 2 = 1 := by decide
  have per := (Xoroshiro.output_period g hg (2 ^ 128 - 1)).mpr (Nat.dvd_refl _)
  have out2 := Xoroshiro.output_period g hg (2 * k)
  have cop : Nat.Coprime (2 ^ 128 - 1) 2 := by decide
  generalize 2 ^ 128 - 1 = P at *
  rw [← cop.dvd_mul_left, ← out2]
  constructor
  · intro h m
    rcases Nat.even_or_odd' m with ⟨c, hc | hc⟩
    · rw [hc, ← Nat.mul_add]
      exact h c
    · obtain ⟨d, hd⟩ : ∃ d, m + P = 2 * d := ⟨(m + P) / 2, by omega⟩
      rw [← per m, ← per (m + 2 * k), show m + 2 * k + P = 2 * (d + k) by omega, hd]
      exact h d
  · intro h n
    rw [Nat.mul_add]
    exact h (2 * n)

theorem MT64.neverFails (g : MT64) : NeverFails (RNG.uint64 MT64.source) g := fun n => by
  rw [MT64.rng64]
  exact ⟨_, (MT64.emits_one g n _).mpr rfl⟩

theorem MT64.rng_period (g : MT64) (hg : g.Alive) (hi : g.Begun) (k : Nat) : OutputPeriod (RNG.uint64 MT64.source) g k ↔ 2 ^ 19937 - 1 ∣ k := by
  rw [MT64.rng64]
  exact C61_MT64_period g hg hi k

/-- C94: `RNG{XorCompose{Xoroshiro, MT64}}` has the product of the two periods. -/
theorem C94_Xoroshiro_MT64 (x : Xoroshiro) (hx : x ≠ ⟨0#64, 0#64⟩) (g : MT64) (hg : g.Alive) (hi : g.Begun) (k : Nat) :
    OutputPeriod (RNG.uint64 (Xoroshiro.source.xor MT64.source)) (x, g) k ↔ (2 ^ 128 - 1) * (2 ^ 19937 - 1) ∣ k :=
  C94_period _ _ x g _ _ (coprime_mersenne 128 19937 (by decide)) (neverFails_pure Xoroshiro.rng64 x) (MT64.neverFails g)
    (Xoroshiro.rng_period x hx) (MT64.rng_period g hg hi) k

/-- C94: the same with Rexoroshiro. -/
theorem C94_Rexoroshiro_MT64 (x : Rexoroshiro) (hx : x ≠ ⟨⟨0#64, 0#64⟩⟩) (g : MT64) (hg : g.Alive) (hi : g.Begun) (k : Nat) :
    OutputPeriod (RNG.uint64 (Rexoroshiro.source.xor MT64.source)) (x, g) k ↔ (2 ^ 128 - 1) * (2 ^ 19937 - 1) ∣ k :=
  C94_period _ _ x g _ _ (coprime_mersenne 128 19937 (by decide))
    (by rw [Rexoroshiro.rng64]; exact neverFails_pure Rexoroshiro.uint64_pure x) (MT64.neverFails g)
    (by rw [Rexoroshiro.rng64]; exact C48_Rexoroshiro_output_period x hx) (MT64.rng_period g hg hi) k

/-- C94: the same with Xoshiro. -/
theorem C94_Xoshiro_MT64 (x : Xoshiro) (hx : x ≠ ⟨0#64, 0#64, 0#64, 0#64⟩) (g : MT64) (hg : g.Alive) (hi : g.Begun) (k : Nat) :
    OutputPeriod (RNG.uint64 (Xoshiro.source.xor MT64.source)) (x, g) k ↔ (2 ^ 256 - 1) * (2 ^ 19937 - 1) ∣ k :=
  C94_period _ _ x g _ _ (coprime_mersenne 256 19937 (by decide))
    (by rw [Xoshiro.rng64]; exact neverFails_pure Xoshiro.uint64_pure x) (MT64.neverFails g)
    (by rw [Xoshiro.rng64]; exact C44_Xoshiro_output_period x hx) (MT64.rng_period g hg hi) k

theorem lfg_coprime : Nat.Coprime ((2 ^ 108 - 1) / 65 * (2 ^ 187 - 1) * 2 ^ 63) (2 ^ 19937 - 1) := by
  refine Nat.Coprime.mul_left (Nat.Coprime.mul_left ?_ ?_) ?_
  · exact Nat.Coprime.coprime_dvd_left (Nat.div_dvd_of_dvd (by decide)) (coprime_mersenne 108 19937 (by decide))
  · exact coprime_mersenne 187 19937 (by decide)
  · refine Nat.Coprime.pow_left 63 ?_
    have : ∀ n, Nat.Coprime 2 (2 ^ (n + 1) - 1) := fun n => by
      rw [Nat.coprime_two_left, Nat.odd_iff, Nat.pow_succ]
      have := Nat.two_pow_pos n
      omega
    generalize hm : 19937 = m
    obtain ⟨n, rfl⟩ : ∃ n, m = n + 1 := ⟨m - 1, by omega⟩
    exact this n

/-- C94: the same with an LFG seeded by an iv of at most 273 bytes. -/
theorem C94_LFG_MT64 (l s : LFG) (iv : List Byte) (hl : iv.length ≤ 273) (h : l.seedIV iv = .ok s) (g : MT64) (hg : g.Alive) (hi : g.Begun)
    (k : Nat) : OutputPeriod (RNG.uint64 (LFG.source.xor MT64.source)) (s, g) k ↔
      (2 ^ 108 - 1) / 65 * (2 ^ 187 - 1) * 2 ^ 63 * (2 ^ 19937 - 1) ∣ k := by
  refine C94_period _ _ s g _ _ lfg_coprime (fun n => ?_) (MT64.neverFails g) ?_ (MT64.rng_period g hg hi) k
  · rw [LFG.seedIV_eq] at h
    injection h with h
    rw [LFG.rng64]
    exact ⟨_, (LFG.emits_iff s (h ▸ LFG.inv_nexts _ _ (LFG.inv_seedStart iv)) n _).mpr rfl⟩
  · rw [LFG.rng64]
    exact C74_LFG_seeded l s iv hl h

theorem even_mersenne {σ τ : Type} (A : Source σ) (B : Source τ) (s : σ) (t : τ) (M N c d : Nat) (hM : M = 64 + c) (hN : N = 64 + d)
    (hc : Nat.gcd M N = 1) (fa : NeverFails (RNG.uint64 A) s) (fb : NeverFails (RNG.uint64 B) t)
    (pa : OutputPeriod (RNG.uint64 A) s (2 ^ M - 1)) (pb : OutputPeriod (RNG.uint64 B) t (2 ^ N - 1)) (ea : EvenOverPeriod A s M)
    (eb : EvenOverPeriod B t N) (w : U64) :
    timesReturned (RNG.uint64 (A.xor B)) (s, t) ((2 ^ M - 1) * (2 ^ N - 1)) (· = w) + 2 ^ c + 2 ^ d =
      2 ^ 64 * (2 ^ c * 2 ^ d) + if w = 0#64 then 1 else 0 := by
  have e1 := ea.uint64
  have e2 := eb.uint64
  rw [hM, Nat.add_sub_cancel_left] at e1
  rw [hN, Nat.add_sub_cancel_left] at e2
  rw [← hM] at e1
  rw [← hN] at e2
  exact C94_even A B s t _ _ _ _ (coprime_mersenne M N hc) (Nat.sub_pos_of_lt (Nat.one_lt_two_pow (by omega)))
    (Nat.sub_pos_of_lt (Nat.one_lt_two_pow (by omega))) fa fb pa pb (Nat.two_pow_pos _) (Nat.two_pow_pos _) e1 e2 w

/-- C94: over one period of `RNG{XorCompose{Xoroshiro, MT64}}` every non-zero word `w` comes `c` times and zero once more. -/
theorem C94_Xoroshiro_MT64_even (x : Xoroshiro) (hx : x ≠ ⟨0#64, 0#64⟩) (g : MT64) (hg : g.Alive) (hi : g.Begun) (w : U64) :
    timesReturned (RNG.uint64 (Xoroshiro.source.xor MT64.source)) (x, g) ((2 ^ 128 - 1) * (2 ^ 19937 - 1)) (· = w) + 2 ^ 64 + 2 ^ 19873 =
      2 ^ 64 * (2 ^ 64 * 2 ^ 19873) + if w = 0#64 then 1 else 0 :=
  even_mersenne _ _ x g 128 19937 64 19873 rfl rfl (by decide)
    (neverFails_pure Xoroshiro.rng64 x) (MT64.neverFails g)
    ((Xoroshiro.rng_period x hx _).mpr (Nat.dvd_refl _)) ((MT64.rng_period g hg hi _).mpr (Nat.dvd_refl _))
    (C80_Xoroshiro x hx) (C80_MT64 g hg hi) w

theorem C94_Rexoroshiro_MT64_even (x : Rexoroshiro) (hx : x ≠ ⟨⟨0#64, 0#64⟩⟩) (g : MT64) (hg : g.Alive) (hi : g.Begun) (w : U64) :
    timesReturned (RNG.uint64 (Rexoroshiro.source.xor MT64.source)) (x, g) ((2 ^ 128 - 1) * (2 ^ 19937 - 1)) (· = w) + 2 ^ 64 + 2 ^ 19873 =
      2 ^ 64 * (2 ^ 64 * 2 ^ 19873) + if w = 0#64 then 1 else 0 :=
  even_mersenne _ _ x g 128 19937 64 19873 rfl rfl (by decide)
    (by rw [Rexoroshiro.rng64]; exact neverFails_pure Rexoroshiro.uint64_pure x) (MT64.neverFails g)
    (by rw [Rexoroshiro.rng64]; exact (C48_Rexoroshiro_output_period x hx _).mpr (Nat.dvd_refl _))
    ((MT64.rng_period g hg hi _).mpr (Nat.dvd_refl _))
    (C80_Rexoroshiro x hx) (C80_MT64 g hg hi) w

theorem C94_Xoshiro_MT64_even (x : Xoshiro) (hx : x ≠ ⟨0#64, 0#64, 0#64, 0#64⟩) (g : MT64) (hg : g.Alive) (hi : g.Begun) (w : U64) :
    timesReturned (RNG.uint64 (Xoshiro.source.xor MT64.source)) (x, g) ((2 ^ 256 - 1) * (2 ^ 19937 - 1)) (· = w) + 2 ^ 192 + 2 ^ 19873 =
      2 ^ 64 * (2 ^ 192 * 2 ^ 19873) + if w = 0#64 then 1 else 0 :=
  even_mersenne _ _ x g 256 19937 192 19873 rfl rfl (by decide)
    (by rw [Xoshiro.rng64]; exact neverFails_pure Xoshiro.uint64_pure x) (MT64.neverFails g)
    (by rw [Xoshiro.rng64]; exact (C44_Xoshiro_output_period x hx _).mpr (Nat.dvd_refl _))
    ((MT64.rng_period g hg hi _).mpr (Nat.dvd_refl _))
    (C80_Xoshiro x hx) (C80_MT64 g hg hi) w

/-! ### Two MT64s -/

namespace MT64

theorem xor4 (a b c d : U64) : (a ^^^ b) ^^^ (c ^^^ d) = (a ^^^ c) ^^^ (b ^^^ d) := by
  rw [BitVec.xor_assoc, BitVec.xor_assoc, ← BitVec.xor_assoc b, BitVec.xor_comm b c, BitVec.xor_assoc c]

theorem seq_xor (s t : Vector U64 312) (p q n : Nat) :
    seq (Vector.ofFn fun i : Fin 312 => seq s (p + i) ^^^ seq t (q + i)) n = seq s (p + n) ^^^ seq t (q + n) := by
  induction n using Nat.strongRecOn with
  | ind n ih =>
    by_cases h : n < 312
    · rw [seq_lt _ h, Vector.getElem_ofFn]
    · obtain ⟨m, rfl⟩ : ∃ m, n = m + 312 := ⟨n - 312, by omega⟩
      rw [seq_ge, ih (m + 156) (by omega), ih m (by omega), ih (m + 1) (by omega), twist_xor]
      simp only [← Nat.add_assoc]
      rw [seq_ge s, seq_ge t, xor4]

end MT64

theorem MT64.nth_xor (g h : MT64) (n : Nat) (x : U64) : Emits (RNG.uint64 (MT64.source.xor MT64.source)) (g, h) n [x] ↔
    MT64.temper (MT64.seq g.s (g.pos + n) ^^^ MT64.seq h.s (h.pos + n)) = x := by
  have e : ∀ (g : MT64), Nth (RNG.uint64 MT64.source) n g (MT64.temper (MT64.seq g.s (g.pos + n))) := fun g => by
    rw [← emits_nth, MT64.rng64]
    exact (MT64.emits_one g n _).mpr rfl
  have := Crazy.nth_xor (e g) (e h)
  rw [emits_nth, MT64.temper_xor]
  exact ⟨fun k => nth_unique this k, fun k => k ▸ this⟩

/-- C94: composing two MT64s brings nothing: `RNG{XorCompose{MT64, MT64}}` gives the stream of a single MT64 in another state. -/
theorem C94_MT64_MT64 (g h : MT64) : ∃ k : MT64, (g.Begun → h.Begun → k.Begun) ∧
    ∀ n x, Emits (RNG.uint64 (MT64.source.xor MT64.source)) (g, h) n [x] ↔ Emits MT64.uint64 k n [x] := by
  by_cases hb : g.Begun ∧ h.Begun
  · refine ⟨⟨1, Vector.ofFn fun i : Fin 312 => MT64.seq g.s (g.pos - 1 + i) ^^^ MT64.seq h.s (h.pos - 1 + i)⟩, fun _ _ => Nat.le_refl 1,
      fun n x => ?_⟩
    have h1 := MT64.pos_of_begun hb.1
    have h2 := MT64.pos_of_begun hb.2
    rw [MT64.nth_xor, MT64.emits_one]
    simp only [MT64.pos]
    rw [MT64.seq_xor]
    simp only [MT64.pos] at h1 h2
    rw [show min 1 312 = 1 from rfl, ← Nat.add_assoc, ← Nat.add_assoc, Nat.sub_add_cancel h1, Nat.sub_add_cancel h2]
  · refine ⟨⟨0, Vector.ofFn fun i : Fin 312 => MT64.seq g.s (g.pos + i) ^^^ MT64.seq h.s (h.pos + i)⟩, fun a b => absurd ⟨a, b⟩ hb,
      fun n x => ?_⟩
    rw [MT64.nth_xor, MT64.emits_one]
    simp only [MT64.pos]
    rw [MT64.seq_xor, show min 0 312 = 0 from rfl, Nat.zero_add]

/-- C94: so its results repeat after `2^19937 - 1` calls, like those of one MT64. -/
theorem C94_MT64_MT64_period (g h : MT64) (hg : g.Begun) (hh : h.Begun) :
    OutputPeriod (RNG.uint64 (MT64.source.xor MT64.source)) (g, h) (2 ^ 19937 - 1) := by
  have e : ∀ g : MT64, g.Begun → ∀ n, MT64.seq g.s (g.pos + n + (2 ^ 19937 - 1)) = MT64.seq g.s (g.pos + n) := fun g hg => by
    by_cases ha : g.Alive
    · exact (MT64.outputPeriod_iff g _).mp ((C61_MT64_period g ha hg _).mpr (Nat.dvd_refl _))
    · intro n
      have := fun m => (MT64.emits_zero_iff g m).mp (C61_MT64_dead g ha hg m)
      rw [this, Nat.add_assoc, this]
  intro n x
  rw [MT64.nth_xor, MT64.nth_xor, ← Nat.add_assoc, ← Nat.add_assoc, e g hg, e h hh]

/-! ### Examples -/

/-- Seeded generators meet the hypotheses. -/
example (a b : U64) (x : Xoroshiro) (g : MT64) : ∃ x' g', x.seed a = .ok x' ∧ g.seed b = .ok g' ∧
    ∀ k, OutputPeriod (RNG.uint64 (Xoroshiro.source.xor MT64.source)) (x', g') k ↔ (2 ^ 128 - 1) * (2 ^ 19937 - 1) ∣ k := by
  obtain ⟨x', h1, h2⟩ := C51_Xoroshiro_Seed_alive a x
  obtain ⟨g', h3, h4, h5⟩ := C61_MT64_Seed_alive b g
  exact ⟨x', g', h1, h3, C94_Xoroshiro_MT64 x' h2 g' h4 h5⟩

example (a b : U64) (l : LFG) (g : MT64) : ∃ l' g', l.seedIV (le64 a) = .ok l' ∧ g.seed b = .ok g' ∧
    ∀ k, OutputPeriod (RNG.uint64 (LFG.source.xor MT64.source)) (l', g') k ↔
      (2 ^ 108 - 1) / 65 * (2 ^ 187 - 1) * 2 ^ 63 * (2 ^ 19937 - 1) ∣ k := by
  obtain ⟨g', h3, h4, h5⟩ := C61_MT64_Seed_alive b g
  exact ⟨_, g', LFG.seedIV_eq _ l, h3, C94_LFG_MT64 l _ (le64 a) (by rw [le64_length]; decide) (LFG.seedIV_eq _ l) g' h4 h5⟩

end Crazy
