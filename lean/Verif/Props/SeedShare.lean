/-
C122: averaged over all seeds, what a seeded generator gives first is distributed as on ideal words.
-/
import Verif.Spec.SeedShare
import Verif.Props.PeriodCalls
import Verif.Props.RandomSeed
namespace Crazy
open ProbabilityTheory

section
variable {ι σ α : Type} [Finite ι]

theorem shareOfSeeds_mono (seed : ι → Go σ) {A B : σ → Prop} (h : ∀ t, A t → B t) : shareOfSeeds seed A ≤ shareOfSeeds seed B := by
  refine div_le_div_of_nonneg_right (Nat.cast_le.mpr ?_) (Nat.cast_nonneg _)
  exact Nat.card_le_card_of_injective (fun x => ⟨x.1, by obtain ⟨s, h1, h2⟩ := x.2; exact ⟨s, h1, h s h2⟩⟩)
    fun a b e => Subtype.ext (Subtype.mk.inj e)

theorem shareOfSeeds_disjoint (seed : ι → Go σ) {A B : σ → Prop} (h : ∀ t, A t → ¬ B t) : shareOfSeeds seed A + shareOfSeeds seed B ≤ 1 := by
  unfold shareOfSeeds
  rw [← add_div, ← Nat.cast_add, ← Nat.card_sum]
  refine div_le_one_of_le₀ (Nat.cast_le.mpr ?_) (Nat.cast_nonneg _)
  have key : ∀ (a : {x : ι // ∃ s, seed x = .ok s ∧ A s}) (b : {x : ι // ∃ s, seed x = .ok s ∧ B s}), a.1 ≠ b.1 := fun a b e => by
    obtain ⟨s, h1, h2⟩ := a.2
    obtain ⟨s', h3, h4⟩ := b.2
    rw [e, h3, Except.ok.injEq] at h1
    exact h s h2 (h1 ▸ h4)
  refine Nat.card_le_card_of_injective (Sum.elim (fun x => x.1) (fun x => x.1)) ?_
  rintro (a | a) (b | b) e
  · exact congrArg Sum.inl (Subtype.ext e)
  · exact absurd e (key a b)
  · exact absurd e.symm (key b a)
  · exact congrArg Sum.inr (Subtype.ext e)

omit [Finite ι] in
theorem shareOfSeeds_congr (seed : ι → Go σ) {A B : σ → Prop} (h : ∀ t, A t ↔ B t) : shareOfSeeds seed A = shareOfSeeds seed B := by
  have : A = B := funext fun t => propext (h t)
  rw [this]

/-- Each list of `l` words comes first after seeding with equally many seeds. -/
theorem words_of (seed : ι → Go σ) (src : Source σ) (l K : Nat) (hK : 0 < K) (w : ι → List U64)
    (hw : ∀ x, ∃ s s', seed x = .ok s ∧ draws (RNG.uint64 src) l s = .ok (w x, s'))
    (hfib : ∀ t : List U64, t.length = l → Nat.card {x // w x = t} = K) (m : Nat) (hm : m ≤ l)
    (S : List U64 → Prop) : shareOfSeeds seed (fun s => ∃ ws s', draws (RNG.uint64 src) m s = .ok (ws, s') ∧ S ws) = prob m S := by
  have hlen : ∀ x, (w x).length = l := fun x => by
    obtain ⟨s, s', -, h⟩ := hw x
    exact draws_length h
  have hfin : Finite {t : List U64 // t.length = l} := List.finite_length_eq U64 l
  have fib : ∀ P : List U64 → Prop, Nat.card {x // P (w x)} = K * Nat.card {t : List U64 // t.length = l ∧ P t} := fun P => by
    classical
    have hf : Finite {t : List U64 // t.length = l ∧ P t} := finite_tapes l P
    have := Fintype.ofFinite {t : List U64 // t.length = l ∧ P t}
    rw [← Nat.card_congr (Equiv.sigmaSubtypeFiberEquivSubtype w (p := fun x => P (w x)) (q := fun t => t.length = l ∧ P t) fun x =>
      ⟨fun h => ⟨hlen x, h⟩, fun h => h.2⟩), Nat.card_sigma, Finset.sum_congr rfl fun t _ => hfib t.1 t.2.1, Finset.sum_const, Finset.card_univ,
      smul_eq_mul, Nat.mul_comm, ← Nat.card_eq_fintype_card]
  have htot : Nat.card ι = K * Nat.card {t : List U64 // t.length = l} := by
    have := fib fun _ => True
    rw [Nat.card_congr (Equiv.subtypeUnivEquiv fun x => trivial)] at this
    rw [this]
    exact congrArg _ (Nat.card_congr (Equiv.subtypeEquivRight fun t => and_iff_left trivial))
  have e1 : prob m S = prob l (fun t => S (t.take m)) := by
    obtain ⟨k, rfl⟩ := Nat.exists_eq_add_of_le hm
    rw [prob_append m k _ fun w v hw => by rw [List.take_left' hw, List.take_of_length_le hw.le]]
    exact prob_congr fun w hw => by rw [List.take_of_length_le hw.le]
  rw [e1]
  unfold shareOfSeeds prob
  have e2 : ∀ x, (∃ s, seed x = .ok s ∧ ∃ ws s', draws (RNG.uint64 src) m s = .ok (ws, s') ∧ S ws) ↔ S ((w x).take m) := fun x => by
    obtain ⟨s, s', h1, h2⟩ := hw x
    obtain ⟨k, rfl⟩ := Nat.exists_eq_add_of_le hm
    rw [draws_add] at h2
    simp only [h1, Except.ok.injEq, exists_eq_left']
    cases h3 : draws (RNG.uint64 src) m s with
    | error e => rw [h3] at h2; cases h2
    | ok q =>
      obtain ⟨xs, s1⟩ := q
      rw [h3] at h2
      simp only [bind, Except.bind] at h2
      cases h4 : draws (RNG.uint64 src) k s1 with
      | error e => rw [h4] at h2; cases h2
      | ok r =>
        rw [h4] at h2
        simp only [pure, Except.pure, Except.ok.injEq, Prod.mk.injEq] at h2
        rw [← h2.1, List.take_left' (draws_length h3)]
        exact ⟨fun ⟨ws, t, h5, h6⟩ => by rw [Except.ok.injEq, Prod.mk.injEq] at h5; exact h5.1 ▸ h6, fun h => ⟨_, _, rfl, h⟩⟩
  rw [htot, (Nat.card_congr (Equiv.subtypeEquivRight e2)).trans (fib fun t => S (t.take m)), Nat.cast_mul, Nat.cast_mul]
  exact mul_div_mul_left _ _ (Nat.cast_ne_zero.mpr hK.ne')

omit [Finite ι] in
/-- When there are as many seeds as lists of words, it suffices that no two seeds give the same. -/
theorem fibre_one (w : ι → List U64) (l : Nat) (hlen : ∀ x, (w x).length = l) (hcard : Nat.card ι = (2 ^ 64) ^ l) (hinj : Function.Injective w)
    (t : List U64) (ht : t.length = l) : Nat.card {x // w x = t} = 1 := by
  have htot : Nat.card {t : List U64 // t.length = l} = (2 ^ 64) ^ l := by
    rw [← tapes_true l]
    unfold tapes
    exact Nat.card_congr (Equiv.subtypeEquivRight fun t => (and_iff_left trivial).symm)
  have hfin : Finite {t : List U64 // t.length = l} := List.finite_length_eq U64 l
  have hbij : Function.Bijective (fun x => (⟨w x, hlen x⟩ : {t : List U64 // t.length = l})) := by
    rw [Nat.bijective_iff_injective_and_card]
    exact ⟨fun x y e => hinj (Subtype.mk.inj e), by rw [hcard, htot]⟩
  obtain ⟨x, hx⟩ := hbij.2 ⟨t, ht⟩
  have : Unique {x // w x = t} := ⟨⟨⟨x, Subtype.mk.inj hx⟩⟩, fun y => Subtype.ext (hinj (y.2.trans (Subtype.mk.inj hx).symm))⟩
  exact Nat.card_unique

/-- From a call on ideal words to the seeds. -/
theorem seeds_close {seed : ι → Go σ} {src : Source σ} {l f : Nat}
    (hwords : ∀ S : List U64 → Prop, shareOfSeeds seed (fun s => ∃ ws s', draws (RNG.uint64 src) l s = .ok (ws, s') ∧ S ws) = prob l S)
    (c : Nat → List U64 → Go (α × List U64)) (d : Nat → σ → Go (α × σ)) (hsim : ∀ n s', SimR (Ahead src s') (c n) (d n))
    (hd : ∀ n n', n ≤ n' → SimR Eq (d n) (d n')) (hc : ∀ n n', n ≤ n' → SimR Eq (c n) (c n')) (L : Nat → Nat) (hL : ∀ n ≥ f + l, l ≤ L n)
    (hr : ∀ n, Reads (L n) (c n)) (S : α → Prop) (Φ η ε q C : ℝ) (hq0 : 0 ≤ q) (hq1 : q < 1) (hC : 0 ≤ C)
    (hlim : ∀ n, |prob (L n) (fun w => ∃ r rest, c n w = .ok (r, rest) ∧ S r) - Φ| ≤ η + C * q ^ n)
    (hε : 1 - ε ≤ prob l (fun w => ∃ r rest, c f w = .ok (r, rest))) : |shareOfSeeds seed (ReturnsSome d S) - Φ| ≤ η + ε := by
  obtain ⟨hu, hl', hpq⟩ := tape_close c hc L hL hr S Φ η ε q C hq0 hq1 hC hlim hε
  have hE : ∀ S : α → Prop, prob l (fun w => ∃ r rest, c f w = .ok (r, rest) ∧ S r) ≤ shareOfSeeds seed (ReturnsSome d S) := fun S => by
    rw [← hwords]
    refine shareOfSeeds_mono seed ?_
    rintro t ⟨ws, t', h1, r, rest, h2, h3⟩
    have hlen : ws.length = l := draws_length h1
    obtain ⟨s1, h4, -⟩ := hsim f t' ws t (by rw [Ahead, hlen]; exact h1) r rest h2
    exact ⟨f, r, s1, h4, h3⟩
  have hdis := shareOfSeeds_disjoint seed (A := ReturnsSome d S) (B := ReturnsSome d fun r => ¬ S r) (by
    rintro t ⟨n, r, t1, h1, h2⟩ ⟨n', r', t2, h3, h4⟩
    rcases Nat.le_total n n' with hn | hn
    · obtain ⟨b, h5, -⟩ := hd n n' hn t t rfl _ _ h1
      rw [h3, Except.ok.injEq, Prod.mk.injEq] at h5
      exact h4 (h5.1 ▸ h2)
    · obtain ⟨b, h5, -⟩ := hd n' n hn t t rfl _ _ h3
      rw [h1, Except.ok.injEq, Prod.mk.injEq] at h5
      exact h4 (h5.1 ▸ h2))
  have h1 := hE S
  have h2 := hE fun r => ¬ S r
  rw [abs_le]
  constructor <;> linarith

theorem uintn_seeds {seed : ι → Go σ} {src : Source σ} {l : Nat} (hwords : ∀ m ≤ l, ∀ S : List U64 → Prop,
      shareOfSeeds seed (fun s => ∃ ws s', draws (RNG.uint64 src) m s = .ok (ws, s') ∧ S ws) = prob m S)
    (max : U64) (h0 : max ≠ 0#64) (m : Nat) (_ : 0 < m) (hD : m ≤ l) (S : List Nat → Prop) :
    |shareOfSeeds seed (ReturnsSome (fun retries => draws (RNG.uintn src retries max) m) fun js => S (js.map BitVec.toNat)) -
      uniformShare max.toNat m S| ≤ m * (max.toNat + 1) / 2 ^ 64 := by
  have := seeds_close (f := 0) (hwords m hD) (fun n => draws (RNG.uintn tape n max) m) (fun n => draws (RNG.uintn src n max) m)
    (fun n s' => sim_draws (sim_uintn max (sim_tape_uint64 src s') n n le_rfl) m)
    (fun n n' hn => sim_draws (sim_uintn max (sim_self _) n n' hn) m)
    (fun n n' hn => sim_draws (sim_uintn max (sim_self _) n n' hn) m)
    (fun n => m * (n + 1)) (fun n _ => Nat.le_mul_of_pos_right m (by omega)) (fun n => reads_draws (n + 1) _ (reads_uintn n max) m)
    (fun js => S (js.map BitVec.toNat)) _ (m * (1 / 2 ^ 63)) (m * (max.toNat - 1 : ℝ) / 2 ^ 64) (1 / 2) m (by norm_num) (by norm_num) (Nat.cast_nonneg m)
    (fun n => (C73_draws n max h0 m S).trans (by
      rw [mul_add, add_le_add_iff_left]
      refine mul_le_mul_of_nonneg_left ?_ (Nat.cast_nonneg m)
      rw [one_div_pow]
      exact one_div_le_one_div_of_le (by positivity) (pow_le_pow_right₀ (by norm_num) (by omega)))) (lawDraws_most max h0 m)
  refine this.trans (le_of_eq ?_)
  ring

/-- All the properties from that of the first words. -/
theorem fairSeeds_of (seed : ι → Go σ) (src : Source σ) (l fe fn : Nat) (hl : l < 2 ^ 46)
    (hwords : ∀ m ≤ l, ∀ S : List U64 → Prop,
      shareOfSeeds seed (fun s => ∃ ws s', draws (RNG.uint64 src) m s = .ok (ws, s') ∧ S ws) = prob m S) (εe εn δe δn : ℝ)
    (hδe : 1 / 2 ^ 31 + εe ≤ δe) (hδn : 1 / 2 ^ 31 + εn ≤ δn)
    (he : ∀ (lib : MathLib) (_ : ExpOk lib) (fused : Bool) (rate : F64),
      1 - εe ≤ prob l (fun w => ∃ r rest, exponential lib fused rate tape fe w = .ok (r, rest)))
    (hn : ∀ (lib : MathLib) (_ : LogOk lib) (_ : ExpOk lib) (fused fused' : Bool) (mean stddev : F64),
      1 - εn ≤ prob l (fun w => ∃ r rest, normal lib fused fused' mean stddev tape fn w = .ok (r, rest))) : FairSeeds seed src l δe δn := by
  have hu := uintn_seeds hwords
  refine ⟨hwords, hu, fun data hd hD T => ?_, fun alphabet h0 ha ts hts hD => ?_, fun lib hlog hexp fused rate hrate h1 h2 t ht => ?_,
    fun lib hlog hexp fused fused' mean stddev hm hm1 hs hs0 hs1 t => ?_⟩
  · have hpos : 0 < data.length := List.length_pos_iff.mpr hd
    have hof : (BitVec.ofNat 64 data.length).toNat = data.length := by rw [BitVec.toNat_ofNat]; omega
    have hne : BitVec.ofNat 64 data.length ≠ 0#64 := fun h => by
      have := congrArg BitVec.toNat h
      rw [hof] at this
      have : data.length = 0 := this
      omega
    have hu := hu (BitVec.ofNat 64 data.length) hne data.length hpos hD
      (fun l => ∃ j : Fin data.length → Fin data.length, l = List.ofFn (fun i => (j i).val) ∧ T (permuted data (shufflePerm j)))
    rw [hof, uniformShare_fn, shufflePartners_card] at hu
    rw [shareOfSeeds_congr seed (returnsSome_iff fun n t => shuffle_event src n data (by omega) T t)]
    exact hu
  · have hle := runes_length_le alphabet
    have hpos : 0 < (runes alphabet).length := List.length_pos_iff.mpr (mt (runes_eq_nil alphabet).mp h0)
    have hof : (BitVec.ofNat 64 (runes alphabet).length).toNat = (runes alphabet).length := by rw [BitVec.toNat_ofNat]; omega
    have hne : BitVec.ofNat 64 (runes alphabet).length ≠ 0#64 := fun h => by
      have := congrArg BitVec.toNat h
      rw [hof] at this
      have : (runes alphabet).length = 0 := this
      omega
    have hu := hu (BitVec.ofNat 64 (runes alphabet).length) hne ts.length (List.length_pos_iff.mpr hts) hD
      (fun l => l.map (fun x => (runes alphabet)[x]?) = ts.map some)
    rw [hof, uniformShare_map] at hu
    rw [shareOfSeeds_congr seed (returnsSome_iff fun n t => randString_event src n alphabet ha ts (by omega) t)]
    exact hu
  · have := seeds_close (f := fe) (hwords l le_rfl) (exponential lib fused rate tape) (exponential lib fused rate src)
      (fun n s' => sim_exponential lib fused rate (sim_tape_uint64 src s') (sim_tape_uniform01 src s') n n le_rfl)
      (fun n n' hn => sim_exponential lib fused rate (sim_self _) (sim_self _) n n' hn)
      (fun n n' hn => sim_exponential lib fused rate (sim_self _) (sim_self _) n n' hn)
      (fun n => 2 * n) (fun n hn => by omega) (fun n => reads_exponential lib fused rate n) (AtMost t) _ (1 / 2 ^ 31) εe (1 / 256) 1 (by norm_num) (by norm_num)
      zero_le_one (fun n => by rw [one_mul]; exact C70_exponential lib hlog hexp fused rate hrate h1 h2 t ht n) (he lib hexp fused rate)
    exact this.trans hδe
  · have := seeds_close (f := fn) (hwords l le_rfl) (normal lib fused fused' mean stddev tape) (normal lib fused fused' mean stddev src)
      (fun n s' => sim_normal lib fused fused' mean stddev (sim_tape_uint64 src s') (sim_tape_uniform01 src s') n n le_rfl)
      (fun n n' hn => sim_normal lib fused fused' mean stddev (sim_self _) (sim_self _) n n' hn)
      (fun n n' hn => sim_normal lib fused fused' mean stddev (sim_self _) (sim_self _) n n' hn)
      (fun n => 2 * n) (fun n hn => by omega) (fun n => reads_normal lib fused fused' mean stddev n) (AtMost t) _ (1 / 2 ^ 31 + |rv mean| / rv stddev / 2 ^ 53) εn
      (1 / 16) 1 (by norm_num) (by norm_num) zero_le_one
      (fun n => by rw [one_mul]; exact C71_normal lib hlog hexp fused fused' mean stddev hm hm1 hs hs0 hs1 t n) (hn lib hlog hexp fused fused' mean stddev)
    linarith

end

/-- One word. -/
theorem fairSeeds_one {ι σ : Type} [Finite ι] (seed : ι → Go σ) (src : Source σ) (hwords : ∀ m ≤ 1, ∀ S : List U64 → Prop,
    shareOfSeeds seed (fun s => ∃ ws s', draws (RNG.uint64 src) m s = .ok (ws, s') ∧ S ws) = prob m S) : FairSeeds seed src 1 0.0065 0.0043 :=
  fairSeeds_of seed src 1 1 1 (by decide) hwords (1 - 9164127786790442472 / 2 ^ 63) (1 - 18367855343147684327 / 2 ^ 64) _ _ (by norm_num) (by norm_num)
    (fun lib _ fused rate => expo_one lib fused rate) fun lib _ _ fused fused' mean stddev => norm_one lib fused fused' mean stddev

theorem fairSeeds_word {ι σ : Type} [Finite ι] (seed : ι → Go σ) (src : Source σ) (hcard : Nat.card ι = 2 ^ 64) (w : ι → U64)
    (hw : ∀ x, ∃ s s', seed x = .ok s ∧ RNG.uint64 src s = .ok (w x, s')) (hinj : Function.Injective w) : FairSeeds seed src 1 0.0065 0.0043 :=
  fairSeeds_one seed src (words_of seed src 1 1 Nat.one_pos (fun x => [w x]) (fun x => by
      obtain ⟨s, s', h1, h2⟩ := hw x
      refine ⟨s, s', h1, ?_⟩
      simp only [draws, h2, bind, Except.bind, pure, Except.pure])
    (fibre_one _ 1 (fun _ => rfl) (by rw [hcard]; decide) fun x y h => hinj (List.cons.inj h).1))

/-! ### The generators -/

theorem outs_of_map (a b : Xoshiro) (h : (List.range 4).map (fun k => Xoshiro.out (Xoshiro.step^[k] a)) = (List.range 4).map fun k => Xoshiro.out (Xoshiro.step^[k] b)) :
    a = b := Xoshiro.outs_inj (by simpa [List.range_succ, Xoshiro.outs] using h)

theorem reverseBytes64_inj (a b : U64) (h : reverseBytes64 a = reverseBytes64 b) : a = b := by
  have h1 := congrArg (fun v => (bytesOf [v]).reverse) h
  simp only [bytesOf_reverseBytes64, List.reverse_reverse] at h1
  have h2 := bytesOf_inj [a] [b] rfl h1
  simp only [List.cons.injEq, and_true] at h2
  exact h2


/-- C122: over the `2^64` seeds of `Xoroshiro.Seed`, whatever the state before, the first word is ideal. -/
theorem C122_Xoroshiro (g : Xoroshiro) : FairSeeds g.seed Xoroshiro.source 1 0.0065 0.0043 :=
  fairSeeds_word _ _ card_U64 (fun x => smMix (((Xoroshiro.smAfter [] + smGamma) ^^^ x) + smGamma) + smMix (Xoroshiro.smAfter [] + smGamma))
    (fun x => ⟨_, _, Xoroshiro.seed_eq g x, rng_uint64_of _ _ _ Xoroshiro.readsOut8 _⟩)
    fun _ _ h => xor_left_inj' _ (add_right_inj' _ (smMix_inj (add_right_inj' _ h)))

/-- C122: and over the `2^64` seeds of `Rexoroshiro.Seed`. -/
theorem C122_Rexoroshiro (g : Rexoroshiro) : FairSeeds g.seed Rexoroshiro.source 1 0.0065 0.0043 :=
  fairSeeds_word _ _ card_U64 (fun x => reverseBytes64 (smMix (((Xoroshiro.smAfter [] + smGamma) ^^^ x) + smGamma) + smMix (Xoroshiro.smAfter [] + smGamma)))
    (fun x => by
      have h : g.seed x = .ok ⟨⟨smMix (((Xoroshiro.smAfter [] + smGamma) ^^^ x) + smGamma), smMix (Xoroshiro.smAfter [] + smGamma)⟩⟩ := by
        show (do let x ← g.xoro.seed x; return Rexoroshiro.mk x) = _
        rw [Xoroshiro.seed_eq]
        rfl
      exact ⟨_, _, h, rng_uint64_of _ _ _ (Rexoroshiro.readsOut 8 (by decide)) _⟩)
    fun _ _ h => xor_left_inj' _ (add_right_inj' _ (smMix_inj (add_right_inj' _ (reverseBytes64_inj _ _ h))))

/-- C122: over the `2^64` seeds of `Xoshiro.Seed` the first word is no good (C121), but the second is ideal. -/
theorem C122_Xoshiro (g : Xoshiro) : FairSeeds (fun x => do
    let s ← g.seed x
    let (_, s) ← RNG.uint64 Xoshiro.source s
    return s) Xoshiro.source 1 0.0065 0.0043 :=
  fairSeeds_word _ _ card_U64 (fun x => (Xoshiro.smXor (Xoshiro.xor4 (Xoshiro.step g.seedInit.1) x 0#64 0#64 0#64) g.seedInit.2).1.step.out)
    (fun x => by
      have h : g.seed x = _ := Xoshiro.seed_short g (le64 x) (by simp [le64]) x (by simp [zeros]) (by simp)
      refine ⟨_, _, ?_, rng_uint64_of _ _ _ (Xoshiro.readsOut 8 (by decide)) _⟩
      rw [h]
      show (do let (_, s) ← RNG.uint64 Xoshiro.source (Xoshiro.smXor (Xoshiro.xor4 (Xoshiro.step g.seedInit.1) x 0#64 0#64 0#64) g.seedInit.2).1; return s) = _
      rw [rng_uint64_of _ _ _ (Xoshiro.readsOut 8 (by decide))]
      rfl)
    fun x y h => by
      have h1 := Xoshiro.out_inj h
      simp only [Xoshiro.step, Xoshiro.smXor, Xoshiro.xor4] at h1
      exact xor_left_inj' _ (xor_right_inj' _ (xor_left_inj' _ (xor_left_inj' _ h1)))

/-- Seeding with `L` random bytes and discarding `n` words. -/
theorem share_of_iv {σ : Type} [Finite σ] (seedIV : List Byte → σ → Go σ) (next : σ → Go (U64 × σ)) (g : σ) (L n : Nat) (A : σ → Prop) :
    shareOfSeeds (fun iv : {iv : List Byte // iv.length = L} => do
      let s ← seedIV iv.1 g
      let (_, s) ← draws next n s
      return s) A = seedShare seedIV next g L n A := by
  unfold shareOfSeeds seedShare probBytes
  rw [card_bytes]
  refine congrArg₂ (fun (a : Nat) (b : ℝ) => (a : ℝ) / b) ?_ (by push_cast; rfl)
  unfold countBytes
  refine (Nat.card_congr (Equiv.subtypeEquivRight (q := fun iv : {iv : List Byte // iv.length = L} => ∃ s t, seedIV iv.1 g = .ok s ∧ Leads next n s t ∧ A t)
    fun iv => ?_)).trans (Nat.card_congr (Equiv.subtypeSubtypeEquivSubtypeInter _ fun iv : List Byte => ∃ s t, seedIV iv g = .ok s ∧ Leads next n s t ∧ A t))
  have hst : ∀ x : Go σ, (do let s ← x; let (_, s) ← draws next n s; return s : Go σ) = (match x with
    | .error e => .error e
    | .ok s => match draws next n s with
      | .error e => .error e
      | .ok q => .ok q.2) := fun x => by
    cases x with
    | error e => rfl
    | ok s =>
      simp only [bind, Except.bind, pure, Except.pure]
      cases draws next n s <;> rfl
  simp only [hst]
  cases h1 : seedIV iv.1 g with
  | error e =>
    constructor
    · rintro ⟨s, h, -⟩; cases h
    · rintro ⟨s, t, h, -⟩; cases h
  | ok s =>
    dsimp only
    cases h2 : draws next n s with
    | error e =>
      constructor
      · rintro ⟨s, h, -⟩; cases h
      · rintro ⟨s', t, hs, ⟨ws, h⟩, -⟩
        rw [← Except.ok.inj hs, h2] at h
        cases h
    | ok q =>
      obtain ⟨ws, t⟩ := q
      constructor
      · rintro ⟨t', h, h3⟩
        have ht : t = t' := Except.ok.inj h
        exact ⟨s, t, rfl, ⟨ws, h2⟩, ht ▸ h3⟩
      · rintro ⟨s', t', hs, ⟨ws', h⟩, h3⟩
        rw [← Except.ok.inj hs, h2, Except.ok.injEq, Prod.mk.injEq] at h
        exact ⟨t', by rw [h.2], h3⟩

theorem share_of_state {σ : Type} (A : σ → Prop) : shareOfSeeds (fun s : σ => .ok s) A = (Nat.card {s // A s} : ℝ) / Nat.card σ := by
  unfold shareOfSeeds
  simp only [Except.ok.injEq, exists_eq_left']

/-- C122: over the `256^L` ivs of `L` bytes, `L` at least 32 and a multiple of 32, for `Xoshiro.SeedIV`, any four words in a row are ideal, after
any number `n` of words before them. -/
theorem C122_Xoshiro_SeedIV (g : Xoshiro) (L : Nat) (hL : 32 ≤ L) (h32 : 32 ∣ L) (n : Nat) : FairSeeds (fun iv : {iv : List Byte // iv.length = L} => do
    let s ← g.seedIV iv.1
    let (_, s) ← draws Xoshiro.uint64 n s
    return s) Xoshiro.source 4 (1 / 2 ^ 15) (1 / 2 ^ 12) := by
  have : Finite {e : List Byte // e.length = L} := Nat.finite_of_card_ne_zero (by rw [card_bytes]; exact (pow_pos (by decide) _).ne')
  have hw : ∀ s : Xoshiro, ∃ s1 s', (.ok s : Go Xoshiro) = .ok s1 ∧
      draws (RNG.uint64 Xoshiro.source) 4 s1 = .ok ((List.range 4).map fun k => Xoshiro.out (Xoshiro.step^[k] s), s') := fun s =>
    ⟨_, _, rfl, draws_pure (rng_uint64_of _ _ _ (Xoshiro.readsOut 8 (by decide))) 4 s⟩
  have hcard : Nat.card Xoshiro = (2 ^ 64) ^ 4 := by
    rw [Xoshiro.card_state, ← pow_mul, show (256 : Nat) = 2 ^ 8 from rfl, ← pow_mul]
  have hs := words_of (fun s : Xoshiro => .ok s) Xoshiro.source 4 1 Nat.one_pos (fun s => (List.range 4).map fun k => Xoshiro.out (Xoshiro.step^[k] s)) hw
    (fibre_one _ 4 (fun s => by rw [List.length_map, List.length_range]) hcard fun a b h => outs_of_map a b h)
  refine fairSeeds_of _ Xoshiro.source 4 2 2 (by decide) (fun m hm S => ?_) ((1 / 256) ^ 2) (1 / 2 ^ 13) _ _ (by norm_num) (by norm_num)
    (fun lib he fused rate => C70_returns lib he fused rate 2) norm_four
  rw [share_of_iv Xoshiro.seedIV Xoshiro.uint64 g L n, Xoshiro.seedShare_eq L (by omega) h32 g n, ← hs m hm S, share_of_state, hcard]
  norm_num

/-- The words of a random state of a Xoroshiro. -/
theorem xoroshiro_words (m : Nat) (hm : m ≤ 1) (S : List U64 → Prop) : shareOfSeeds (fun s : Xoroshiro => .ok s)
    (fun s => ∃ ws s', draws (RNG.uint64 Xoroshiro.source) m s = .ok (ws, s') ∧ S ws) = prob m S := by
  refine words_of (fun s : Xoroshiro => .ok s) Xoroshiro.source 1 (2 ^ 64) (by decide) (fun s => [s.out]) (fun s => ⟨s, s.step.step, rfl, ?_⟩) (fun t ht => ?_) m hm S
  · simp only [draws, rng_uint64_of _ _ _ Xoroshiro.readsOut8, bind, Except.bind, pure, Except.pure]
  · obtain ⟨v, rfl⟩ := List.length_eq_one_iff.mp ht
    rw [← Xoroshiro.card_out v]
    exact Nat.card_congr (Equiv.subtypeEquivRight fun s => by rw [List.cons.injEq]; exact and_iff_left rfl)

/-- C122: over the `256^L` ivs of `L` bytes, `L` at least 16 and a multiple of 8, for `Xoroshiro.SeedIV`, every single word is ideal. -/
theorem C122_Xoroshiro_SeedIV (g : Xoroshiro) (L : Nat) (hL : 16 ≤ L) (h8 : 8 ∣ L) (n : Nat) : FairSeeds (fun iv : {iv : List Byte // iv.length = L} => do
    let s ← g.seedIV iv.1
    let (_, s) ← draws Xoroshiro.uint64 n s
    return s) Xoroshiro.source 1 0.0065 0.0043 := by
  have : Finite {e : List Byte // e.length = L} := Nat.finite_of_card_ne_zero (by rw [card_bytes]; exact (pow_pos (by decide) _).ne')
  refine fairSeeds_one _ _ fun m hm S => ?_
  rw [share_of_iv Xoroshiro.seedIV Xoroshiro.uint64 g L n, Xoroshiro.seedShare_eq L hL h8 g n, ← xoroshiro_words m hm S, share_of_state, Xoroshiro.card_state]
  norm_num

/-- C122: and for `Rexoroshiro.SeedIV`. -/
theorem C122_Rexoroshiro_SeedIV (g : Rexoroshiro) (L : Nat) (hL : 16 ≤ L) (h8 : 8 ∣ L) (n : Nat) : FairSeeds (fun iv : {iv : List Byte // iv.length = L} => do
    let s ← g.seedIV iv.1
    let (_, s) ← draws Rexoroshiro.uint64 n s
    return s) Rexoroshiro.source 1 0.0065 0.0043 := by
  have : Finite {e : List Byte // e.length = L} := Nat.finite_of_card_ne_zero (by rw [card_bytes]; exact (pow_pos (by decide) _).ne')
  have hs : ∀ m ≤ 1, ∀ S : List U64 → Prop, shareOfSeeds (fun s : Rexoroshiro => .ok s)
      (fun s => ∃ ws s', draws (RNG.uint64 Rexoroshiro.source) m s = .ok (ws, s') ∧ S ws) = prob m S := fun m hm S => by
    have hw : ∀ s : Rexoroshiro, draws (RNG.uint64 Rexoroshiro.source) 1 s = .ok ([reverseBytes64 s.xoro.out], _) := fun s =>
      draws_pure (rng_uint64_of _ _ _ (Rexoroshiro.readsOut 8 (by decide))) 1 s
    refine words_of (fun s : Rexoroshiro => .ok s) Rexoroshiro.source 1 (2 ^ 64) (by decide) (fun s => [reverseBytes64 s.xoro.out])
      (fun s => ⟨s, _, rfl, hw s⟩) (fun t ht => ?_) m hm S
    · obtain ⟨v, rfl⟩ := List.length_eq_one_iff.mp ht
      rw [← Xoroshiro.card_out (reverseBytes64 v)]
      refine Nat.card_congr (Rexoroshiro.same.subtypeEquiv fun s => ?_)
      rw [List.cons.injEq, and_iff_left rfl]
      show reverseBytes64 s.xoro.out = v ↔ s.xoro.out = reverseBytes64 v
      exact ⟨fun h => by rw [← h, Rexoroshiro.reverse_reverse], fun h => by rw [h, Rexoroshiro.reverse_reverse]⟩
  refine fairSeeds_one _ _ fun m hm S => ?_
  rw [share_of_iv Rexoroshiro.seedIV Rexoroshiro.uint64 g L n, Rexoroshiro.seedShare_eq L hL h8 g n, ← hs m hm S, share_of_state,
    Nat.card_congr Rexoroshiro.same, Xoroshiro.card_state]
  norm_num

/-- C122, the limit: with few seeds no generator is fair on many words. Whatever the generator, there are lists of `m` words that come with all the
seeds, but on ideal words with a probability of at most (number of seeds)`/2^(64 m)`. -/
theorem C122_limit {ι σ : Type} [Finite ι] [Nonempty ι] (seed : ι → Go σ) (src : Source σ) (m : Nat)
    (hok : ∀ x, ∃ s ws s', seed x = .ok s ∧ draws (RNG.uint64 src) m s = .ok (ws, s')) : ∃ S : List U64 → Prop,
    shareOfSeeds seed (fun s => ∃ ws s', draws (RNG.uint64 src) m s = .ok (ws, s') ∧ S ws) = 1 ∧ prob m S ≤ Nat.card ι / (2 ^ 64) ^ m := by
  refine ⟨fun ws => ∃ x s s', seed x = .ok s ∧ draws (RNG.uint64 src) m s = .ok (ws, s'), ?_, ?_⟩
  · unfold shareOfSeeds
    have : Nat.card {x : ι // ∃ s, seed x = .ok s ∧ ∃ ws s', draws (RNG.uint64 src) m s = .ok (ws, s') ∧
        ∃ x s s', seed x = .ok s ∧ draws (RNG.uint64 src) m s = .ok (ws, s')} = Nat.card ι :=
      Nat.card_congr (Equiv.subtypeUnivEquiv fun x => by
        obtain ⟨s, ws, s', h1, h2⟩ := hok x
        exact ⟨s, h1, ws, s', h2, x, s, s', h1, h2⟩)
    rw [this, div_self (Nat.cast_ne_zero.mpr Nat.card_pos.ne')]
  · rw [prob_eq]
    refine div_le_div_of_nonneg_right (Nat.cast_le.mpr ?_) (by positivity)
    unfold tapes
    refine Nat.card_le_card_of_injective (fun t => t.2.2.choose) fun a b e => Subtype.ext ?_
    obtain ⟨s, s', h1, h2⟩ := a.2.2.choose_spec
    obtain ⟨t, t', h3, h4⟩ := b.2.2.choose_spec
    have e' : a.2.2.choose = b.2.2.choose := e
    rw [e', h3, Except.ok.injEq] at h1
    rw [← h1, h4, Except.ok.injEq, Prod.mk.injEq] at h2
    exact h2.1.symm

/-! ### Non-vacuity -/

/-- For the first two words of a Xoroshiro after `Seed` the limit is `2^-64`. -/
example (g : Xoroshiro) : ∃ S : List U64 → Prop,
    shareOfSeeds g.seed (fun s => ∃ ws s', draws (RNG.uint64 Xoroshiro.source) 2 s = .ok (ws, s') ∧ S ws) = 1 ∧ prob 2 S ≤ 1 / 2 ^ 64 := by
  obtain ⟨S, h1, h2⟩ := C122_limit g.seed Xoroshiro.source 2 fun x =>
    ⟨_, _, _, Xoroshiro.seed_eq g x, draws_pure (rng_uint64_of _ _ _ Xoroshiro.readsOut8) 2 _⟩
  refine ⟨S, h1, h2.trans (le_of_eq ?_)⟩
  rw [card_U64]
  norm_num


/-- The first roll of a die after `Seed` with a random seed: each number with a sixth of the `2^64` seeds, up to `7/2^64`. -/
example (g : Xoroshiro) (k : Nat) (hk : k < 6) :
    |shareOfSeeds g.seed (ReturnsSome (fun retries => draws (RNG.uintn Xoroshiro.source retries 6#64) 1) fun js => js.map BitVec.toNat = [k]) -
      1 / 6| ≤ 7 / 2 ^ 64 := by
  have h := (C122_Xoroshiro g).uintn 6#64 (by decide) 1 (by decide) (by decide) fun l => l = [k]
  have e : uniformShare (6#64).toNat 1 (fun l => l = [k]) = 1 / 6 := by
    show uniformShare 6 1 (fun l => l = [k]) = 1 / 6
    rw [uniformShare_fn]
    have : Nat.card {j : Fin 1 → Fin 6 // (List.ofFn fun i => (j i).val) = [k]} = 1 := by
      have : Unique {j : Fin 1 → Fin 6 // (List.ofFn fun i => (j i).val) = [k]} :=
        ⟨⟨⟨fun _ => ⟨k, hk⟩, by simp⟩⟩, fun j => Subtype.ext (funext fun i => by
          have := j.2
          simp only [List.ofFn_succ, List.ofFn_zero, List.cons.injEq, and_true] at this
          obtain rfl : i = 0 := Subsingleton.elim _ _
          exact Fin.ext this)⟩
      exact Nat.card_unique
    rw [this]
    norm_num
  rw [e] at h
  refine h.trans (le_of_eq ?_)
  norm_num

end Crazy
