/-
C111: the exponential and normal distributions over a whole period of a generator.
-/
import Verif.Spec.PeriodDist
import Verif.Proofs.Mimic
import Verif.Props.EvenReads
import Verif.Props.ExpoDist
import Verif.Props.NormDist
import Verif.Props.Cost
namespace Crazy
open ProbabilityTheory

section
variable {σ α : Type}

theorem places_mono (next : σ → Go (U64 × σ)) (s : σ) (P : Nat) {A B : σ → Prop} (h : ∀ t, A t → B t) : places next s P A ≤ places next s P B := by
  have : Finite {n : Nat // n < P ∧ ∃ ws t, draws next n s = .ok (ws, t) ∧ B t} := Finite.of_injective (fun n => (⟨n.1, n.2.1⟩ : Fin P))
    fun a b e => Subtype.ext (Fin.mk.inj e)
  exact Nat.card_le_card_of_injective (fun n => ⟨n.1, n.2.1, by obtain ⟨ws, t, h1, h2⟩ := n.2.2; exact ⟨ws, t, h1, h t h2⟩⟩)
    fun a b e => Subtype.ext (Subtype.mk.inj e)

theorem places_disjoint (next : σ → Go (U64 × σ)) (s : σ) (P : Nat) {A B : σ → Prop} (h : ∀ t, A t → ¬ B t) :
    places next s P A + places next s P B ≤ P := by
  have hf : ∀ C : σ → Prop, Finite {n : Nat // n < P ∧ ∃ ws t, draws next n s = .ok (ws, t) ∧ C t} := fun C =>
    Finite.of_injective (fun n => (⟨n.1, n.2.1⟩ : Fin P)) fun a b e => Subtype.ext (Fin.mk.inj e)
  have := hf A
  have := hf B
  unfold places
  rw [← Nat.card_sum]
  conv => rhs; rw [← Nat.card_fin P]
  refine Nat.card_le_card_of_injective (Sum.elim (fun n => ⟨n.1, n.2.1⟩) (fun n => ⟨n.1, n.2.1⟩)) ?_
  have key : ∀ (a : {n : Nat // n < P ∧ ∃ ws t, draws next n s = .ok (ws, t) ∧ A t}) (b : {n : Nat // n < P ∧ ∃ ws t, draws next n s = .ok (ws, t) ∧ B t}),
      a.1 ≠ b.1 := fun a b e => by
    obtain ⟨ws, t, h1, h2⟩ := a.2.2
    obtain ⟨ws', t', h3, h4⟩ := b.2.2
    rw [e, h3, Except.ok.injEq, Prod.mk.injEq] at h1
    exact h t h2 (h1.2 ▸ h4)
  rintro (a | a) (b | b) e
  · exact congrArg Sum.inl (Subtype.ext (Fin.mk.inj e))
  · exact absurd (Fin.mk.inj e) (key a b)
  · exact absurd (Fin.mk.inj e).symm (key b a)
  · exact congrArg Sum.inr (Subtype.ext (Fin.mk.inj e))

/-- The arithmetic: `E` states of `M`, of which at least `(M+1) p - 1` and at most `(M+1) (1 - q)`. -/
theorem share_arith (M E p q Φ η ε : ℝ) (hM : 0 < M) (h1 : (M + 1) * p - 1 ≤ E) (h2 : E ≤ (M + 1) * (1 - q)) (hp : 0 ≤ p) (hq : 0 ≤ q) (hpq : 1 - ε ≤ p + q)
    (hu : p ≤ Φ + η) (hl : Φ - η - ε ≤ p) : |E / M - Φ| ≤ η + ε + 1 / M := by
  have a1 : p - 1 / M ≤ E / M := by
    rw [le_div_iff₀ hM, sub_mul, one_div, inv_mul_cancel₀ hM.ne']
    linarith
  have a2 : E / M ≤ p + ε + 1 / M := by
    rw [div_le_iff₀ hM, add_mul, one_div, inv_mul_cancel₀ hM.ne']
    have : M * (1 - q) ≤ M * (p + ε) := mul_le_mul_of_nonneg_left (by linarith) hM.le
    linarith
  rw [abs_le]
  constructor <;> linarith

/-- A limit: what is within `η + C c^n` for all large `n`. -/
theorem below_of_pow (x y c C : ℝ) (n0 : Nat) (h0 : 0 ≤ c) (h1 : c < 1) (hC : 0 ≤ C) (h : ∀ n ≥ n0, x ≤ y + C * c ^ n) : x ≤ y := by
  by_contra hlt
  have hp : 0 < C + 1 := by linarith
  obtain ⟨n, hn⟩ := exists_pow_lt_of_lt_one (div_pos (sub_pos.mpr (not_le.mp hlt)) hp) h1
  have h2 := h (max n0 n) (le_max_left _ _)
  have h3 := mul_le_mul_of_nonneg_left (pow_le_pow_of_le_one h0 h1.le (le_max_right n0 n)) hC
  rw [lt_div_iff₀ hp, mul_add, mul_one] at hn
  have h4 := pow_nonneg h0 n
  rw [mul_comm] at hn
  linarith

/-- A call on `l` ideal words: what it returns is of the kind `S` with a probability close to `Φ`. -/
theorem tape_close {l f : Nat} (c : Nat → List U64 → Go (α × List U64)) (hc : ∀ n n', n ≤ n' → SimR Eq (c n) (c n')) (L : Nat → Nat)
    (hL : ∀ n ≥ f + l, l ≤ L n) (hr : ∀ n, Reads (L n) (c n)) (S : α → Prop) (Φ η ε q C : ℝ) (hq0 : 0 ≤ q) (hq1 : q < 1) (hC : 0 ≤ C)
    (hlim : ∀ n, |prob (L n) (fun w => ∃ r rest, c n w = .ok (r, rest) ∧ S r) - Φ| ≤ η + C * q ^ n)
    (hε : 1 - ε ≤ prob l (fun w => ∃ r rest, c f w = .ok (r, rest))) :
    prob l (fun w => ∃ r rest, c f w = .ok (r, rest) ∧ S r) ≤ Φ + η ∧ Φ - η - ε ≤ prob l (fun w => ∃ r rest, c f w = .ok (r, rest) ∧ S r) ∧
      1 - ε ≤ prob l (fun w => ∃ r rest, c f w = .ok (r, rest) ∧ S r) + prob l (fun w => ∃ r rest, c f w = .ok (r, rest) ∧ ¬ S r) := by
  classical
  obtain ⟨p, hp⟩ : ∃ p : (α → Prop) → ℝ, p = fun S => prob l (fun w => ∃ r rest, c f w = .ok (r, rest) ∧ S r) := ⟨_, rfl⟩
  -- on longer tapes
  have long : ∀ (S : α → Prop) (n : Nat), f + l ≤ n → p S ≤ prob (L n) (fun w => ∃ r rest, c n w = .ok (r, rest) ∧ S r) := fun S n hn => by
    have e := prob_append l (L n - l) (fun w => ∃ r rest, c f (w.take l) = .ok (r, rest) ∧ S r) fun w v hw => by
      rw [List.take_left' hw, List.take_of_length_le hw.le]
    rw [show l + (L n - l) = L n by have := hL n hn; omega] at e
    have e2 : p S = prob l (fun w => ∃ r rest, c f (w.take l) = .ok (r, rest) ∧ S r) := by
      rw [hp]
      exact prob_congr fun w hw => by rw [List.take_of_length_le hw.le]
    rw [e2, ← e]
    refine prob_mono fun w _ => ?_
    rintro ⟨r, rest, h1, h2⟩
    obtain ⟨u, -, h3, h4⟩ := (hr f).cut _ _ _ h1
    have h5 := (hr f).ext u r h4 (rest ++ w.drop l)
    rw [← List.append_assoc, ← h3, List.take_append_drop] at h5
    obtain ⟨b', h6, -⟩ := hc f n (by omega) w w rfl _ _ h5
    exact ⟨r, b', h6, h2⟩
  have hS : p (fun _ => True) = p S + p (fun r => ¬ S r) := by
    rw [hp]
    dsimp only
    rw [← prob_or l _ _ (by
      rintro t ⟨⟨r, rest, h1, h2⟩, r', rest', h3, h4⟩
      rw [h1, Except.ok.injEq, Prod.mk.injEq] at h3
      exact h4 (h3.1 ▸ h2))]
    refine prob_congr fun w _ => ⟨?_, ?_⟩
    · rintro ⟨r, rest, h1, -⟩
      by_cases hs : S r
      · exact Or.inl ⟨r, rest, h1, hs⟩
      · exact Or.inr ⟨r, rest, h1, hs⟩
    · rintro (⟨r, rest, h1, -⟩ | ⟨r, rest, h1, -⟩) <;> exact ⟨r, rest, h1, trivial⟩
  have hT : 1 - ε ≤ p (fun _ => True) := by
    rw [hp]
    simpa only [and_true] using hε
  have hn0 : ∀ S, 0 ≤ p S := fun S => by rw [hp]; exact prob_nonneg _ _
  have hu : p S ≤ Φ + η := below_of_pow _ _ q C (f + l) hq0 hq1 hC fun n hn => by
    have := (abs_le.mp (hlim n)).2
    linarith [long S n hn]
  have hl' : Φ - η - ε ≤ p S := by
    have : Φ - η ≤ p S + ε := below_of_pow _ _ q C (f + l) hq0 hq1 hC fun n hn => by
      have h1 := (abs_le.mp (hlim n)).1
      have h2 := long (fun r => ¬ S r) n hn
      have h3 : prob (L n) (fun w => ∃ r rest, c n w = .ok (r, rest) ∧ S r) + prob (L n) (fun w => ∃ r rest, c n w = .ok (r, rest) ∧ ¬ S r) ≤ 1 := by
        rw [← prob_or _ _ _ (by
          rintro t ⟨⟨r, rest, h1, h2⟩, r', rest', h3, h4⟩
          rw [h1, Except.ok.injEq, Prod.mk.injEq] at h3
          exact h4 (h3.1 ▸ h2))]
        exact prob_le_one _ _
      linarith
    linarith
  subst hp
  exact ⟨hu, hl', by rw [← hS]; exact hT⟩

/-- From a call on ideal words to the states of a period. -/
theorem share_close {next : σ → Go (U64 × σ)} {src : Source σ} {s : σ} {N D l f : Nat} (h : EvenReads next src s N D) (hl : l ≤ D) (h64 : 64 * l ≤ N)
    (hN : 0 < N) (c : Nat → List U64 → Go (α × List U64)) (d : Nat → σ → Go (α × σ)) (hsim : ∀ n s', SimR (Ahead src s') (c n) (d n))
    (hd : ∀ n n', n ≤ n' → SimR Eq (d n) (d n')) (hc : ∀ n n', n ≤ n' → SimR Eq (c n) (c n')) (L : Nat → Nat) (hL : ∀ n ≥ f + l, l ≤ L n)
    (hr : ∀ n, Reads (L n) (c n)) (S : α → Prop) (Φ η ε q C : ℝ) (hq0 : 0 ≤ q) (hq1 : q < 1) (hC : 0 ≤ C)
    (hlim : ∀ n, |prob (L n) (fun w => ∃ r rest, c n w = .ok (r, rest) ∧ S r) - Φ| ≤ η + C * q ^ n)
    (hε : 1 - ε ≤ prob l (fun w => ∃ r rest, c f w = .ok (r, rest))) :
    |shareOf next s (2 ^ N - 1) (ReturnsSome d S) - Φ| ≤ η + ε + 1 / ((2 ^ N - 1 : Nat) : ℝ) := by
  classical
  obtain ⟨hu, hl', hpq⟩ := tape_close c hc L hL hr S Φ η ε q C hq0 hq1 hC hlim hε
  obtain ⟨p, hp⟩ : ∃ p : (α → Prop) → ℝ, p = fun S => prob l (fun w => ∃ r rest, c f w = .ok (r, rest) ∧ S r) := ⟨_, rfl⟩
  have hn0 : ∀ S, 0 ≤ p S := fun S => by rw [hp]; exact prob_nonneg _ _
  have ep : ∀ S, prob l (fun w => ∃ r rest, c f w = .ok (r, rest) ∧ S r) = p S := fun S => by rw [hp]
  rw [ep] at hu hl'
  rw [ep, ep] at hpq
  -- counting states
  have hcount : ∀ S, ((2 ^ N - 1 : Nat) + 1 : ℝ) * p S - 1 ≤
      (places next s (2 ^ N - 1) (fun t => ∃ ws t', draws (RNG.uint64 src) l t = .ok (ws, t') ∧ ∃ r rest, c f ws = .ok (r, rest) ∧ S r) : ℝ) := fun S => by
    have e := h.words l hl (fun ws => ∃ r rest, c f ws = .ok (r, rest) ∧ S r)
    have e1 : ((2 ^ N - 1 : Nat) + 1 : ℝ) = 2 ^ N := by
      have := Nat.one_le_two_pow (n := N)
      rw [← Nat.cast_one (R := ℝ), ← Nat.cast_add, Nat.sub_add_cancel this]
      push_cast
      rfl
    have e2 : (2 : ℝ) ^ N * p S = ((2 ^ (N - 64 * l) * Nat.card {ws : List U64 // ws.length = l ∧ ∃ r rest, c f ws = .ok (r, rest) ∧ S r} : Nat) : ℝ) := by
      rw [hp]
      dsimp only
      rw [prob_eq]
      unfold tapes
      push_cast
      have : (2 : ℝ) ^ N = 2 ^ (N - 64 * l) * (2 ^ 64) ^ l := by rw [← pow_mul, ← pow_add, Nat.sub_add_cancel h64]
      rw [this]
      have hne : ((2 : ℝ) ^ 64) ^ l ≠ 0 := by positivity
      field_simp
    rw [e1, e2, ← e]
    push_cast
    have : (if ∃ r rest, c f (List.replicate l 0#64) = .ok (r, rest) ∧ S r then (1 : ℝ) else 0) ≤ 1 := by split <;> norm_num
    linarith
  have hE : ∀ S t, (∃ ws t', draws (RNG.uint64 src) l t = .ok (ws, t') ∧ ∃ r rest, c f ws = .ok (r, rest) ∧ S r) → ReturnsSome d S t := by
    rintro S t ⟨ws, t', h1, r, rest, h2, h3⟩
    have hlen : ws.length = l := draws_length h1
    obtain ⟨s1, h4, -⟩ := hsim f t' ws t (by rw [Ahead, hlen]; exact h1) r rest h2
    exact ⟨f, r, s1, h4, h3⟩
  have hlow := (hcount S).trans (Nat.cast_le.mpr (places_mono next s (2 ^ N - 1) (hE S)))
  have hdis := places_disjoint next s (2 ^ N - 1) (A := ReturnsSome d S) (B := ReturnsSome d fun r => ¬ S r) (by
    rintro t ⟨n, r, t1, h1, h2⟩ ⟨n', r', t2, h3, h4⟩
    rcases Nat.le_total n n' with hn | hn
    · obtain ⟨b, h5, -⟩ := hd n n' hn t t rfl _ _ h1
      rw [h3, Except.ok.injEq, Prod.mk.injEq] at h5
      exact h4 (h5.1 ▸ h2)
    · obtain ⟨b, h5, -⟩ := hd n' n hn t t rfl _ _ h3
      rw [h1, Except.ok.injEq, Prod.mk.injEq] at h5
      exact h4 (h5.1 ▸ h2))
  have hhigh := (hcount fun r => ¬ S r).trans (Nat.cast_le.mpr (places_mono next s (2 ^ N - 1) (hE _)))
  have hM : (0 : ℝ) < ((2 ^ N - 1 : Nat) : ℝ) := by
    have := Nat.one_lt_two_pow hN.ne'
    exact Nat.cast_pos.mpr (by omega)
  have hdis' : (places next s (2 ^ N - 1) (ReturnsSome d S) : ℝ) + (places next s (2 ^ N - 1) (ReturnsSome d fun r => ¬ S r) : ℝ) ≤ ((2 ^ N - 1 : Nat) : ℝ) := by
    rw [← Nat.cast_add]
    exact Nat.cast_le.mpr hdis
  unfold shareOf
  generalize ((2 ^ N - 1 : Nat) : ℝ) = M at *
  exact share_arith M _ (p S) (p fun r => ¬ S r) Φ η ε hM hlow (by linarith) (hn0 _) (hn0 _) hpq hu hl'

end

section
variable {σ : Type}

theorem inv_period {N : Nat} (hN : 128 ≤ N) : 1 / ((2 ^ N - 1 : Nat) : ℝ) ≤ 1 / 2 ^ 127 := by
  have h1 : 2 ^ 128 ≤ 2 ^ N := Nat.pow_le_pow_right (by decide) hN
  have h2 : 2 ^ 127 + 1 ≤ 2 ^ 128 := by decide
  have h3 : 2 ^ 127 ≤ 2 ^ N - 1 := by
    generalize 2 ^ N = a at *
    generalize 2 ^ 128 = b at *
    generalize 2 ^ 127 = c at *
    omega
  refine one_div_le_one_div_of_le (by positivity) ?_
  have := Nat.cast_le (α := ℝ).mpr h3
  rwa [Nat.cast_pow, Nat.cast_ofNat] at this

theorem exponential_over {next : σ → Go (U64 × σ)} {src : Source σ} {s : σ} {N D : Nat} (h : EvenReads next src s N D) (hN : 128 ≤ N) (l f : Nat)
    (hl : l ≤ D) (h64 : 64 * l ≤ N) (ε δ : ℝ) (hδ : 1 / 2 ^ 31 + ε + 1 / 2 ^ 127 ≤ δ) (hε : ∀ (lib : MathLib) (_ : ExpOk lib) (fused : Bool) (rate : F64),
      1 - ε ≤ prob l (fun w => ∃ r rest, exponential lib fused rate tape f w = .ok (r, rest))) : ExponentialOver next src s (2 ^ N - 1) δ :=
  fun lib hlog hexp fused rate hrate h1 h2 t ht => by
    have := share_close h hl h64 (by omega) (exponential lib fused rate tape) (exponential lib fused rate src)
      (fun n s' => sim_exponential lib fused rate (sim_tape_uint64 src s') (sim_tape_uniform01 src s') n n le_rfl)
      (fun n n' hn => sim_exponential lib fused rate (sim_self _) (sim_self _) n n' hn)
      (fun n n' hn => sim_exponential lib fused rate (sim_self _) (sim_self _) n n' hn)
      (fun n => 2 * n) (fun n hn => by omega) (fun n => reads_exponential lib fused rate n) (AtMost t) _ (1 / 2 ^ 31) ε (1 / 256) 1 (by norm_num) (by norm_num)
      zero_le_one (fun n => by rw [one_mul]; exact C70_exponential lib hlog hexp fused rate hrate h1 h2 t ht n) (hε lib hexp fused rate)
    have h3 := inv_period hN
    generalize 1 / ((2 ^ N - 1 : Nat) : ℝ) = x at *
    linarith

theorem normal_over {next : σ → Go (U64 × σ)} {src : Source σ} {s : σ} {N D : Nat} (h : EvenReads next src s N D) (hN : 128 ≤ N) (l f : Nat)
    (hl : l ≤ D) (h64 : 64 * l ≤ N) (ε δ : ℝ) (hδ : 1 / 2 ^ 31 + ε + 1 / 2 ^ 127 ≤ δ)
    (hε : ∀ (lib : MathLib) (_ : LogOk lib) (_ : ExpOk lib) (fused fused' : Bool) (mean stddev : F64),
      1 - ε ≤ prob l (fun w => ∃ r rest, normal lib fused fused' mean stddev tape f w = .ok (r, rest))) : NormalOver next src s (2 ^ N - 1) δ :=
  fun lib hlog hexp fused fused' mean stddev hm hm1 hs hs0 hs1 t => by
    have := share_close h hl h64 (by omega) (normal lib fused fused' mean stddev tape) (normal lib fused fused' mean stddev src)
      (fun n s' => sim_normal lib fused fused' mean stddev (sim_tape_uint64 src s') (sim_tape_uniform01 src s') n n le_rfl)
      (fun n n' hn => sim_normal lib fused fused' mean stddev (sim_self _) (sim_self _) n n' hn)
      (fun n n' hn => sim_normal lib fused fused' mean stddev (sim_self _) (sim_self _) n n' hn)
      (fun n => 2 * n) (fun n hn => by omega) (fun n => reads_normal lib fused fused' mean stddev n) (AtMost t) _ (1 / 2 ^ 31 + |rv mean| / rv stddev / 2 ^ 53) ε
      (1 / 16) 1 (by norm_num) (by norm_num) zero_le_one
      (fun n => by rw [one_mul]; exact C71_normal lib hlog hexp fused fused' mean stddev hm hm1 hs hs0 hs1 t n) (hε lib hlog hexp fused fused' mean stddev)
    have h3 := inv_period hN
    generalize 1 / ((2 ^ N - 1 : Nat) : ℝ) = x at *
    linarith

/-- A call that reads one word with some probability returns on a single word at least as often. -/
theorem one_suffices {α : Type} (c : List U64 → Go (α × List U64)) {m : Nat} (hr : Reads m c) :
    prob 2 (fun w => wordsRead c w = 1) ≤ prob 1 (fun w => ∃ r rest, c w = .ok (r, rest)) := by
  have e := prob_append 1 1 (fun w => ∃ r rest, c (w.take 1) = .ok (r, rest)) fun w v hw => by
    rw [List.take_left' hw, List.take_of_length_le hw.le]
  have e2 : prob 1 (fun w => ∃ r rest, c w = .ok (r, rest)) = prob 1 (fun w => ∃ r rest, c (w.take 1) = .ok (r, rest)) :=
    prob_congr fun w hw => by rw [List.take_of_length_le hw.le]
  rw [e2, ← e]
  refine prob_mono fun w hw h => ?_
  unfold wordsRead at h
  cases hc : c w with
  | error x => rw [hc] at h; dsimp only at h; omega
  | ok q =>
    obtain ⟨r, rest⟩ := q
    rw [hc] at h
    dsimp only at h
    obtain ⟨p, -, h2, h3⟩ := hr.cut w r rest hc
    have hp : p.length = 1 := by
      have := congrArg List.length h2
      rw [List.length_append] at this
      omega
    exact ⟨r, [], by rw [h2, List.take_left' hp]; exact h3⟩

theorem expo_one (lib : MathLib) (fused : Bool) (rate : F64) :
    1 - (1 - 9164127786790442472 / 2 ^ 63) ≤ prob 1 (fun w => ∃ r rest, exponential lib fused rate tape 1 w = .ok (r, rest)) := by
  have h := one_suffices _ (reads_exponential lib fused rate 1)
  rw [C101_exponential_one lib fused rate 0 0] at h
  linarith

theorem norm_one (lib : MathLib) (fused fused' : Bool) (mean stddev : F64) :
    1 - (1 - 18367855343147684327 / 2 ^ 64) ≤ prob 1 (fun w => ∃ r rest, normal lib fused fused' mean stddev tape 1 w = .ok (r, rest)) := by
  have h := one_suffices _ (reads_normal lib fused fused' mean stddev 1)
  rw [C101_normal_one lib fused fused' mean stddev 0 0] at h
  linarith

theorem norm_four (lib : MathLib) (hl : LogOk lib) (he : ExpOk lib) (fused fused' : Bool) (mean stddev : F64) :
    1 - 1 / 2 ^ 13 ≤ prob 4 (fun w => ∃ r rest, normal lib fused fused' mean stddev tape 2 w = .ok (r, rest)) := by
  have e : prob 4 (fun w => ∃ r rest, normal lib fused fused' mean stddev tape 2 w = .ok (r, rest)) =
      gives (normalZig lib) fused (fun _ => True) 2 := by
    refine prob_congr fun w _ => ?_
    have := normal_event lib fused fused' mean stddev (fun _ => True) 2 w
    simpa only [and_true] using this
  rw [e]
  linarith [norm_returns_two lib hl he fused]

end

/-- C111: over a period of MT64, exponential variates follow their distribution up to `2^-30`. -/
theorem C111_exponential_MT64 (g : MT64) (hg : g.Alive) (hi : g.Begun) : ExponentialOver MT64.uint64 MT64.source g (2 ^ 19937 - 1) (1 / 2 ^ 30) :=
  exponential_over (C108_MT64 g hg hi) (by decide) 310 155 (by decide) (by decide) ((1 / 256) ^ 155) _ (by norm_num)
    fun lib he fused rate => C70_returns lib he fused rate 155

/-- C111: over a period of MT64, normal variates follow their distribution up to `2^-30`. -/
theorem C111_normal_MT64 (g : MT64) (hg : g.Alive) (hi : g.Begun) : NormalOver MT64.uint64 MT64.source g (2 ^ 19937 - 1) (1 / 2 ^ 30) :=
  normal_over (C108_MT64 g hg hi) (by decide) 310 155 (by decide) (by decide) ((1 / 16) ^ 155) _ (by norm_num)
    fun lib hl he fused fused' mean stddev => C71_returns lib hl he fused fused' mean stddev 155

/-- C111: over a period of Xoshiro, exponential variates follow their distribution up to `2^-15`. -/
theorem C111_exponential_Xoshiro (g : Xoshiro) (hg : g ≠ ⟨0#64, 0#64, 0#64, 0#64⟩) :
    ExponentialOver Xoshiro.uint64 Xoshiro.source g (2 ^ 256 - 1) (1 / 2 ^ 15) :=
  exponential_over (C108_Xoshiro g hg) (by decide) 4 2 (by decide) (by decide) ((1 / 256) ^ 2) _ (by norm_num)
    fun lib he fused rate => C70_returns lib he fused rate 2

/-- C111: over a period of Xoshiro, normal variates follow their distribution up to `2^-12`. -/
theorem C111_normal_Xoshiro (g : Xoshiro) (hg : g ≠ ⟨0#64, 0#64, 0#64, 0#64⟩) :
    NormalOver Xoshiro.uint64 Xoshiro.source g (2 ^ 256 - 1) (1 / 2 ^ 12) :=
  normal_over (C108_Xoshiro g hg) (by decide) 4 2 (by decide) (by decide) (1 / 2 ^ 13) _ (by norm_num) norm_four

/-- C111: over a period of Xoroshiro and of Rexoroshiro, exponential variates follow their distribution up to 0.0065, normal ones up to 0.0043. -/
theorem C111_Xoroshiro (g : Xoroshiro) (hg : g ≠ ⟨0#64, 0#64⟩) :
    ExponentialOver Xoroshiro.uint64 Xoroshiro.source g (2 ^ 128 - 1) 0.0065 ∧ NormalOver Xoroshiro.uint64 Xoroshiro.source g (2 ^ 128 - 1) 0.0043 :=
  ⟨exponential_over (C108_Xoroshiro g hg) (by decide) 1 1 (by decide) (by decide) (1 - 9164127786790442472 / 2 ^ 63) _ (by norm_num)
      fun lib _ fused rate => expo_one lib fused rate,
    normal_over (C108_Xoroshiro g hg) (by decide) 1 1 (by decide) (by decide) (1 - 18367855343147684327 / 2 ^ 64) _ (by norm_num)
      fun lib _ _ fused fused' mean stddev => norm_one lib fused fused' mean stddev⟩

theorem C111_Rexoroshiro (g : Rexoroshiro) (hg : g ≠ ⟨⟨0#64, 0#64⟩⟩) :
    ExponentialOver Rexoroshiro.uint64 Rexoroshiro.source g (2 ^ 128 - 1) 0.0065 ∧
      NormalOver Rexoroshiro.uint64 Rexoroshiro.source g (2 ^ 128 - 1) 0.0043 :=
  ⟨exponential_over (C108_Rexoroshiro g hg) (by decide) 1 1 (by decide) (by decide) (1 - 9164127786790442472 / 2 ^ 63) _ (by norm_num)
      fun lib _ fused rate => expo_one lib fused rate,
    normal_over (C108_Rexoroshiro g hg) (by decide) 1 1 (by decide) (by decide) (1 - 18367855343147684327 / 2 ^ 64) _ (by norm_num)
      fun lib _ _ fused fused' mean stddev => norm_one lib fused fused' mean stddev⟩

set_option exponentiation.threshold 2200 in
/-- Non-vacuity: with rate 1, in the period of a Xoshiro after `Seed(x)`, a number up to `ln 2` comes from half of the states up to `2^-15`. -/
example (x : U64) (g : Xoshiro) : ∃ lib s, g.seed x = .ok s ∧ |shareOf Xoshiro.uint64 s (2 ^ 256 - 1)
    (ReturnsSome (exponential lib true (F64.ofNat 1) Xoshiro.source) (AtMost (Real.log 2))) - 1 / 2| ≤ 1 / 2 ^ 15 := by
  obtain ⟨lib, hl, he⟩ := mathLib_exists
  obtain ⟨s, h1, h2⟩ := C51_Xoshiro_Seed_alive x g
  refine ⟨lib, s, h1, ?_⟩
  have h := C111_exponential_Xoshiro s h2 lib hl he true (F64.ofNat 1) rate_one.1 (by rw [rate_one.2]; norm_num) (by rw [rate_one.2]; norm_num)
    (Real.log 2) (Real.log_nonneg (by norm_num))
  rw [rate_one.2, one_mul, Real.exp_neg, Real.exp_log (by norm_num)] at h
  have h3 : (1 : ℝ) - 2⁻¹ = 1 / 2 := by norm_num
  rwa [h3] at h

end Crazy
