/-
C123: samples drawn from the states of a whole period.
-/
import Verif.Spec.PeriodSample
import Verif.Props.PeriodCalls
import Verif.Props.Histogram
namespace Crazy
open ProbabilityTheory

section
variable {σ τ α : Type} {R : σ → τ → Prop}

theorem sim_results {next : σ → Go (α × σ)} {next' : τ → Go (α × τ)} (h : SimR R next next') (n : Nat) : SimR R (results next n) (results next' n) := by
  induction n with
  | zero => exact SimR.pure []
  | succ n ih =>
    exact h.bind (k := fun x s => results next n s >>= fun q => .ok (x :: q.1, q.2)) (l := fun x s => results next' n s >>= fun q => .ok (x :: q.1, q.2))
      fun x => ih.bind (k := fun xs s => .ok (x :: xs, s)) (l := fun xs s => .ok (x :: xs, s)) fun _ => SimR.pure _

end

section
variable {σ α : Type}

theorem of_sim {src : Source σ} {c : List U64 → Go (α × List U64)} {d : σ → Go (α × σ)} (hsim : ∀ s', SimR (Ahead src s') c d) (l : Nat) (t : σ)
    (ws : List U64) (t' : σ) (r : α) (rest : List U64) (h1 : draws (RNG.uint64 src) l t = .ok (ws, t')) (h2 : c ws = .ok (r, rest)) :
    ∃ s1, d t = .ok (r, s1) := by
  have hlen : ws.length = l := draws_length h1
  obtain ⟨s1, h4, -⟩ := hsim t' ws t (by rw [Ahead, hlen]; exact h1) r rest h2
  exact ⟨s1, h4⟩

/-- What holds of a call on ideal words with a probability of `1 - β` holds from all but a share of `β` of the states, and one state. -/
theorem most_states {next : σ → Go (U64 × σ)} {src : Source σ} {s : σ} {N D l : Nat} (h : EvenReads next src s N D) (hl : l ≤ D) (h64 : 64 * l ≤ N)
    (hN : 0 < N) (c : List U64 → Go (α × List U64)) (d : Nat → σ → Go (α × σ)) (f : Nat)
    (hsim : ∀ t ws t' r rest, draws (RNG.uint64 src) l t = .ok (ws, t') → c ws = .ok (r, rest) → ∃ s1, d f t = .ok (r, s1)) (G : α → Prop) (β : ℝ)
    (hβ : prob l (fun w => ¬ ∃ r rest, c w = .ok (r, rest) ∧ G r) ≤ β) :
    1 - β - 1 / ((2 ^ N - 1 : Nat) : ℝ) ≤ shareOf next s (2 ^ N - 1) (ReturnsSome d G) := by
  classical
  obtain ⟨p, hp⟩ : ∃ p, p = prob l (fun w => ∃ r rest, c w = .ok (r, rest) ∧ G r) := ⟨_, rfl⟩
  have hpβ : 1 - β ≤ p := by
    have := prob_not l fun w => ∃ r rest, c w = .ok (r, rest) ∧ G r
    rw [hp]
    linarith
  have hp0 : 0 ≤ p := by rw [hp]; exact prob_nonneg _ _
  have e := h.words l hl (fun ws => ∃ r rest, c ws = .ok (r, rest) ∧ G r)
  have e1 : ((2 ^ N - 1 : Nat) + 1 : ℝ) = 2 ^ N := by
    have := Nat.one_le_two_pow (n := N)
    rw [← Nat.cast_one (R := ℝ), ← Nat.cast_add, Nat.sub_add_cancel this]
    push_cast
    rfl
  have e2 : (2 : ℝ) ^ N * p = ((2 ^ (N - 64 * l) * Nat.card {ws : List U64 // ws.length = l ∧ ∃ r rest, c ws = .ok (r, rest) ∧ G r} : Nat) : ℝ) := by
    rw [hp, prob_eq]
    unfold tapes
    push_cast
    have : (2 : ℝ) ^ N = 2 ^ (N - 64 * l) * (2 ^ 64) ^ l := by rw [← pow_mul, ← pow_add, Nat.sub_add_cancel h64]
    rw [this]
    have hne : ((2 : ℝ) ^ 64) ^ l ≠ 0 := by positivity
    field_simp
  have hcount : ((2 ^ N - 1 : Nat) + 1 : ℝ) * p - 1 ≤
      (places next s (2 ^ N - 1) (fun t => ∃ ws t', draws (RNG.uint64 src) l t = .ok (ws, t') ∧ ∃ r rest, c ws = .ok (r, rest) ∧ G r) : ℝ) := by
    rw [e1, e2, ← e]
    push_cast
    have : (if ∃ r rest, c (List.replicate l 0#64) = .ok (r, rest) ∧ G r then (1 : ℝ) else 0) ≤ 1 := by split <;> norm_num
    linarith
  have hlow := hcount.trans (Nat.cast_le.mpr (places_mono next s (2 ^ N - 1) (B := ReturnsSome d G) (by
    rintro t ⟨ws, t', h1, r, rest, h2, h3⟩
    obtain ⟨s1, h4⟩ := hsim t ws t' r rest h1 h2
    exact ⟨f, r, s1, h4, h3⟩)))
  have hM : (0 : ℝ) < ((2 ^ N - 1 : Nat) : ℝ) := by
    have := Nat.one_lt_two_pow hN.ne'
    exact Nat.cast_pos.mpr (by omega)
  unfold shareOf
  clear e e1 e2 hcount
  generalize ((2 ^ N - 1 : Nat) : ℝ) = M at *
  rw [le_div_iff₀ hM, sub_mul, one_div, inv_mul_cancel₀ hM.ne']
  have := mul_le_mul_of_nonneg_right hpβ hM.le
  linarith

theorem prob_uintn_word (max : U64) (h0 : max ≠ 0#64) :
    1 - max.toNat / 2 ^ 64 ≤ prob 1 (fun w => ∃ r rest, RNG.uintn tape 0 max w = .ok (r, rest)) := by
  have h := lawDraws_most max h0 1
  have e : prob 1 (fun w => ∃ js rest, draws (RNG.uintn tape 0 max) 1 w = .ok (js, rest)) = prob 1 (fun w => ∃ r rest, RNG.uintn tape 0 max w = .ok (r, rest)) :=
    prob_congr fun w _ => by
      rw [draws]
      cases RNG.uintn tape 0 max w with
      | error e =>
        constructor
        · rintro ⟨_, _, h⟩; cases h
        · rintro ⟨_, _, h⟩; cases h
      | ok q => exact ⟨fun _ => ⟨_, _, rfl⟩, fun _ => ⟨_, _, rfl⟩⟩
  rw [e, Nat.cast_one, one_mul, sub_div] at h
  have : (0 : ℝ) ≤ 1 / 2 ^ 64 := by positivity
  linarith

theorem prob_uintn_value (max : U64) (h0 : max ≠ 0#64) (j : Nat) (hj : j < max.toNat) :
    |prob 1 (fun w => ∃ r rest, RNG.uintn tape 0 max w = .ok (r, rest) ∧ r.toNat = j) - 1 / max.toNat| ≤ (max.toNat + 2) / 2 ^ 64 := by
  obtain ⟨h1, h2, -⟩ := tape_close (l := 1) (f := 0) (fun n => RNG.uintn tape n max) (fun n n' hn => sim_uintn max (sim_self _) n n' hn) (fun n => n + 1)
    (fun n _ => by omega) (fun n => reads_uintn n max) (fun r => r.toNat = j) (1 / max.toNat) (1 / 2 ^ 63) (max.toNat / 2 ^ 64) (1 / 2) 1 (by norm_num) (by norm_num)
    zero_le_one (fun n => by
      have e := C73_uintn n max h0 (· = j)
      rw [show ((Finset.range max.toNat).filter (· = j)) = {j} by
        ext x
        rw [Finset.mem_filter, Finset.mem_singleton, Finset.mem_range]
        exact ⟨fun h => h.2, fun h => ⟨h ▸ hj, h⟩⟩, Finset.card_singleton, Nat.cast_one] at e
      refine e.trans (add_le_add le_rfl ?_)
      rw [one_mul, one_div_pow]
      exact one_div_le_one_div_of_le (by positivity) (pow_le_pow_right₀ (by norm_num) (by omega))) (prob_uintn_word max h0)
  have e63 : (1 : ℝ) / 2 ^ 63 = 2 / 2 ^ 64 := by norm_num
  rw [e63] at h1 h2
  have h3 : (0 : ℝ) ≤ max.toNat / 2 ^ 64 := by positivity
  rw [add_div, abs_le]
  constructor <;> linarith

theorem samples_over {next : σ → Go (U64 × σ)} {src : Source σ} {s : σ} {N D : Nat} (h : EvenReads next src s N D) (hN : 0 < N) (h64 : 64 * D ≤ N) :
    SamplesOver next src s N D where
  integral f hf L hL n hn hD ε hε :=
    most_states h hD (by omega) hN _ _ 0 (of_sim (fun s' => sim_results (sim_tape_uniform01 src s') n) _) _ _ (C118_integral f hf L hL n hn ε hε)
  uniform01 n hn hD k hk ε hε :=
    most_states h hD (by omega) hN _ _ 0 (of_sim (fun s' => sim_results (sim_tape_uniform01 src s') n) _) _ _ (C120_uniform01 n hn k hk ε hε)
  uintn max h0 n hn hD ε hε := by
    refine most_states h hD (by omega) hN (results (RNG.uintn tape 0 max) n) _ 0
      (of_sim (fun s' => sim_results (sim_uintn max (sim_tape_uint64 src s') 0 0 le_rfl) n) _) _ _ ?_
    have h1 := C120_sets (RNG.uintn tape 0 max) 1 (fun P => LibCall.uintn 0 max P) max.toNat (fun j r => r.toNat = j) n hn ε hε
    rw [Nat.mul_one] at h1
    refine (prob_mono fun w _ h' => ?_).trans (h1.trans (add_le_add le_rfl (mul_le_mul_of_nonneg_left ?_ (Nat.cast_nonneg _))))
    · rintro ⟨l, rest, h2, h3⟩
      refine h' ⟨l, rest, h2, fun j hj => ?_⟩
      have h4 := prob_uintn_value max h0 j hj
      have h5 := h3 j hj
      have := abs_sub_le (shareIn (fun r : U64 => r.toNat = j) l) (prob 1 fun w => ∃ r rest, RNG.uintn tape 0 max w = .ok (r, rest) ∧ r.toNat = j) (1 / max.toNat)
      linarith
    · linarith [prob_uintn_word max h0]
  exponential lib hl he fused rate hrate h1 h2 r n hn hD k hk ε hε :=
    most_states h hD (by omega) hN _ _ r (of_sim (fun s' => sim_results (sim_exponential lib fused rate (sim_tape_uint64 src s') (sim_tape_uniform01 src s') r r le_rfl) n) _) _ _
      (C120_exponential lib hl he fused rate hrate h1 h2 r n hn k hk ε hε)
  normal lib hl he fused fused' mean stddev hm hm1 hs hs0 hs1 r n hn hD k hk ε hε :=
    most_states h hD (by omega) hN _ _ r
      (of_sim (fun s' => sim_results (sim_normal lib fused fused' mean stddev (sim_tape_uint64 src s') (sim_tape_uniform01 src s') r r le_rfl) n) _) _ _
      (C120_normal lib hl he fused fused' mean stddev hm hm1 hs hs0 hs1 r n hn k hk ε hε)

end

/-- C123: samples that take up to 311 words from the states of a period of MT64. -/
theorem C123_MT64 (g : MT64) (hg : g.Alive) (hi : g.Begun) : SamplesOver MT64.uint64 MT64.source g 19937 311 :=
  samples_over (C108_MT64 g hg hi) (by decide) (by decide)

/-- C123: whatever holds of a call on ideal words with a probability of at least `1 - β` holds from all but a share of `β` of the states of a
period of MT64, and one state: `d` does on the generator what `c` does on the words. -/
theorem C123_MT64_transfer {α : Type} (g : MT64) (hg : g.Alive) (hi : g.Begun) (l : Nat) (hl : l ≤ 311) (c : List U64 → Go (α × List U64))
    (d : MT64 → Go (α × MT64))
    (hsim : ∀ t ws t' r rest, draws (RNG.uint64 MT64.source) l t = .ok (ws, t') → c ws = .ok (r, rest) → ∃ t'', d t = .ok (r, t''))
    (G : α → Prop) (β : ℝ) (hβ : prob l (fun w => ¬ ∃ r rest, c w = .ok (r, rest) ∧ G r) ≤ β) :
    1 - β - 1 / ((2 ^ 19937 - 1 : Nat) : ℝ) ≤ shareOf MT64.uint64 g (2 ^ 19937 - 1) (ReturnsSome (fun _ => d) G) :=
  most_states (C108_MT64 g hg hi) hl (by omega) (by decide) c (fun _ => d) 0 hsim G β hβ

/-! ### Non-vacuity -/

/-- 300 rolls of a die on an MT64 after `Seed(x)`: from 96 percent of the states of its period every number comes between a sixth plus and minus
0.11 of the time. -/
example (x : U64) (g : MT64) : ∃ s, g.seed x = .ok s ∧ 0.96 ≤ shareOf MT64.uint64 s (2 ^ 19937 - 1)
    (ReturnsSome (fun retries => results (RNG.uintn MT64.source retries 6#64) 300) fun l => ∀ j < 6, |shareIn (fun r : U64 => r.toNat = j) l - 1 / 6| < 0.11) := by
  obtain ⟨s, h1, h2, h3⟩ := C61_MT64_Seed_alive x g
  refine ⟨s, h1, ?_⟩
  have h := (C123_MT64 s h2 h3).uintn 6#64 (by decide) 300 (by decide) (by decide) 0.1 (by norm_num)
  have e6 : (6#64).toNat = 6 := rfl
  rw [e6] at h
  unfold GoodSamples at h
  have hi := inv_period (N := 19937) (by decide)
  have hmono : shareOf MT64.uint64 s (2 ^ 19937 - 1) (ReturnsSome (fun retries => results (RNG.uintn MT64.source retries 6#64) 300) fun l =>
        ∀ j < 6, |shareIn (fun r : U64 => r.toNat = j) l - 1 / (6 : Nat)| < 0.1 + ((6 : Nat) + 2) / 2 ^ 64) ≤
      shareOf MT64.uint64 s (2 ^ 19937 - 1) (ReturnsSome (fun retries => results (RNG.uintn MT64.source retries 6#64) 300) fun l =>
        ∀ j < 6, |shareIn (fun r : U64 => r.toNat = j) l - 1 / 6| < 0.11) :=
    div_le_div_of_nonneg_right (Nat.cast_le.mpr (places_mono _ _ _ (by
      rintro t ⟨n, l, t', h4, h5⟩
      refine ⟨n, l, t', h4, fun j hj => ?_⟩
      have h6 := h5 j hj
      rw [Nat.cast_ofNat] at h6
      exact h6.trans (by norm_num)))) (Nat.cast_nonneg _)
  refine le_trans ?_ hmono
  refine le_trans ?_ h
  have he : Real.exp (-(2 * (300 : Nat) * (0.1 : ℝ) ^ 2)) ≤ 1 / 384 := by
    have h1 : Real.exp (-6) ≤ 1 / 384 := by
      have : (384 : ℝ) ≤ Real.exp 6 := by
        have h2 : (2.7 : ℝ) ≤ Real.exp 1 := by linarith [Real.exp_one_gt_d9]
        have h3 : Real.exp 6 = Real.exp 1 ^ 6 := by rw [← Real.exp_nat_mul]; norm_num
        rw [h3]
        exact le_trans (by norm_num) (pow_le_pow_left₀ (by norm_num) h2 6)
      rw [Real.exp_neg, ← one_div]
      exact one_div_le_one_div_of_le (by norm_num) this
    refine le_trans (le_of_eq ?_) h1
    norm_num
  generalize 1 / ((2 ^ 19937 - 1 : Nat) : ℝ) = y at *
  generalize Real.exp (-(2 * (300 : Nat) * (0.1 : ℝ) ^ 2)) = e at *
  clear h hmono
  rw [Nat.cast_ofNat, Nat.cast_ofNat]
  have : (300 : ℝ) * (6 / 2 ^ 64) ≤ 1 / 2 ^ 50 := by norm_num
  have : (1 : ℝ) / 2 ^ 50 ≤ 0.0001 := by norm_num
  have : (1 : ℝ) / 2 ^ 127 ≤ 0.0001 := by norm_num
  have : (1 : ℝ) / 384 ≤ 0.00261 := by norm_num
  linarith

end Crazy
