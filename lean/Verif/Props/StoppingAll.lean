/-
C115, several yielders: how soon they stop, when `select` chooses at random.
-/
import Verif.Spec.StoppingAll
import Verif.Props.Stopping
import Verif.Props.Yielders
import Mathlib.Data.Nat.Choose.Sum
namespace Crazy
namespace Yield

variable {ι : Type} [DecidableEq ι] {σ : ι → Type} {α : Type}

theorem MSteps.trans' {next : (i : ι) → σ i → Go (α × σ i)} {s t u : Multi ι σ α} (h : MSteps next s t) (h' : MSteps next t u) : MSteps next s u := by
  induction h' with
  | refl => exact h
  | own _ h2 ih => exact ih.own h2
  | other _ h2 ih => exact ih.other h2

theorem MSteps.one' {next : (i : ι) → σ i → Go (α × σ i)} {s t : Multi ι σ α} (h : Own next s t ∨ Other s t) : MSteps next s t :=
  h.elim (fun h => (MSteps.refl s).own h) fun h => (MSteps.refl s).other h

theorem QuietAll.msteps {next : (i : ι) → σ i → Go (α × σ i)} {s t : Multi ι σ α} (h : QuietAll next s t) : MSteps next s t := by
  induction h with
  | refl => exact .refl _
  | snoc _ h2 _ ih => exact ih.trans' (.one' h2)

theorem live_update (s t : Multi ι σ α) (i : ι) (p : Phase α) (ht : t.phase = Function.update s.phase i p) (hs : s.Live i) (j : ι)
    (h : t.Live j) : s.Live j := by
  by_cases hj : j = i
  · exact hj ▸ hs
  · unfold Multi.Live at *
    rwa [ht, Function.update_of_ne hj] at h

/-- Nobody comes to life. -/
theorem step_live {next : (i : ι) → σ i → Go (α × σ i)} {s t : Multi ι σ α} (h : Own next s t ∨ Other s t) (j : ι) (hj : t.Live j) : s.Live j := by
  rcases h with h | h
  · cases h with
    | draw i v w h hn => exact live_update s _ i _ rfl (.inl h) j hj
    | drawPanic i e h hn => exact live_update s _ i _ rfl (.inl h) j hj
    | sendBuf i v c h => exact live_update s _ i _ rfl (.inr ⟨v, h⟩) j hj
    | sendClosed i v c h => exact live_update s _ i _ rfl (.inr ⟨v, h⟩) j hj
    | stop i v h => exact live_update s _ i _ rfl (.inr ⟨v, h⟩) j hj
  · cases h with
    | sendDirect i v c k h => exact live_update s _ i _ rfl (.inr ⟨v, h⟩) j hj
    | recv => exact hj
    | envSend => exact hj
    | envDirect => exact hj
    | envClose => exact hj
    | quitSend => exact hj
    | quitClose => exact hj
    | quitTake => exact hj

theorem step_sent {next : (i : ι) → σ i → Go (α × σ i)} {s t : Multi ι σ α} (h : Own next s t ∨ Other s t) : t.sent ≤ s.sent + 1 := by
  rcases h with h | h
  · cases h with
    | draw => exact Nat.le_succ _
    | drawPanic => exact Nat.le_succ _
    | sendBuf i v c h => simp [Multi.sent]; omega
    | sendClosed => exact Nat.le_succ _
    | stop => exact Nat.le_succ _
  · cases h with
    | sendDirect i v c k h hc ho hb => simp [Multi.sent, hb]
    | recv k x r hb => simp [Multi.sent, hb]
    | envSend => simp [Multi.sent]
    | envDirect v k c hc ho hb => simp [Multi.sent, hb]
    | envClose => exact Nat.le_succ _
    | quitSend => exact Nat.le_succ _
    | quitClose => exact Nat.le_succ _
    | quitTake => exact Nat.le_succ _

theorem update_ne_self {s : ι → Phase α} {i : ι} {v : α} {p : Phase α} (h : s i = .offer v) (hp : p ≠ .offer v)
    (hq : ∀ j w, s j = .offer w → Function.update s i p j = .offer w) : False := by
  have := hq i v h
  rw [Function.update_self] at this
  exact hp this

/-- Between selects nothing is sent by the yielders. -/
theorem quietAll_sent {next : (i : ι) → σ i → Go (α × σ i)} {s t : Multi ι σ α} (h : QuietAll next s t) : t.sent = s.sent := by
  induction h with
  | refl => rfl
  | snoc _ h2 hp ih =>
    rw [← ih]
    rcases h2 with h2 | h2
    · cases h2 with
      | draw => rfl
      | drawPanic => rfl
      | sendBuf i v c h => exact (update_ne_self h (by simp) hp).elim
      | sendClosed i v c h => exact (update_ne_self h (by simp) hp).elim
      | stop i v h => exact (update_ne_self h (by simp) hp).elim
    · cases h2 with
      | sendDirect i v c k h => exact (update_ne_self h (by simp) hp).elim
      | recv k x r hb => simp [Multi.sent, hb]
      | envSend => simp [Multi.sent]
      | envDirect v k c hc ho hb => simp [Multi.sent, hb]
      | envClose => rfl
      | quitSend => rfl
      | quitClose => rfl
      | quitTake => rfl

theorem quietAll_live {next : (i : ι) → σ i → Go (α × σ i)} {s t : Multi ι σ α} (h : QuietAll next s t) (j : ι) (hj : t.Live j) : s.Live j := by
  induction h with
  | refl => exact hj
  | snoc _ h2 _ ih => exact ih (step_live h2 j hj)

section
variable [Fintype ι]

omit [DecidableEq ι] in
theorem live_le {s t : Multi ι σ α} (h : ∀ j, t.Live j → s.Live j) : t.live ≤ s.live := by
  classical
  exact Finset.card_le_card fun j => by simpa using h j

omit [DecidableEq ι] in
theorem live_lt {s t : Multi ι σ α} (h : ∀ j, t.Live j → s.Live j) (i : ι) (hs : s.Live i) (ht : ¬ t.Live i) : t.live < s.live := by
  classical
  refine Finset.card_lt_card ⟨fun j => by simpa using h j, fun hh => ht ?_⟩
  simpa using hh (by simpa using hs : i ∈ Finset.univ.filter fun i => s.Live i)

theorem quitNow_own (next : (i : ι) → σ i → Go (α × σ i)) (a : Multi ι σ α) (i : ι) (v : α) (h : a.phase i = .offer v) (hq : a.quitReady) :
    Own next a (a.quitNow i) ∧ (a.quitNow i).phase i = .stopped v ∧ (a.quitNow i).sent = a.sent ∧ (a.quitNow i).live + 1 ≤ a.live := by
  have e : a.quitNow i = { a with phase := Function.update a.phase i (.stopped v), quitPending := a.quitPending.map fun n => n - 1 } := by
    simp [Multi.quitNow, h]
  have ho : Own next a (a.quitNow i) := e ▸ .stop a i v h hq
  have hp : (a.quitNow i).phase i = .stopped v := by rw [e]; exact Function.update_self ..
  refine ⟨ho, hp, by rw [e]; rfl, live_lt (step_live (.inl ho)) i (.inr ⟨v, h⟩) ?_⟩
  unfold Multi.Live
  rw [hp]
  simp

/-- What one select does to the count of values sent and of yielders left. -/
theorem select_step (next : (i : ι) → σ i → Go (α × σ i)) (sch : SchedulerAll ι σ α) (hl : sch.Legal next) (past : List (Multi ι σ α))
    (s : Multi ι σ α) (i : ι) (a : Multi ι σ α) (o : Option (Multi ι σ α)) (h : sch past s = some (i, a, o)) :
    0 < s.live ∧ MSteps next s (a.quitNow i) ∧ (a.quitNow i).sent = s.sent ∧ (a.quitNow i).live + 1 ≤ s.live ∧
      MSteps next s (o.getD (a.quitNow i)) ∧ (o.getD (a.quitNow i)).sent ≤ s.sent + 1 ∧ (o.getD (a.quitNow i)).live ≤ s.live := by
  obtain ⟨hq, ⟨v, hv⟩, hr, hu⟩ := hl past s i a o h
  obtain ⟨h1, _, h3, h4⟩ := quitNow_own next a i v hv hr
  have h5 := live_le (quietAll_live hq)
  have h6 := quietAll_sent hq
  refine ⟨by omega, hq.msteps.own h1, by omega, by omega, ?_⟩
  rcases o with _ | u
  · exact ⟨hq.msteps.own h1, by simp only [Option.getD_none]; omega, by simp only [Option.getD_none]; omega⟩
  · obtain ⟨h7, _⟩ := hu u rfl
    have h8 := step_sent h7
    have h9 := live_le (step_live h7)
    exact ⟨hq.msteps.trans' (.one' h7), by simp only [Option.getD_some]; omega, by simp only [Option.getD_some]; omega⟩

/-- **C115**: whatever the coins, the run is one of the system of all the yielders. -/
theorem C115_all_runs (next : (i : ι) → σ i → Go (α × σ i)) (sch : SchedulerAll ι σ α) (hl : sch.Legal next) (cs : List Bool)
    (past : List (Multi ι σ α)) (s : Multi ι σ α) : MSteps next s (sch.play cs past s).state := by
  induction cs generalizing past s with
  | nil => exact .refl _
  | cons c cs ih =>
    unfold SchedulerAll.play
    rcases hr : sch past s with _ | ⟨i, a, o⟩
    · exact .refl _
    · obtain ⟨_, h1, _, _, h2, _⟩ := select_step next sch hl past s i a o hr
      dsimp only
      cases c with
      | true => exact h1.trans' (ih _ _)
      | false => exact h2.trans' (ih _ _)

/-- To send `j + 1` values, `j + 1` coins must be lost before each yielder has won one. -/
theorem playAll_sent (next : (i : ι) → σ i → Go (α × σ i)) (sch : SchedulerAll ι σ α) (hl : sch.Legal next) (cs : List Bool)
    (past : List (Multi ι σ α)) (s : Multi ι σ α) (j : Nat) (h : s.sent + (j + 1) ≤ (sch.play cs past s).state.sent) :
    ∃ p r, cs = p ++ r ∧ p.count false = j + 1 ∧ p.count true < s.live := by
  induction cs generalizing past s j with
  | nil =>
    have : (sch.play [] past s).state.sent = s.sent := rfl
    omega
  | cons c cs ih =>
    unfold SchedulerAll.play at h
    rcases hr : sch past s with _ | ⟨i, a, o⟩
    · rw [hr] at h
      simp only [OutcomeAll.state] at h
      omega
    · obtain ⟨h0, _, h1, h2, _, h3, h4⟩ := select_step next sch hl past s i a o hr
      rw [hr] at h
      dsimp only at h
      cases c with
      | true =>
        simp only [if_true] at h
        obtain ⟨p, r, e, hp, hp'⟩ := ih _ _ j (by rw [h1]; exact h)
        exact ⟨true :: p, r, by rw [e]; rfl, by simpa using hp, by simp only [List.count_cons_self]; omega⟩
      | false =>
        simp only [Bool.false_eq_true, if_false] at h
        rcases j with _ | j
        · exact ⟨[false], cs, rfl, rfl, by simpa using h0⟩
        · obtain ⟨p, r, e, hp, hp'⟩ := ih (s :: past) (o.getD (a.quitNow i)) j (by omega)
          refine ⟨false :: p, r, by rw [e]; rfl, by simp only [List.count_cons_self]; omega, ?_⟩
          have e' : (false :: p).count true = p.count true := by simp
          omega

theorem playAll_tossed (next : (i : ι) → σ i → Go (α × σ i)) (sch : SchedulerAll ι σ α) (hl : sch.Legal next) (cs : List Bool)
    (past : List (Multi ι σ α)) (s t : Multi ι σ α) (h : sch.play cs past s = .tossed t) : cs.count true + t.live ≤ s.live := by
  induction cs generalizing past s with
  | nil =>
    unfold SchedulerAll.play at h
    simp only [OutcomeAll.tossed.injEq] at h
    subst h
    simp
  | cons c cs ih =>
    unfold SchedulerAll.play at h
    rcases hr : sch past s with _ | ⟨i, a, o⟩
    · rw [hr] at h; simp at h
    · obtain ⟨h0, _, h1, h2, _, h3, h4⟩ := select_step next sch hl past s i a o hr
      rw [hr] at h
      dsimp only at h
      cases c with
      | true =>
        simp only [if_true] at h
        have := ih _ _ h
        simp only [List.count_cons_self]
        omega
      | false =>
        simp only [Bool.false_eq_true, if_false] at h
        have := ih _ _ h
        have e' : (false :: cs).count true = cs.count true := by simp
        omega

theorem coinShare_mono (k : Nat) (P Q : List Bool → Prop) (h : ∀ cs, cs.length = k → P cs → Q cs) : coinShare k P ≤ coinShare k Q := by
  unfold coinShare
  have h1 : Nat.card {cs : List Bool // cs.length = k ∧ P cs} ≤ Nat.card {cs : List Bool // cs.length = k ∧ Q cs} :=
    Nat.card_le_card_of_injective (fun c => ⟨c.1, c.2.1, h c.1 c.2.1 c.2.2⟩) fun a b e => Subtype.ext (Subtype.mk.inj e)
  have h2 : (Nat.card {cs : List Bool // cs.length = k ∧ P cs} : ℝ) ≤ Nat.card {cs : List Bool // cs.length = k ∧ Q cs} := by exact_mod_cast h1
  exact div_le_div_of_nonneg_right h2 (by positivity)

/-- **C115**, several yielders: the probability that they send more than `j` more values, together, is at most that of more than `j` tails
before there has been a head for each of them. -/
theorem C115_all_sends (next : (i : ι) → σ i → Go (α × σ i)) (sch : SchedulerAll ι σ α) (hl : sch.Legal next) (s : Multi ι σ α) (k j : Nat) :
    coinShare k (fun cs => s.sent + (j + 1) ≤ (sch.play cs [] s).state.sent) ≤
      coinShare k (fun cs => ∃ p r, cs = p ++ r ∧ p.count false = j + 1 ∧ p.count true < s.live) :=
  coinShare_mono k _ _ fun cs _ h => playAll_sent next sch hl cs [] s j h

theorem card_heads (k m : Nat) : Nat.card {cs : List Bool // cs.length = k ∧ cs.count true < m} = ∑ i ∈ Finset.range m, k.choose i := by
  induction k generalizing m with
  | zero =>
    rcases m with _ | m
    · have : IsEmpty {cs : List Bool // cs.length = 0 ∧ cs.count true < 0} := ⟨fun c => by have := c.2.2; omega⟩
      rw [Nat.card_of_isEmpty]; rfl
    · have : Unique {cs : List Bool // cs.length = 0 ∧ cs.count true < m + 1} :=
        ⟨⟨⟨[], rfl, by simp⟩⟩, fun c => Subtype.ext (List.length_eq_zero_iff.1 c.2.1)⟩
      rw [Nat.card_unique, Finset.sum_range_succ']
      simp
  | succ k ih =>
    rcases m with _ | m
    · have : IsEmpty {cs : List Bool // cs.length = k + 1 ∧ cs.count true < 0} := ⟨fun c => by have := c.2.2; omega⟩
      rw [Nat.card_of_isEmpty]; rfl
    · have e : {cs : List Bool // cs.length = k + 1 ∧ cs.count true < m + 1} ≃
          {cs : List Bool // cs.length = k ∧ cs.count true < m} ⊕ {cs : List Bool // cs.length = k ∧ cs.count true < m + 1} :=
        ⟨fun c => match c with
            | ⟨true :: l, h⟩ => .inl ⟨l, by simpa using h⟩
            | ⟨false :: l, h⟩ => .inr ⟨l, by simpa using h⟩
            | ⟨[], h⟩ => absurd h.1 (by simp),
          fun x => match x with
            | .inl c => ⟨true :: c.1, by simpa using c.2⟩
            | .inr c => ⟨false :: c.1, by simpa using c.2⟩,
          fun c => match c with
            | ⟨true :: l, h⟩ => rfl
            | ⟨false :: l, h⟩ => rfl
            | ⟨[], h⟩ => absurd h.1 (by simp),
          fun x => match x with
            | .inl c => rfl
            | .inr c => rfl⟩
      rw [Nat.card_congr e, Nat.card_sum, ih m, ih (m + 1), Finset.sum_range_succ' _ m, Finset.sum_range_succ' _ m]
      simp only [Nat.choose_succ_succ, Nat.succ_eq_add_one, Finset.sum_add_distrib, Nat.choose_zero_right]
      omega

/-- **C115**, several yielders: of `m` of them some are left after `k` selects with probability at most that of fewer than `m` heads in `k` tosses. -/
theorem C115_all_stop (next : (i : ι) → σ i → Go (α × σ i)) (sch : SchedulerAll ι σ α) (hl : sch.Legal next) (s : Multi ι σ α) (k : Nat) :
    coinShare k (fun cs => ∃ t, sch.play cs [] s = .tossed t ∧ 0 < t.live) ≤ (∑ i ∈ Finset.range s.live, (k.choose i : ℝ)) / 2 ^ k := by
  have h1 := coinShare_mono k (fun cs => ∃ t, sch.play cs [] s = .tossed t ∧ 0 < t.live) (fun cs => cs.count true < s.live) (by
    rintro cs _ ⟨t, h, ht⟩
    have := playAll_tossed next sch hl cs [] s t h
    omega)
  have h2 : coinShare k (fun cs => cs.count true < s.live) = (∑ i ∈ Finset.range s.live, (k.choose i : ℝ)) / 2 ^ k := by
    unfold coinShare
    rw [card_heads]
    push_cast
    rfl
  exact h2 ▸ h1

theorem sumAll_sent (next : (i : ι) → σ i → Go (α × σ i)) (sch : SchedulerAll ι σ α) (hl : sch.Legal next) (k : Nat) (past : List (Multi ι σ α))
    (s : Multi ι σ α) :
    ((coins k).map fun cs => ((sch.play cs past s).state.sent : ℝ) - s.sent).sum ≤ 2 ^ k * s.live := by
  induction k generalizing past s with
  | zero => simp [coins, SchedulerAll.play, OutcomeAll.state]
  | succ k ih =>
    rw [coins, List.map_append, List.sum_append, List.map_map, List.map_map]
    rcases hr : sch past s with _ | ⟨i, a, o⟩
    · have hz : ∀ c : Bool, ((coins k).map ((fun cs => ((sch.play cs past s).state.sent : ℝ) - s.sent) ∘ (c :: ·))).sum = 0 := by
        intro c
        rw [List.map_congr_left (g := fun _ => (0 : ℝ))]
        · simp
        · intro cs _
          simp [SchedulerAll.play, hr, OutcomeAll.state]
      rw [hz, hz, add_zero]
      positivity
    · obtain ⟨h0, _, h1, h2, _, h3, h4⟩ := select_step next sch hl past s i a o hr
      have h5 : ∀ (c : Bool) (u : Multi ι σ α) (d : ℝ), (if c then a.quitNow i else o.getD (a.quitNow i)) = u → (u.sent : ℝ) ≤ s.sent + d →
          ((coins k).map ((fun cs => ((sch.play cs past s).state.sent : ℝ) - s.sent) ∘ (c :: ·))).sum ≤ 2 ^ k * u.live + 2 ^ k * d := by
        intro c u d hu hd
        have h6 : ((coins k).map ((fun cs => ((sch.play cs past s).state.sent : ℝ) - s.sent) ∘ (c :: ·))).sum ≤
            ((coins k).map fun cs => (((sch.play cs (s :: past) u).state.sent : ℝ) - u.sent) + d).sum := by
          refine List.sum_le_sum fun cs _ => ?_
          have e : sch.play (c :: cs) past s = sch.play cs (s :: past) u := by
            rw [SchedulerAll.play, hr]
            dsimp only
            rw [hu]
          simp only [Function.comp, e]
          linarith
        have h7 : ((coins k).map fun cs => (((sch.play cs (s :: past) u).state.sent : ℝ) - u.sent) + d).sum =
            ((coins k).map fun cs => (((sch.play cs (s :: past) u).state.sent : ℝ) - u.sent)).sum + 2 ^ k * d := by
          rw [List.sum_map_add]
          simp [coins_length]
        have h8 := ih (s :: past) u
        linarith
      have h6 := h5 true (a.quitNow i) 0 rfl (by rw [h1]; simp)
      have h7 := h5 false _ 1 rfl (by exact_mod_cast h3)
      have h8 : ((a.quitNow i).live : ℝ) + 1 ≤ s.live := by exact_mod_cast h2
      have h9 : ((o.getD (a.quitNow i)).live : ℝ) ≤ s.live := by exact_mod_cast h4
      have hp : (0 : ℝ) ≤ 2 ^ k := by positivity
      have h10 := mul_le_mul_of_nonneg_left h8 hp
      have h11 := mul_le_mul_of_nonneg_left h9 hp
      simp only [Bool.false_eq_true, if_false] at h7
      rw [pow_succ]
      linarith

/-- **C115**, several yielders: together they send, on average, at most one more value for each of them that is left. -/
theorem C115_all_mean (next : (i : ι) → σ i → Go (α × σ i)) (sch : SchedulerAll ι σ α) (hl : sch.Legal next) (s : Multi ι σ α) (k : Nat) :
    coinMean k (fun cs => ((sch.play cs [] s).state.sent : ℝ) - s.sent) ≤ s.live := by
  unfold coinMean
  rw [div_le_iff₀ (by positivity), mul_comm]
  exact sumAll_sent next sch hl k [] s

theorem live_ge {s t : Multi ι σ α} (i : ι) (h : ∀ j, j ≠ i → s.Live j → t.Live j) : s.live ≤ t.live + 1 := by
  classical
  unfold Multi.live
  refine (Finset.card_le_card (t := insert i (Finset.univ.filter fun i => t.Live i)) fun j hj => ?_).trans (Finset.card_insert_le _ _)
  have hj' : s.Live j := (Finset.mem_filter.1 hj).2
  by_cases e : j = i
  · exact Finset.mem_insert.2 (.inl e)
  · exact Finset.mem_insert.2 (.inr (Finset.mem_filter.2 ⟨Finset.mem_univ j, h j e hj'⟩))

omit [Fintype ι] in
theorem step_sent_ge {next : (i : ι) → σ i → Go (α × σ i)} {s t : Multi ι σ α} (h : MSteps next s t) : s.sent ≤ t.sent := by
  induction h with
  | refl => exact Nat.le_refl _
  | own _ h ih =>
    refine ih.trans ?_
    cases h with
    | sendBuf i v c h => simp [Multi.sent]
    | _ => exact Nat.le_refl _
  | other _ h ih =>
    refine ih.trans ?_
    cases h with
    | sendDirect i v c k h hc ho hb => simp [Multi.sent, hb]
    | recv k x r hb => simp [Multi.sent, hb]
    | envSend => simp [Multi.sent]
    | envDirect v k c hc ho hb => simp [Multi.sent, hb]
    | _ => exact Nat.le_refl _

/-- `over` is open and empty, `quit` is closed. -/
def Multi.Chans (s : Multi ι σ α) : Prop := s.cap.isSome ∧ s.closed = false ∧ s.buf = [] ∧ s.quitPending.isSome ∧ s.quitClosed = true

/-- Yielder `i` has computed its value. -/
def Multi.drawn (s : Multi ι σ α) (i : ι) (v : α) (w : σ i) : Multi ι σ α :=
  { s with phase := Function.update s.phase i (.offer v), src := Function.update s.src i w }

/-- Its value has been taken. -/
def Multi.taken (s : Multi ι σ α) (i : ι) (v : α) : Multi ι σ α :=
  { s with phase := Function.update s.phase i .top, recvd := s.recvd ++ [(0, some i, v)] }

open Classical in
/-- A receiver that is always there: some yielder computes its value, and at its select it is taken at once. -/
noncomputable def eagerAll (next : (i : ι) → σ i → Go (α × σ i)) : SchedulerAll ι σ α := fun _ s =>
  if h : ∃ x : (i : ι) × α × σ i, s.phase x.1 = .top ∧ next x.1 (s.src x.1) = .ok x.2 ∧ s.Chans then
    some (h.choose.1, s.drawn h.choose.1 h.choose.2.1 h.choose.2.2,
      some ((s.drawn h.choose.1 h.choose.2.1 h.choose.2.2).taken h.choose.1 h.choose.2.1))
  else none

omit [Fintype ι] in
theorem eagerAll_some (next : (i : ι) → σ i → Go (α × σ i)) (past : List (Multi ι σ α)) (s : Multi ι σ α) (r) (h : eagerAll next past s = some r) :
    ∃ i v w, s.phase i = .top ∧ next i (s.src i) = .ok (v, w) ∧ s.Chans ∧ r = (i, s.drawn i v w, some ((s.drawn i v w).taken i v)) := by
  unfold eagerAll at h
  split at h
  · rename_i hx
    obtain ⟨h1, h2, h3⟩ := hx.choose_spec
    exact ⟨_, _, _, h1, h2, h3, (Option.some.inj h).symm⟩
  · simp at h

omit [Fintype ι] in
theorem eagerAll_legal (next : (i : ι) → σ i → Go (α × σ i)) : (eagerAll next).Legal next := by
  intro past s i a o h
  obtain ⟨j, v, w, h1, h2, ⟨c1, c2, c3, c4, c5⟩, h3⟩ := eagerAll_some next past s _ h
  simp only [Prod.mk.injEq] at h3
  obtain ⟨rfl, rfl, rfl⟩ := h3
  obtain ⟨c, hc⟩ := Option.isSome_iff_exists.1 c1
  have hp : (s.drawn i v w).phase i = .offer v := Function.update_self ..
  refine ⟨(QuietAll.refl s).snoc (.inl (.draw s i v w h1 h2)) fun j x hj => ?_, ⟨v, hp⟩, .inr ⟨?_, c5⟩, ?_⟩
  · have : j ≠ i := fun e => by rw [e, h1] at hj; simp at hj
    exact (Function.update_of_ne this ..).trans hj
  · intro e
    have e' : s.quitPending = none := e
    rw [e'] at c4
    cases c4
  · intro u hu
    cases hu
    exact ⟨.inr (.sendDirect (s.drawn i v w) i v c 0 hp hc c2 c3), .inl (Function.update_self ..)⟩

/-- `eagerAll` goes on until all the yielders have returned, and a value is sent whenever a coin allows it. -/
theorem eagerAll_play (next : (i : ι) → σ i → Go (α × σ i)) (hn : ∀ i x, ∃ v w, next i x = .ok (v, w)) (cs : List Bool) (past : List (Multi ι σ α))
    (s : Multi ι σ α) (hp : ∀ i, s.phase i = .top ∨ ∃ v, s.phase i = .stopped v) (hc : s.Chans) :
    (cs.count true < s.live → ∃ t, (eagerAll next).play cs past s = .tossed t ∧ 0 < t.live) ∧
    ∀ p r j, cs = p ++ r → p.count false = j → (0 < j → p.count true < s.live) → s.sent + j ≤ ((eagerAll next).play cs past s).state.sent := by
  induction cs generalizing past s with
  | nil =>
    refine ⟨fun h => ⟨s, rfl, by simpa using h⟩, fun p r j h hj _ => ?_⟩
    obtain ⟨rfl, rfl⟩ := List.append_eq_nil_iff.1 h.symm
    simp only [List.count_nil] at hj
    subst hj
    exact Nat.le_refl _
  | cons c cs ih =>
    rcases Nat.eq_zero_or_pos s.live with h0 | h0
    · refine ⟨fun h => by omega, fun p r j h hj hl => ?_⟩
      have : j = 0 := by
        by_contra hne
        have := hl (by omega)
        omega
      subst this
      exact step_sent_ge (C115_all_runs next _ (eagerAll_legal next) _ past s)
    · obtain ⟨i0, hi0⟩ : ∃ i, s.Live i := by
        classical
        obtain ⟨i, hi⟩ := Finset.card_pos.1 h0
        exact ⟨i, by simpa using hi⟩
      have hi0' : s.phase i0 = .top := by
        rcases hp i0 with h | ⟨v, h⟩
        · exact h
        · unfold Multi.Live at hi0
          rw [h] at hi0
          simp at hi0
      obtain ⟨v0, w0, hv0⟩ := hn i0 (s.src i0)
      have hs : ∃ q, eagerAll next past s = some q := by
        unfold eagerAll
        rw [dif_pos ⟨⟨i0, v0, w0⟩, hi0', hv0, hc⟩]
        exact ⟨_, rfl⟩
      obtain ⟨q, hq⟩ := hs
      obtain ⟨i, v, w, h1, h2, _, rfl⟩ := eagerAll_some next past s _ hq
      -- the two states that can follow
      have hph : ((s.drawn i v w).taken i v).phase = s.phase := by
        show Function.update (Function.update s.phase i (.offer v)) i .top = s.phase
        rw [Function.update_idem, ← h1, Function.update_eq_self]
      have hsent : ((s.drawn i v w).taken i v).sent = s.sent + 1 := by
        have hb : s.buf = [] := hc.2.2.1
        simp [Multi.sent, Multi.taken, Multi.drawn, hb]
      have hlive : ((s.drawn i v w).taken i v).live = s.live := by
        unfold Multi.live Multi.Live
        rw [hph]
      have hqn : (s.drawn i v w).quitNow i = { s with
          phase := Function.update s.phase i (.stopped v), src := Function.update s.src i w, quitPending := s.quitPending.map fun n => n - 1 } := by
        have : (s.drawn i v w).phase i = .offer v := Function.update_self ..
        simp only [Multi.quitNow, this]
        simp [Multi.drawn, Function.update_idem]
      have hqs : ((s.drawn i v w).quitNow i).sent = s.sent := by rw [hqn]; rfl
      have hql : ((s.drawn i v w).quitNow i).live + 1 = s.live := by
        obtain ⟨_, _, _, h4, _⟩ := select_step next _ (eagerAll_legal next) past s i _ _ hq
        refine le_antisymm h4 (live_ge i fun j hj h => ?_)
        unfold Multi.Live at *
        rw [hqn]
        simp only [Function.update_of_ne hj]
        exact h
      have hpn : ∀ j, ((s.drawn i v w).quitNow i).phase j = .top ∨ ∃ x, ((s.drawn i v w).quitNow i).phase j = .stopped x := by
        intro j
        rw [hqn]
        by_cases hj : j = i
        · subst hj
          exact .inr ⟨v, Function.update_self ..⟩
        · simp only [Function.update_of_ne hj]
          exact hp j
      have hcn : ((s.drawn i v w).quitNow i).Chans := by
        rw [hqn]
        obtain ⟨c1, c2, c3, c4, c5⟩ := hc
        exact ⟨c1, c2, c3, by simpa using c4, c5⟩
      have hplay : ∀ b, (eagerAll next).play (b :: cs) past s =
          (eagerAll next).play cs (s :: past) (if b then (s.drawn i v w).quitNow i else (s.drawn i v w).taken i v) := by
        intro b
        rw [SchedulerAll.play, hq]
        rfl
      rw [hplay]
      cases c with
      | true =>
        obtain ⟨i1, i2⟩ := ih (s :: past) ((s.drawn i v w).quitNow i) hpn hcn
        simp only [if_true]
        refine ⟨fun h => i1 (by simp only [List.count_cons_self] at h; omega), fun p r j h hj hl => ?_⟩
        rcases p with _ | ⟨b, p⟩
        · simp only [List.count_nil] at hj
          subst hj
          have := i2 [] cs 0 rfl rfl (by omega)
          omega
        · simp only [List.cons_append, List.cons.injEq] at h
          obtain ⟨rfl, h⟩ := h
          have := i2 p r j h (by simpa using hj) (fun hj0 => by have := hl hj0; simp only [List.count_cons_self] at this; omega)
          omega
      | false =>
        obtain ⟨i1, i2⟩ := ih (s :: past) ((s.drawn i v w).taken i v) (by rw [hph]; exact hp) hc
        simp only [Bool.false_eq_true, if_false]
        refine ⟨fun h => i1 (by rw [hlive]; simpa using h), fun p r j h hj hl => ?_⟩
        rcases p with _ | ⟨b, p⟩
        · simp only [List.count_nil] at hj
          subst hj
          have := i2 [] cs 0 rfl rfl (by omega)
          omega
        · simp only [List.cons_append, List.cons.injEq] at h
          obtain ⟨rfl, h⟩ := h
          simp only [List.count_cons_self] at hj
          have := i2 p r (j - 1) h (by omega) (fun hj0 => by have := hl (by omega); rw [hlive]; simpa using this)
          omega

/-- **C115**, several yielders: the bounds cannot be improved: with a receiver that is always there, `quit` closed and sources that never panic,
they are reached exactly. -/
theorem C115_all_tight (next : (i : ι) → σ i → Go (α × σ i)) (hn : ∀ i x, ∃ v w, next i x = .ok (v, w)) (s : Multi ι σ α)
    (hp : ∀ i, s.phase i = .top) (hc : s.cap.isSome) (ho : s.closed = false) (hb : s.buf = []) (hq : s.quitPending.isSome)
    (hcl : s.quitClosed = true) :
    ∃ sch : SchedulerAll ι σ α, sch.Legal next ∧ ∀ k,
      (∀ j, coinShare k (fun cs => s.sent + (j + 1) ≤ (sch.play cs [] s).state.sent) =
        coinShare k (fun cs => ∃ p r, cs = p ++ r ∧ p.count false = j + 1 ∧ p.count true < Fintype.card ι)) ∧
      coinShare k (fun cs => ∃ t, sch.play cs [] s = .tossed t ∧ 0 < t.live) = (∑ i ∈ Finset.range (Fintype.card ι), (k.choose i : ℝ)) / 2 ^ k := by
  have hl : s.live = Fintype.card ι := by
    classical
    unfold Multi.live
    rw [Finset.filter_true_of_mem fun i _ => .inl (hp i)]
    rfl
  have hplay := fun cs => eagerAll_play next hn cs [] s (fun i => .inl (hp i)) ⟨hc, ho, hb, hq, hcl⟩
  refine ⟨eagerAll next, eagerAll_legal next, fun k => ⟨fun j => le_antisymm ?_ ?_, le_antisymm ?_ ?_⟩⟩
  · have := C115_all_sends next _ (eagerAll_legal next) s k j
    rwa [hl] at this
  · refine coinShare_mono k _ _ fun cs _ h => ?_
    obtain ⟨p, r, e, h1, h2⟩ := h
    exact (hplay cs).2 p r (j + 1) e h1 fun _ => by rw [hl]; exact h2
  · have := C115_all_stop next _ (eagerAll_legal next) s k
    rwa [hl] at this
  · have h1 := coinShare_mono k (fun cs => cs.count true < Fintype.card ι) _ fun cs _ h => (hplay cs).1 (by rw [hl]; exact h)
    have h2 : coinShare k (fun cs => cs.count true < Fintype.card ι) = (∑ i ∈ Finset.range (Fintype.card ι), (k.choose i : ℝ)) / 2 ^ k := by
      unfold coinShare
      rw [card_heads]
      push_cast
      rfl
    exact h2 ▸ h1

/-- Non-vacuity: three yielders, of 0, 1, 2, ..., of 10, 11, ... and of 20, 21, ..., whose `quit` has been closed: after `k` selects some of them
are left with probability `(1 + k + k(k-1)/2) / 2^k`. -/
example : ∃ sch : SchedulerAll (Fin 3) (fun _ => Nat) Nat, sch.Legal (fun _ n => .ok (n, n + 1)) ∧
    ∀ k, coinShare k (fun cs => ∃ t, sch.play cs [] ⟨fun i => 10 * i.val, fun _ => .top, some 0, [], false, [], some 0, true, 0, 0⟩ = .tossed t ∧ 0 < t.live) =
      (1 + k + k.choose 2) / 2 ^ k := by
  obtain ⟨sch, h1, h2⟩ := C115_all_tight (ι := Fin 3) (σ := fun _ => Nat) (α := Nat) (fun _ n => .ok (n, n + 1)) (fun _ x => ⟨x, x + 1, rfl⟩)
    ⟨fun i => 10 * i.val, fun _ => .top, some 0, [], false, [], some 0, true, 0, 0⟩ (fun _ => rfl) rfl rfl rfl rfl rfl
  refine ⟨sch, h1, fun k => (h2 k).2.trans ?_⟩
  rw [Fintype.card_fin, Finset.sum_range_succ, Finset.sum_range_succ, Finset.sum_range_succ]
  simp

end

end Yield
end Crazy
