/-
C115: how soon a yielder stops, when `select` chooses at random.
-/
import Verif.Spec.Stopping
import Verif.Props.Yield
import Mathlib.Data.Fintype.Pi
import Mathlib.Data.Fintype.Vector
import Mathlib.Data.Fintype.BigOperators
import Mathlib.Tactic.Linarith
import Mathlib.Tactic.FieldSimp
import Mathlib.Tactic.Ring
import Mathlib.Tactic.Positivity
namespace Crazy
namespace Yield

variable {σ α : Type}

theorem Steps.trans' {next : σ → Go (α × σ)} {s t u : State σ α} (h : Steps next s t) (h' : Steps next t u) : Steps next s u := by
  induction h' with
  | refl => exact h
  | snoc _ h2 ih => exact ih.snoc h2

theorem Quiet.steps {next : σ → Go (α × σ)} {s t : State σ α} (h : Quiet next s t) : Steps next s t := by
  induction h with
  | refl => exact .refl _
  | snoc _ h2 _ ih => exact ih.snoc h2

/-- Between selects nothing is sent by the goroutine. -/
theorem Quiet.sent {next : σ → Go (α × σ)} {s t : State σ α} (h : Quiet next s t) : t.sent = s.sent := by
  induction h with
  | refl => rfl
  | snoc _ h2 hp ih =>
    rw [← ih]
    cases h2 with
    | draw => rfl
    | drawPanic => rfl
    | sendBuf v c h => simp [h] at hp
    | sendDirect v c k h => simp [h] at hp
    | sendClosed v c h => simp [h] at hp
    | stop v h => simp [h] at hp
    | recv k x r hb => simp [State.sent, hb]
    | envSend => simp [State.sent]
    | envDirect v k hb => simp [State.sent, hb]
    | envClose => rfl
    | quitSend => rfl
    | quitClose => rfl
    | quitTake => rfl

theorem Step.sent_le {next : σ → Go (α × σ)} {s t : State σ α} (h : Step next s t) : t.sent ≤ s.sent + 1 := by
  cases h with
  | draw => exact Nat.le_succ _
  | drawPanic => exact Nat.le_succ _
  | sendBuf v c h => simp [State.sent]; omega
  | sendDirect v c k h _ _ hb => simp [State.sent, hb]
  | sendClosed v c h => exact Nat.le_succ _
  | stop v h => exact Nat.le_succ _
  | recv k x r hb => simp [State.sent, hb]
  | envSend => simp [State.sent]
  | envDirect v k hb => simp [State.sent, hb]
  | envClose => exact Nat.le_succ _
  | quitSend => exact Nat.le_succ _
  | quitClose => exact Nat.le_succ _
  | quitTake => exact Nat.le_succ _

theorem quitNow_step (next : σ → Go (α × σ)) (a : State σ α) (v : α) (h : a.phase = .offer v) (hq : a.quitReady) :
    Step next a a.quitNow ∧ a.quitNow.phase = .stopped v ∧ a.quitNow.sent = a.sent := by
  have e : a.quitNow = { a with phase := .stopped v, quitPending := a.quitTaken } := by simp [State.quitNow, h]
  rw [e]
  exact ⟨.stop a v h hq, rfl, rfl⟩

/-- **C115**: whatever the coins, the run is one of the system, and when it ends with `stopped` the goroutine has returned. -/
theorem C115_runs (next : σ → Go (α × σ)) (sch : Scheduler σ α) (hl : sch.Legal next) (cs : List Bool) (past : List (State σ α))
    (s : State σ α) :
    Steps next s (sch.play cs past s).state ∧ (∀ t, sch.play cs past s = .stopped t → Returned t) := by
  induction cs generalizing past s with
  | nil => exact ⟨.refl _, fun t h => by simp [Scheduler.play] at h⟩
  | cons c cs ih =>
    unfold Scheduler.play
    rcases hr : sch past s with _ | ⟨a, o⟩
    · exact ⟨.refl _, fun t h => by simp at h⟩
    · obtain ⟨hq, ⟨v, hv⟩, hr', hu⟩ := hl past s a o hr
      obtain ⟨h1, h2, _⟩ := quitNow_step next a v hv hr'
      have hstop : Steps next s a.quitNow := hq.steps.snoc h1
      rcases o with _ | u
      · refine ⟨hstop, fun t h => ?_⟩
        simp only [Outcome.stopped.injEq] at h
        exact h ▸ ⟨v, h2⟩
      · dsimp only
        split
        · refine ⟨hstop, fun t h => ?_⟩
          simp only [Outcome.stopped.injEq] at h
          exact h ▸ ⟨v, h2⟩
        · obtain ⟨i1, i2⟩ := ih (s :: past) u
          exact ⟨((hq.steps).snoc (hu u rfl).1).trans' i1, i2⟩

/-- To send `j` values the goroutine must lose the first `j` coins. -/
theorem play_sent (next : σ → Go (α × σ)) (sch : Scheduler σ α) (hl : sch.Legal next) (cs : List Bool) (past : List (State σ α))
    (s : State σ α) (j : Nat) (h : s.sent + j ≤ (sch.play cs past s).state.sent) : ∃ r, cs = List.replicate j false ++ r := by
  induction cs generalizing past s j with
  | nil =>
    have : (sch.play [] past s).state.sent = s.sent := rfl
    exact ⟨[], by rw [show j = 0 by omega]; rfl⟩
  | cons c cs ih =>
    rcases j with _ | j
    · exact ⟨c :: cs, rfl⟩
    unfold Scheduler.play at h
    rcases hr : sch past s with _ | ⟨a, o⟩
    · rw [hr] at h
      simp only [Outcome.state] at h
      omega
    · rw [hr] at h
      obtain ⟨hq, ⟨v, hv⟩, hr', hu⟩ := hl past s a o hr
      obtain ⟨_, _, h3⟩ := quitNow_step next a v hv hr'
      have hs := hq.sent
      rcases o with _ | u
      · simp only [Outcome.state] at h
        omega
      · dsimp only at h
        have h4 := (hu u rfl).1.sent_le
        cases c with
        | true =>
          simp only [if_true, Outcome.state] at h
          omega
        | false =>
          simp only [Bool.false_eq_true, if_false] at h
          obtain ⟨r, hr⟩ := ih (s :: past) u j (by omega)
          exact ⟨r, by rw [hr]; rfl⟩

theorem play_running (sch : Scheduler σ α) (cs : List Bool) (past : List (State σ α)) (s t : State σ α)
    (h : sch.play cs past s = .running t) : cs = List.replicate cs.length false := by
  induction cs generalizing past s with
  | nil => rfl
  | cons c cs ih =>
    unfold Scheduler.play at h
    rcases hr : sch past s with _ | ⟨a, o⟩
    · rw [hr] at h; simp at h
    · rw [hr] at h
      rcases o with _ | u
      · simp at h
      · cases c with
        | true => simp at h
        | false =>
          simp only [Bool.false_eq_true, if_false] at h
          rw [List.length_cons, List.replicate_succ, ← ih _ _ h]

theorem card_lists (k : Nat) : Nat.card {l : List Bool // l.length = k} = 2 ^ k := by
  have : Nat.card (List.Vector Bool k) = 2 ^ k := by rw [Nat.card_eq_fintype_card, card_vector]; rfl
  exact this

instance finite_lists (k : Nat) (P : List Bool → Prop) : Finite {cs : List Bool // cs.length = k ∧ P cs} :=
  Finite.of_injective (β := List.Vector Bool k) (fun c => ⟨c.1, c.2.1⟩) fun _ _ h => Subtype.ext (Subtype.mk.inj h)

/-- The lists that begin with `j` times `false`. -/
theorem card_prefix (k j : Nat) (hj : j ≤ k) :
    Nat.card {cs : List Bool // cs.length = k ∧ ∃ r, cs = List.replicate j false ++ r} = 2 ^ (k - j) := by
  rw [← card_lists (k - j)]
  refine Nat.card_congr ⟨fun c => ⟨c.1.drop j, by rw [List.length_drop, c.2.1]⟩,
    fun r => ⟨List.replicate j false ++ r.1, by rw [List.length_append, List.length_replicate, r.2]; omega, r.1, rfl⟩, ?_, ?_⟩
  · rintro ⟨c, h, r, rfl⟩
    simp
  · rintro ⟨r, h⟩
    simp

theorem coinShare_le (k j : Nat) (P : List Bool → Prop) (h : ∀ cs, cs.length = k → P cs → ∃ r, cs = List.replicate j false ++ r) :
    coinShare k P ≤ (1 / 2) ^ j := by
  unfold coinShare
  rcases Nat.lt_or_ge k j with hj | hj
  · have : IsEmpty {cs : List Bool // cs.length = k ∧ P cs} := by
      refine ⟨fun ⟨c, h1, h2⟩ => ?_⟩
      obtain ⟨r, rfl⟩ := h c h1 h2
      simp at h1
      omega
    rw [Nat.card_of_isEmpty]
    simp
  · have h1 : Nat.card {cs : List Bool // cs.length = k ∧ P cs} ≤ 2 ^ (k - j) := by
      rw [← card_prefix k j hj]
      exact Nat.card_le_card_of_injective (fun c => ⟨c.1, c.2.1, h c.1 c.2.1 c.2.2⟩) fun a b e => Subtype.ext (Subtype.mk.inj e)
    have h2 : (2 : ℝ) ^ k = 2 ^ (k - j) * 2 ^ j := by rw [← pow_add, Nat.sub_add_cancel hj]
    rw [h2, one_div, inv_pow, div_le_iff₀ (by positivity), mul_comm ((2:ℝ) ^ (k - j)), ← mul_assoc, inv_mul_cancel₀ (by positivity), one_mul]
    exact_mod_cast h1

/-- **C115**: once `quit` is ready at every select, the goroutine sends `j` more values with probability at most `2^-j`. -/
theorem C115_sends (next : σ → Go (α × σ)) (sch : Scheduler σ α) (hl : sch.Legal next) (s : State σ α) (k j : Nat) :
    coinShare k (fun cs => s.sent + j ≤ (sch.play cs [] s).state.sent) ≤ (1 / 2) ^ j :=
  coinShare_le k j _ fun cs _ h => play_sent next sch hl cs [] s j h

/-- **C115**: and it comes through `k` selects without returning with probability at most `2^-k`. -/
theorem C115_stops (sch : Scheduler σ α) (s : State σ α) (k : Nat) :
    coinShare k (fun cs => ∃ t, sch.play cs [] s = .running t) ≤ (1 / 2) ^ k :=
  coinShare_le k k _ fun cs hk ⟨t, h⟩ => ⟨[], by rw [List.append_nil, ← hk]; exact play_running sch cs [] s t h⟩

theorem coinShare_not (k : Nat) (P : List Bool → Prop) : coinShare k P + coinShare k (fun cs => ¬ P cs) = 1 := by
  classical
  unfold coinShare
  have e : {cs : List Bool // cs.length = k} ≃ {cs : List Bool // cs.length = k ∧ P cs} ⊕ {cs : List Bool // cs.length = k ∧ ¬ P cs} :=
    ⟨fun c => if h : P c.1 then .inl ⟨c.1, c.2, h⟩ else .inr ⟨c.1, c.2, h⟩,
      fun x => match x with
        | .inl c => ⟨c.1, c.2.1⟩
        | .inr c => ⟨c.1, c.2.1⟩,
      fun c => by by_cases h : P c.1 <;> simp [h],
      fun x => by
        rcases x with c | c
        · simp [c.2.2]
        · simp [c.2.2]⟩
  have h := card_lists k
  rw [Nat.card_congr e, Nat.card_sum] at h
  have h' : (Nat.card {cs : List Bool // cs.length = k ∧ P cs} : ℝ) + (Nat.card {cs : List Bool // cs.length = k ∧ ¬ P cs} : ℝ) = 2 ^ k := by
    exact_mod_cast h
  rw [← add_div, h', div_self (by positivity)]

/-- **C115**: so if the goroutine keeps coming to its select, it returns within `k` of them with probability at least `1 - 2^-k`. -/
theorem C115_returns (sch : Scheduler σ α) (s : State σ α) (k : Nat) (hs : ∀ cs t, cs.length = k → sch.play cs [] s ≠ .noSelect t) :
    1 - (1 / 2) ^ k ≤ coinShare k (fun cs => ∃ t, sch.play cs [] s = .stopped t) := by
  have h1 := coinShare_not k (fun cs => ∃ t, sch.play cs [] s = .stopped t)
  have h2 : coinShare k (fun cs => ¬ ∃ t, sch.play cs [] s = .stopped t) ≤ (1 / 2) ^ k :=
    coinShare_le k k _ fun cs hk h => ⟨[], by
      rw [List.append_nil, ← hk]
      cases hp : sch.play cs [] s with
      | stopped t => exact absurd ⟨t, hp⟩ h
      | running t => exact play_running sch cs [] s t hp
      | noSelect t => exact absurd hp (hs cs t hk)⟩
  linarith

theorem coins_length (k : Nat) : (coins k).length = 2 ^ k := by
  induction k with
  | zero => rfl
  | succ k ih => rw [coins, List.length_append, List.length_map, List.length_map, ih]; omega

/-- `coins` lists every way once. -/
theorem coins_all (k : Nat) : (coins k).Nodup ∧ ∀ l, l ∈ coins k ↔ l.length = k := by
  induction k with
  | zero => exact ⟨by simp [coins], fun l => by simp [coins]⟩
  | succ k ih =>
    obtain ⟨h1, h2⟩ := ih
    constructor
    · rw [coins, List.nodup_append]
      refine ⟨h1.map (by intro a b h; simpa using h), h1.map (by intro a b h; simpa using h), ?_⟩
      intro a ha b hb e
      simp only [List.mem_map] at ha hb
      obtain ⟨x, _, rfl⟩ := ha
      obtain ⟨y, _, rfl⟩ := hb
      simp at e
    · intro l
      rw [coins, List.mem_append, List.mem_map, List.mem_map]
      constructor
      · rintro (⟨x, hx, rfl⟩ | ⟨x, hx, rfl⟩)
        · simpa using (h2 x).1 hx
        · simpa using (h2 x).1 hx
      · intro h
        match l with
        | true :: l => exact .inl ⟨l, (h2 l).2 (by simpa using h), rfl⟩
        | false :: l => exact .inr ⟨l, (h2 l).2 (by simpa using h), rfl⟩
        | [] => simp at h

theorem sum_true_sent (next : σ → Go (α × σ)) (sch : Scheduler σ α) (hl : sch.Legal next) (k : Nat) (past : List (State σ α))
    (s : State σ α) :
    ((coins k).map fun cs => ((sch.play cs past s).state.sent : ℝ) - s.sent).sum ≤ 2 ^ k - 1 := by
  induction k generalizing past s with
  | zero => simp [coins, Scheduler.play, Outcome.state]
  | succ k ih =>
    rw [coins, List.map_append, List.sum_append, List.map_map, List.map_map]
    have hzero : ∀ (c : Bool) , (∀ cs, (sch.play (c :: cs) past s).state.sent = s.sent) →
        ((coins k).map ((fun cs => ((sch.play cs past s).state.sent : ℝ) - s.sent) ∘ (c :: ·))).sum = 0 := by
      intro c hc
      rw [List.map_congr_left (g := fun _ => (0 : ℝ))]
      · simp
      · intro cs _
        simp [hc cs]
    have h2k : (0 : ℝ) ≤ 2 ^ (k + 1) - 1 := by
      have : (1 : ℝ) ≤ 2 ^ (k + 1) := one_le_pow₀ (by norm_num)
      linarith
    rcases hr : sch past s with _ | ⟨a, o⟩
    · rw [hzero true fun cs => by rw [Scheduler.play, hr]; rfl, hzero false fun cs => by rw [Scheduler.play, hr]; rfl]
      linarith
    · obtain ⟨hq, ⟨v, hv⟩, hr', hu⟩ := hl past s a o hr
      obtain ⟨_, _, h3⟩ := quitNow_step next a v hv hr'
      have hs := hq.sent
      rcases o with _ | u
      · rw [hzero true fun cs => by rw [Scheduler.play, hr]; exact h3.trans hs, hzero false fun cs => by rw [Scheduler.play, hr]; exact h3.trans hs]
        linarith
      · rw [hzero true fun cs => by rw [Scheduler.play, hr]; exact h3.trans hs, zero_add]
        have h4 := (hu u rfl).1.sent_le
        have h5 : ((u.sent : ℝ)) ≤ s.sent + 1 := by exact_mod_cast (by omega : u.sent ≤ s.sent + 1)
        have h6 : ((coins k).map ((fun cs => ((sch.play cs past s).state.sent : ℝ) - s.sent) ∘ (false :: ·))).sum ≤
            ((coins k).map fun cs => (((sch.play cs (s :: past) u).state.sent : ℝ) - u.sent) + 1).sum := by
          refine List.sum_le_sum fun cs _ => ?_
          have e : (sch.play (false :: cs) past s) = sch.play cs (s :: past) u := by
            rw [Scheduler.play, hr]; rfl
          simp only [Function.comp, e]
          linarith
        have h7 : ((coins k).map fun cs => (((sch.play cs (s :: past) u).state.sent : ℝ) - u.sent) + 1).sum =
            ((coins k).map fun cs => (((sch.play cs (s :: past) u).state.sent : ℝ) - u.sent)).sum + 2 ^ k := by
          rw [List.sum_map_add]
          simp [coins_length]
        have h8 := ih (s :: past) u
        rw [pow_succ]
        linarith

/-- **C115**: on average it sends less than one more value. -/
theorem C115_mean (next : σ → Go (α × σ)) (sch : Scheduler σ α) (hl : sch.Legal next) (s : State σ α) (k : Nat) :
    coinMean k (fun cs => ((sch.play cs [] s).state.sent : ℝ) - s.sent) < 1 := by
  unfold coinMean
  rw [div_lt_one (by positivity)]
  have := sum_true_sent next sch hl k [] s
  linarith

/-- A receiver that is always there: the goroutine computes its value, and at each select it is taken at once. -/
def eager (next : σ → Go (α × σ)) : Scheduler σ α := fun _ s =>
  match s.phase, next s.src with
  | .top, .ok (v, w) =>
    if s.cap.isSome ∧ s.closed = false ∧ s.buf.isEmpty ∧ s.quitPending.isSome ∧ s.quitClosed then
      some ({ s with phase := .offer v, src := w }, some { s with phase := .top, src := w, recvd := s.recvd ++ [(0, .mine v)] })
    else none
  | _, _ => none

theorem eager_legal (next : σ → Go (α × σ)) : (eager next).Legal next := by
  intro past s a o h
  unfold eager at h
  split at h
  · rename_i v w hp hn
    split at h
    · rename_i hc
      obtain ⟨h1, h2, h3, h4, h5⟩ := hc
      simp only [Option.some.injEq, Prod.mk.injEq] at h
      obtain ⟨rfl, rfl⟩ := h
      obtain ⟨c, hc⟩ := Option.isSome_iff_exists.1 h1
      refine ⟨(Quiet.refl s).snoc (.draw s v w hp hn) (.inl hp), ⟨v, rfl⟩, .inr ⟨?_, h5⟩, ?_⟩
      · intro e
        have e' : s.quitPending = none := e
        rw [e'] at h4
        cases h4
      · intro u hu
        simp only [Option.some.injEq] at hu
        subst hu
        exact ⟨.sendDirect { s with phase := .offer v, src := w } v c 0 rfl hc h2 (List.isEmpty_iff.1 h3), .inl rfl⟩
    · simp at h
  · simp at h

theorem eager_play (next : σ → Go (α × σ)) (hn : ∀ x, ∃ v w, next x = .ok (v, w)) (cs : List Bool) (past : List (State σ α)) (s : State σ α)
    (hp : s.phase = .top) (hc : s.cap.isSome ∧ s.closed = false ∧ s.buf.isEmpty ∧ s.quitPending.isSome ∧ s.quitClosed) (j : Nat)
    (hj : ∃ r, cs = List.replicate j false ++ r) :
    s.sent + j ≤ ((eager next).play cs past s).state.sent ∧ (cs.length = j → ∃ t, (eager next).play cs past s = .running t) := by
  induction j generalizing cs past s with
  | zero =>
    have hle : ∀ (cs : List Bool) past (s : State σ α), s.sent ≤ ((eager next).play cs past s).state.sent := by
      intro cs past s
      induction cs generalizing past s with
      | nil => exact Nat.le_refl _
      | cons c cs ih =>
        unfold Scheduler.play
        rcases hr : eager next past s with _ | ⟨a, o⟩
        · exact Nat.le_refl _
        · obtain ⟨hq, ⟨v, hv⟩, hr', hu⟩ := eager_legal next past s a o hr
          obtain ⟨_, _, h3⟩ := quitNow_step next a v hv hr'
          have hs := hq.sent
          rcases o with _ | u
          · show s.sent ≤ a.quitNow.sent
            omega
          · dsimp only
            cases c with
            | true =>
              show s.sent ≤ a.quitNow.sent
              omega
            | false =>
              simp only [Bool.false_eq_true, if_false]
              have h5 := ih (s :: past) u
              have h6 : s.sent ≤ u.sent := by
                unfold eager at hr
                split at hr
                · split at hr
                  · simp only [Option.some.injEq, Prod.mk.injEq] at hr
                    obtain ⟨_, rfl⟩ := hr
                    simp only [State.sent, List.map_append, List.countP_append]
                    omega
                  · simp at hr
                · simp at hr
              omega
    exact ⟨hle cs past s, fun h => ⟨s, by rw [List.length_eq_zero_iff.1 h]; rfl⟩⟩
  | succ j ih =>
    obtain ⟨r, rfl⟩ := hj
    obtain ⟨v, w, hvw⟩ := hn s.src
    have he : eager next past s = some ({ s with phase := .offer v, src := w },
        some { s with phase := .top, src := w, recvd := s.recvd ++ [(0, .mine v)] }) := by
      unfold eager
      rw [hp, hvw]
      dsimp only
      rw [if_pos hc]
    rw [List.replicate_succ, List.cons_append, Scheduler.play, he]
    simp only [Bool.false_eq_true, if_false]
    obtain ⟨i1, i2⟩ := ih (List.replicate j false ++ r) (s :: past) { s with phase := .top, src := w, recvd := s.recvd ++ [(0, .mine v)] } rfl hc
      ⟨r, rfl⟩
    refine ⟨?_, fun h => i2 (by simpa using h)⟩
    have : ({ s with phase := .top, src := w, recvd := s.recvd ++ [(0, .mine v)] } : State σ α).sent = s.sent + 1 := by
      simp only [State.sent, List.map_append, List.countP_append, List.map_cons, List.map_nil, List.countP_cons, List.countP_nil]
      simp only [if_true]
      omega
    omega

/-- With the receiver always there the goroutine keeps coming to its select. -/
theorem eager_comes (next : σ → Go (α × σ)) (hn : ∀ x, ∃ v w, next x = .ok (v, w)) (cs : List Bool) (past : List (State σ α)) (s : State σ α)
    (hp : s.phase = .top) (hc : s.cap.isSome ∧ s.closed = false ∧ s.buf.isEmpty ∧ s.quitPending.isSome ∧ s.quitClosed) (t : State σ α) :
    (eager next).play cs past s ≠ .noSelect t := by
  induction cs generalizing past s with
  | nil => intro h; cases h
  | cons c cs ih =>
    obtain ⟨v, w, hvw⟩ := hn s.src
    have he : eager next past s = some ({ s with phase := .offer v, src := w },
        some { s with phase := .top, src := w, recvd := s.recvd ++ [(0, .mine v)] }) := by
      unfold eager
      rw [hp, hvw]
      dsimp only
      rw [if_pos hc]
    rw [Scheduler.play, he]
    cases c with
    | true => intro h; simp at h
    | false =>
      simp only [Bool.false_eq_true, if_false]
      exact ih (s :: past) _ rfl hc

theorem coinShare_ge (k j : Nat) (hj : j ≤ k) (P : List Bool → Prop) (h : ∀ cs, cs.length = k → (∃ r, cs = List.replicate j false ++ r) → P cs) :
    (1 / 2) ^ j ≤ coinShare k P := by
  unfold coinShare
  have h1 : 2 ^ (k - j) ≤ Nat.card {cs : List Bool // cs.length = k ∧ P cs} := by
    rw [← card_prefix k j hj]
    exact Nat.card_le_card_of_injective (fun c => ⟨c.1, c.2.1, h c.1 c.2.1 c.2.2⟩) fun a b e => Subtype.ext (Subtype.mk.inj e)
  have h2 : (2 : ℝ) ^ k = 2 ^ (k - j) * 2 ^ j := by rw [← pow_add, Nat.sub_add_cancel hj]
  rw [h2, one_div, inv_pow, le_div_iff₀ (by positivity), mul_comm ((2:ℝ) ^ (k - j)), ← mul_assoc, inv_mul_cancel₀ (by positivity), one_mul]
  exact_mod_cast h1

/-- **C115**: the bounds cannot be improved: with a receiver that is always there, `quit` closed and a source that never panics, they are
reached exactly. -/
theorem C115_tight (next : σ → Go (α × σ)) (hn : ∀ x, ∃ v w, next x = .ok (v, w)) (s : State σ α) (hp : s.phase = .top)
    (hc : s.cap.isSome) (ho : s.closed = false) (hb : s.buf = []) (hq : s.quitPending.isSome) (hcl : s.quitClosed = true) :
    ∃ sch : Scheduler σ α, sch.Legal next ∧ ∀ k,
      (∀ j ≤ k, coinShare k (fun cs => s.sent + j ≤ (sch.play cs [] s).state.sent) = (1 / 2) ^ j) ∧
      coinShare k (fun cs => ∃ t, sch.play cs [] s = .running t) = (1 / 2) ^ k := by
  have hc' : s.cap.isSome ∧ s.closed = false ∧ s.buf.isEmpty ∧ s.quitPending.isSome ∧ s.quitClosed := ⟨hc, ho, by rw [hb]; rfl, hq, hcl⟩
  refine ⟨eager next, eager_legal next, fun k => ⟨fun j hj => le_antisymm (C115_sends next _ (eager_legal next) s k j) ?_, le_antisymm (C115_stops _ s k) ?_⟩⟩
  · exact coinShare_ge k j hj _ fun cs _ h => (eager_play next hn cs [] s hp hc' j h).1
  · exact coinShare_ge k k (Nat.le_refl k) _ fun cs hk h => (eager_play next hn cs [] s hp hc' k h).2 hk

/-- Non-vacuity: a yielder of 5, 6, 7, ... whose `quit` has been closed. -/
example : ∃ sch : Scheduler Nat Nat, sch.Legal (fun n => .ok (n, n + 1)) ∧ ∀ k,
    (∀ j ≤ k, coinShare k (fun cs => State.sent (σ := Nat) (α := Nat) ⟨5, .top, some 0, [], false, [], some 0, true⟩ + j ≤ (sch.play cs [] ⟨5, .top, some 0, [], false, [], some 0, true⟩).state.sent) = (1 / 2) ^ j) ∧
    coinShare k (fun cs => ∃ t, sch.play cs [] ⟨5, .top, some 0, [], false, [], some 0, true⟩ = .running t) = (1 / 2) ^ k :=
  C115_tight (fun n => .ok (n, n + 1)) (fun x => ⟨x, x + 1, rfl⟩) ⟨5, .top, some 0, [], false, [], some 0, true⟩ rfl rfl rfl rfl rfl rfl

/-- Non-vacuity of `C115_returns`: the same yielder. -/
example (k : Nat) : 1 - (1 / 2) ^ k ≤ coinShare k (fun cs => ∃ t, (eager (α := Nat) fun n : Nat => .ok (n, n + 1)).play cs []
    ⟨5, .top, some 0, [], false, [], some 0, true⟩ = .stopped t) :=
  C115_returns _ _ k fun cs t _ => eager_comes (fun n => .ok (n, n + 1)) (fun x => ⟨x, x + 1, rfl⟩) cs [] _ rfl ⟨rfl, rfl, rfl, rfl, rfl⟩ t

end Yield
end Crazy
