/-
C32: Yield delivers the stream in order without loss or duplication. C33: Yield stops only on quit, and never blocks a quit.
Both hold for `Yield` and `YieldUint64`: `next` is the `Next` method of the distribution, or `RNG.Uint64`.
-/
import Verif.Model.Yield
import Mathlib.Data.List.Induction
namespace Crazy
namespace Yield

variable {σ α : Type}

/-- Specification: the first `k` values of a source, and the source afterwards. -/
def values (next : σ → Go (α × σ)) : Nat → σ → Go (List α × σ)
  | 0, s => .ok ([], s)
  | k + 1, s => do
    let (vs, s) ← values next k s
    let (v, s) ← next s
    return (vs ++ [v], s)

/-- Specification: this yielder's values among items. -/
def mine : List (Item α) → List α
  | [] => []
  | .mine v :: l => v :: mine l
  | .foreign _ :: l => mine l

/-- Specification: the value that has been computed and not (yet) sent. -/
def unsent : Phase α → List α
  | .top => []
  | .offer v => [v]
  | .stopped v => [v]
  | .crashed none => []
  | .crashed (some v) => [v]

theorem mine_append (a b : List (Item α)) : mine (a ++ b) = mine a ++ mine b := by
  induction a with
  | nil => rfl
  | cons x a ih => cases x <;> simp [mine, ih]

theorem mine_foreign (l : List (Item α)) (h : ∀ x ∈ l, ∃ v, x = .foreign v) : mine l = [] := by
  induction l with
  | nil => rfl
  | cons x l ih =>
    obtain ⟨v, rfl⟩ := h x (by simp)
    exact ih fun y hy => h y (by simp [hy])

/-- C32: at every moment of every execution, the values of this yielder that were received (in the order of receipt, by
whatever receivers), followed by those in the channel, followed by the one computed and not sent, are exactly the first `k`
values of the source, where `k` is how often the source was used. -/
theorem C32_in_order (next : σ → Go (α × σ)) (s0 s : State σ α) (h0 : s0.Initial) (h : Steps next s0 s) :
    ∃ k, values next k s0.src = .ok (mine (s.recvd.map (·.2)) ++ mine s.buf ++ unsent s.phase, s.src) := by
  induction h with
  | refl =>
    refine ⟨0, ?_⟩
    obtain ⟨h1, h2, h3⟩ := h0
    rw [h1, h2, mine_foreign _ h3]; rfl
  | snoc hs hstep ih =>
    obtain ⟨k, ih⟩ := ih
    cases hstep with
    | draw v w h hn =>
      refine ⟨k + 1, ?_⟩
      rw [h] at ih
      simp only [values, ih, bind, Except.bind, hn, pure, Except.pure, unsent, List.append_nil]
    | drawPanic e h hn => exact ⟨k, by rw [h] at ih; exact ih⟩
    | sendBuf v c h hc ho hb =>
      refine ⟨k, ?_⟩
      rw [h] at ih
      rw [ih]; simp [unsent, mine_append, mine]
    | sendDirect v c j h hc ho hb =>
      refine ⟨k, ?_⟩
      rw [h, hb] at ih
      rw [ih]; simp [unsent, mine_append, mine, hb]
    | sendClosed v c h hc ho => exact ⟨k, by rw [h] at ih; exact ih⟩
    | stop v h hq => exact ⟨k, by rw [h] at ih; exact ih⟩
    | recv j x r hb =>
      refine ⟨k, ?_⟩
      rw [hb] at ih
      rw [ih]
      simp only [List.map_append, List.map_cons, List.map_nil, mine_append]
      cases x <;> simp [mine]
    | envSend v c hc ho hb => exact ⟨k, by rw [ih]; simp [mine_append, mine]⟩
    | envDirect v j hb => exact ⟨k, by rw [ih]; simp [mine_append, mine]⟩
    | envClose => exact ⟨k, ih⟩
    | quitSend n hq => exact ⟨k, ih⟩
    | quitClose hq => exact ⟨k, ih⟩
    | quitTake n hq => exact ⟨k, ih⟩

/-- C32: what has been received never changes, it only grows (one item per receipt, to one receiver). -/
theorem C32_monotone (next : σ → Go (α × σ)) (s t : State σ α) (h : Steps next s t) : ∃ l, t.recvd = s.recvd ++ l := by
  induction h with
  | refl => exact ⟨[], by simp⟩
  | snoc hs hstep ih =>
    obtain ⟨l, ih⟩ := ih
    cases hstep
    case sendDirect v c k _ _ _ _ => exact ⟨l ++ [(k, .mine v)], by simp [ih]⟩
    case recv k x r _ => exact ⟨l ++ [(k, x)], by simp [ih]⟩
    case envDirect v k _ => exact ⟨l ++ [(k, .foreign v)], by simp [ih]⟩
    all_goals exact ⟨l, ih⟩

/-- C32: the buffer never holds more than the channel's capacity (if it did not at the beginning). -/
theorem C32_capacity (next : σ → Go (α × σ)) (s t : State σ α) (h : Steps next s t) (c : Nat) (hc : s.cap = some c)
    (hb : s.buf.length ≤ c) : t.cap = some c ∧ t.buf.length ≤ c := by
  induction h with
  | refl => exact ⟨hc, hb⟩
  | snoc hs hstep ih =>
    obtain ⟨ih1, ih2⟩ := ih
    cases hstep
    case sendBuf v c' h1 h2 h3 h4 =>
      rw [ih1] at h2; cases h2
      exact ⟨ih1, by simp; omega⟩
    case envSend v c' h2 h3 h4 =>
      rw [ih1] at h2; cases h2
      exact ⟨ih1, by simp; omega⟩
    case recv k x r h1 =>
      rw [h1] at ih2
      exact ⟨ih1, by simp at ih2 ⊢; omega⟩
    all_goals exact ⟨ih1, ih2⟩

/-- The goroutine has returned. -/
def Returned (s : State σ α) : Prop := ∃ v, s.phase = .stopped v

/-- C33: the goroutine returns only by receiving from `quit`: when it does, `quit` is not nil, and either a value is on offer
there, which it takes, or the channel is closed. -/
theorem C33_only_on_quit (next : σ → Go (α × σ)) (s t : State σ α) (h : Step next s t) (hs : ¬ Returned s) (ht : Returned t) :
    (∃ n, s.quitPending = some (n + 1) ∧ t.quitPending = some n) ∨
    (s.quitPending ≠ none ∧ s.quitClosed = true) := by
  obtain ⟨v, hv⟩ := ht
  cases h
  case stop v' h hq =>
    rcases hq with ⟨n, hn⟩ | ⟨h1, h2⟩
    · left; exact ⟨n, hn, by simp [State.quitTaken, hn]⟩
    · right; exact ⟨h1, h2⟩
  all_goals first
    | (cases hv; done)
    | exact absurd ⟨v, hv⟩ hs

/-- C33: with a nil `quit` the goroutine never returns. -/
theorem C33_nil_quit (next : σ → Go (α × σ)) (s0 s : State σ α) (h0 : s0.Initial) (hq : s0.quitPending = none)
    (h : Steps next s0 s) : ¬ Returned s := by
  have key : s.quitPending = none ∧ ¬ Returned s := by
    induction h with
    | refl => exact ⟨hq, by rintro ⟨v, hv⟩; rw [h0.1] at hv; cases hv⟩
    | snoc hs hstep ih =>
      obtain ⟨ih1, ih2⟩ := ih
      refine ⟨?_, fun hc => ?_⟩
      · cases hstep
        case stop => simp [State.quitTaken, ih1]
        case quitSend n hq => rw [ih1] at hq; cases hq
        case quitTake n hq => rw [ih1] at hq; cases hq
        all_goals exact ih1
      · rcases C33_only_on_quit next _ _ hstep ih2 hc with ⟨n, hn, -⟩ | ⟨hn, -⟩
        · rw [ih1] at hn; cases hn
        · exact hn ih1
  exact key.2

/-- C33: nobody can block a quit. Whenever the goroutine is in its select and something can be received from `quit`, it can
return at once, whatever the state of the `over` channel (nil, full, closed, nobody receiving). -/
theorem C33_quit_possible (next : σ → Go (α × σ)) (s : State σ α) (v : α) (h : s.phase = .offer v)
    (hq : (∃ n, s.quitPending = some (n + 1)) ∨ (s.quitPending ≠ none ∧ s.quitClosed = true)) :
    ∃ t, Step next s t ∧ t.phase = .stopped v ∧ t.recvd = s.recvd ∧ t.buf = s.buf ∧ t.src = s.src :=
  ⟨_, .stop s v h hq, rfl, rfl, rfl, rfl⟩

/-- C33: from the top of the loop too, after computing one more value. -/
theorem C33_quit_possible_top (next : σ → Go (α × σ)) (s : State σ α) (v : α) (w : σ) (h : s.phase = .top)
    (hn : next s.src = .ok (v, w))
    (hq : (∃ n, s.quitPending = some (n + 1)) ∨ (s.quitPending ≠ none ∧ s.quitClosed = true)) :
    ∃ t, Steps next s t ∧ t.phase = .stopped v ∧ t.recvd = s.recvd ∧ t.buf = s.buf ∧ t.src = w :=
  ⟨_, .snoc (.snoc (.refl s) (.draw s v w h hn)) (.stop _ v rfl hq), rfl, rfl, rfl, rfl⟩

/-- C33: once it has returned, it stays so, the source is not used any more, and nothing more is sent: what was received
together with what is in the channel stays the same. -/
theorem C33_after_stop (next : σ → Go (α × σ)) (s t : State σ α) (h : Steps next s t) (v : α) (hv : s.phase = .stopped v) :
    t.phase = .stopped v ∧ t.src = s.src ∧
      mine (t.recvd.map (·.2)) ++ mine t.buf = mine (s.recvd.map (·.2)) ++ mine s.buf := by
  induction h with
  | refl => exact ⟨hv, rfl, rfl⟩
  | snoc hs hstep ih =>
    obtain ⟨ih1, ih2, ih3⟩ := ih
    cases hstep
    case recv k x r hb =>
      refine ⟨ih1, ih2, ?_⟩
      rw [← ih3, hb]
      simp only [List.map_append, List.map_cons, List.map_nil, mine_append]
      cases x <;> simp [mine]
    case envSend u c _ _ _ => exact ⟨ih1, ih2, by rw [← ih3]; simp [mine_append, mine]⟩
    case envDirect u k _ => exact ⟨ih1, ih2, by rw [← ih3]; simp [mine_append, mine]⟩
    case envClose => exact ⟨ih1, ih2, ih3⟩
    case quitSend => exact ⟨ih1, ih2, ih3⟩
    case quitClose => exact ⟨ih1, ih2, ih3⟩
    case quitTake => exact ⟨ih1, ih2, ih3⟩
    all_goals (rename_i h _; simp_all)

/-- C33: exactly one computed value is lost by stopping: the values computed are those sent (received or in the channel),
followed by one more. -/
theorem C33_one_lost (next : σ → Go (α × σ)) (s0 s : State σ α) (h0 : s0.Initial) (h : Steps next s0 s) (v : α)
    (hv : s.phase = .stopped v) :
    ∃ k, values next (k + 1) s0.src = .ok (mine (s.recvd.map (·.2)) ++ mine s.buf ++ [v], s.src) ∧
      k = (mine (s.recvd.map (·.2)) ++ mine s.buf).length := by
  obtain ⟨k, hk⟩ := C32_in_order next s0 s h0 h
  rw [hv] at hk
  simp only [unsent] at hk
  have hlen : ∀ k s0 vs s, values next k s0 = .ok (vs, s) → vs.length = k := by
    intro k
    induction k with
    | zero => intro s0 vs s h; simp only [values, Except.ok.injEq, Prod.mk.injEq] at h; rw [← h.1]; rfl
    | succ k ih =>
      intro s0 vs s h
      simp only [values, bind, Except.bind, pure, Except.pure] at h
      split at h
      · contradiction
      rename_i a ha
      split at h
      · contradiction
      simp only [Except.ok.injEq, Prod.mk.injEq] at h
      rw [← h.1, List.length_append, ih _ _ _ ha]; rfl
  have hl := hlen _ _ _ _ hk
  rw [List.length_append, List.length_singleton] at hl
  exact ⟨_, by rw [hl]; exact hk, rfl⟩

/-- C33: the goroutine can end otherwise only by a panic of the source or because somebody closed `over`. -/
theorem C33_crash (next : σ → Go (α × σ)) (s t : State σ α) (h : Step next s t) (o : Option α) (ht : t.phase = .crashed o)
    (hs : s.phase ≠ .crashed o) : (∃ e, next s.src = .error e) ∨ s.closed = true := by
  cases h
  case drawPanic e _ hn => exact .inl ⟨e, hn⟩
  case sendClosed v c _ _ ho => exact .inr ho
  all_goals first
    | (cases ht; done)
    | exact absurd ht hs

/-- C33: the goroutine never gets stuck at the top of its loop, and in the select it can send whenever there is room in the
buffer or a receiver is waiting. -/
theorem C33_progress (next : σ → Go (α × σ)) (s : State σ α) :
    (s.phase = .top → ∃ t, Step next s t ∧ t.phase ≠ .top) ∧
    (∀ v c, s.phase = .offer v → s.cap = some c → s.closed = false → s.buf.length < c →
      ∃ t, Step next s t ∧ t.phase = .top ∧ t.buf = s.buf ++ [.mine v]) ∧
    (∀ v c k, s.phase = .offer v → s.cap = some c → s.closed = false → s.buf = [] →
      ∃ t, Step next s t ∧ t.phase = .top ∧ t.recvd = s.recvd ++ [(k, .mine v)]) := by
  refine ⟨fun h => ?_, fun v c h hc ho hb => ⟨_, .sendBuf s v c h hc ho hb, rfl, rfl⟩,
    fun v c k h hc ho hb => ⟨_, .sendDirect s v c k h hc ho hb, rfl, rfl⟩⟩
  cases hn : next s.src with
  | error e => exact ⟨_, .drawPanic s e h hn, by simp⟩
  | ok r => exact ⟨_, .draw s r.1 r.2 h hn, by simp⟩

/-- The doc says the yielder stops once a value is received over `quit`; it does not say it receives it soon, and it need not:
although a value is on offer, the goroutine may go on to send any number of values to a receiver. -/
theorem C33_not_prompt (v : α) (w : σ) (n : Nat) :
    ∃ s t : State σ α, s.Initial ∧ s.quitReady ∧ Steps (fun s => .ok (v, s)) s t ∧
      mine (t.recvd.map (·.2)) = List.replicate n v ∧ t.quitReady ∧ ¬ Returned t := by
  refine ⟨⟨w, .top, some 0, [], false, [], some 1, false⟩, ⟨w, .top, some 0, [], false, List.replicate n (0, .mine v), some 1, false⟩,
    ⟨rfl, rfl, by simp⟩, .inl ⟨0, rfl⟩, ?_, ?_, .inl ⟨0, rfl⟩, by rintro ⟨u, hu⟩; cases hu⟩
  · induction n with
    | zero => exact .refl _
    | succ n ih =>
      have h1 := Steps.snoc ih (.draw _ v w rfl rfl)
      have h2 := Steps.snoc h1 (.sendDirect _ v 0 0 rfl rfl rfl rfl)
      have e : (List.replicate n ((0 : Nat), Item.mine v) ++ [(0, .mine v)]) = List.replicate (n + 1) (0, .mine v) := by
        rw [List.replicate_succ']
      simp only [e] at h2
      exact h2
  · induction n with
    | zero => rfl
    | succ n ih => rw [List.replicate_succ, List.map_cons, mine, ih, List.replicate_succ]

/-- C33: closing `quit` is possible whenever it is not nil, and it is for good: in every later state in which the goroutine is in its
select it can return at once (also if others have returned on the same `quit` before), and if it is at the top of its loop it
can return after computing one more value. -/
theorem C33_close (next : σ → Go (α × σ)) (s : State σ α) (hq : s.quitPending ≠ none) :
    ∃ t, Step next s t ∧ t.phase = s.phase ∧ t.src = s.src ∧ t.recvd = s.recvd ∧ t.buf = s.buf ∧ t.cap = s.cap ∧ t.closed = s.closed ∧
      ∀ u, Steps next t u →
        (∀ v, u.phase = .offer v → ∃ z, Step next u z ∧ z.phase = .stopped v ∧ z.recvd = u.recvd ∧ z.buf = u.buf) ∧
        (∀ v w, u.phase = .top → next u.src = .ok (v, w) → ∃ z, Steps next u z ∧ z.phase = .stopped v ∧ z.recvd = u.recvd ∧ z.buf = u.buf) := by
  refine ⟨_, .quitClose s hq, rfl, rfl, rfl, rfl, rfl, rfl, fun u hu => ?_⟩
  have key : u.quitPending ≠ none ∧ u.quitClosed = true := by
    induction hu with
    | refl => exact ⟨hq, rfl⟩
    | snoc hs hstep ih =>
      obtain ⟨ih1, ih2⟩ := ih
      cases hstep
      case stop => exact ⟨by simpa [State.quitTaken] using ih1, ih2⟩
      case quitSend => exact ⟨by simp, ih2⟩
      case quitTake => exact ⟨by simp, ih2⟩
      case quitClose => exact ⟨ih1, rfl⟩
      all_goals exact ⟨ih1, ih2⟩
  refine ⟨fun v h => ?_, fun v w h hn => ?_⟩
  · obtain ⟨z, h1, h2, h3, h4, -⟩ := C33_quit_possible next u v h (.inr key)
    exact ⟨z, h1, h2, h3, h4⟩
  · obtain ⟨z, h1, h2, h3, h4, -⟩ := C33_quit_possible_top next u v w h hn (.inr key)
    exact ⟨z, h1, h2, h3, h4⟩

/-- C33: a value offered on `quit` can be received by the goroutine, which then returns; the value is used up, so that it stops one
yielder only. -/
theorem C33_send (next : σ → Go (α × σ)) (s : State σ α) (v : α) (h : s.phase = .offer v) (hq : s.quitPending = some 0) :
    ∃ t u, Step next s t ∧ t.phase = s.phase ∧ t.src = s.src ∧ t.recvd = s.recvd ∧ t.buf = s.buf ∧ Step next t u ∧
      u.phase = .stopped v ∧ u.recvd = s.recvd ∧ u.buf = s.buf ∧ u.quitPending = some 0 := by
  refine ⟨_, _, .quitSend s 0 hq, rfl, rfl, rfl, rfl, .stop _ v h (.inl ⟨0, rfl⟩), rfl, rfl, rfl, ?_⟩
  simp [State.quitTaken]

/-- C33: with a nil `over` nothing is ever sent and the source is used at most once: the goroutine waits for `quit`. -/
theorem C33_nil_over (next : σ → Go (α × σ)) (s0 s : State σ α) (h0 : s0.Initial) (hc : s0.cap = none) (h : Steps next s0 s) :
    mine (s.recvd.map (·.2)) ++ mine s.buf = [] ∧
      (s.phase = .top ∧ s.src = s0.src ∨ s.phase = .crashed none ∧ s.src = s0.src ∨
        ∃ v, (s.phase = .offer v ∨ s.phase = .stopped v) ∧ next s0.src = .ok (v, s.src)) := by
  have key : s.cap = none ∧ mine (s.recvd.map (·.2)) ++ mine s.buf = [] ∧
      (s.phase = .top ∧ s.src = s0.src ∨ s.phase = .crashed none ∧ s.src = s0.src ∨
        ∃ v, (s.phase = .offer v ∨ s.phase = .stopped v) ∧ next s0.src = .ok (v, s.src)) := by
    induction h with
    | refl => exact ⟨hc, by rw [h0.2.1, mine_foreign _ h0.2.2]; rfl, .inl ⟨h0.1, rfl⟩⟩
    | snoc hs hstep ih =>
      obtain ⟨ih1, ih2, ih3⟩ := ih
      cases hstep
      case draw v w hp hn =>
        refine ⟨ih1, ih2, .inr (.inr ⟨v, .inl rfl, ?_⟩)⟩
        rcases ih3 with ⟨-, e⟩ | ⟨e, -⟩ | ⟨v', e | e, -⟩
        · rw [← e]; exact hn
        all_goals (rw [hp] at e; cases e)
      case drawPanic e hp hn =>
        refine ⟨ih1, ih2, .inr (.inl ⟨rfl, ?_⟩)⟩
        rcases ih3 with ⟨-, e⟩ | ⟨e, -⟩ | ⟨v', e | e, -⟩
        · exact e
        all_goals (rw [hp] at e; cases e)
      case sendBuf hc' _ _ => rw [ih1] at hc'; cases hc'
      case sendDirect hc' _ _ => rw [ih1] at hc'; cases hc'
      case sendClosed hc' _ => rw [ih1] at hc'; cases hc'
      case envSend hc' _ _ => rw [ih1] at hc'; cases hc'
      case stop v hp hq =>
        refine ⟨ih1, ih2, .inr (.inr ⟨v, .inr rfl, ?_⟩)⟩
        rcases ih3 with ⟨e, -⟩ | ⟨e, -⟩ | ⟨v', e | e, hn⟩
        · rw [hp] at e; cases e
        · rw [hp] at e; cases e
        · rw [hp] at e; cases e; exact hn
        · rw [hp] at e; cases e
      case recv k x r hb =>
        refine ⟨ih1, ?_, ih3⟩
        rw [← ih2, hb]
        simp only [List.map_append, List.map_cons, List.map_nil, mine_append]
        cases x <;> simp [mine]
      case envDirect v k hb =>
        refine ⟨ih1, ?_, ih3⟩
        rw [← ih2]
        simp only [List.map_append, List.map_cons, List.map_nil, mine_append]
        simp [mine]
      all_goals exact ⟨ih1, ih2, ih3⟩
  exact key.2

theorem values_append (next : σ → Go (α × σ)) (s : σ) (a b : List α) (s' : σ) (h : values next (a ++ b).length s = .ok (a ++ b, s')) :
    ∃ m, values next a.length s = .ok (a, m) ∧ values next b.length m = .ok (b, s') := by
  induction b using List.reverseRecOn generalizing s' with
  | nil => exact ⟨s', by simpa using h, rfl⟩
  | append_singleton b v ih =>
    rw [← List.append_assoc, List.length_append, List.length_singleton, values] at h
    cases hv : values next (a ++ b).length s with
    | error e => rw [hv] at h; cases h
    | ok r =>
      obtain ⟨vs, m⟩ := r
      rw [hv] at h
      simp only [bind, Except.bind] at h
      cases hn : next m with
      | error e => rw [hn] at h; cases h
      | ok q =>
        rw [hn] at h
        simp only [pure, Except.pure, Except.ok.injEq, Prod.mk.injEq] at h
        have e := List.append_inj' h.1 rfl
        rw [e.1] at hv
        obtain ⟨m', h1, h2⟩ := ih m hv
        refine ⟨m', h1, ?_⟩
        rw [List.length_append, List.length_singleton, values, h2]
        simp only [bind, Except.bind, hn, pure, Except.pure]
        rw [e.2, h.2]

theorem values_one (next : σ → Go (α × σ)) (s : σ) (v : α) (s' : σ) (h : values next 1 s = .ok ([v], s')) : next s = .ok (v, s') := by
  simp only [values, bind, Except.bind] at h
  cases hn : next s with
  | error e => rw [hn] at h; cases h
  | ok q =>
    rw [hn] at h
    simp only [pure, Except.pure, Except.ok.injEq, Prod.mk.injEq, List.nil_append, List.cons.injEq, and_true] at h
    rw [← h.1, ← h.2]

/-- C32, the other direction: every mixture of the first values of the source, in order, with values of others can be what arrives over a
channel of capacity `c` (by whatever receivers), with up to `c` more still in the channel. -/
theorem C32_any_mixture (next : σ → Go (α × σ)) (s0 : State σ α) (h0 : s0.Initial) (c : Nat) (hc : s0.cap = some c) (ho : s0.closed = false)
    (hb : s0.buf = []) (out : List (Nat × Item α)) (rest : List (Item α)) (hr : rest.length ≤ c) (src : σ)
    (hv : values next (mine (out.map (·.2)) ++ mine rest).length s0.src = .ok (mine (out.map (·.2)) ++ mine rest, src)) :
    ∃ s, Steps next s0 s ∧ s.phase = .top ∧ s.recvd = out ∧ s.buf = rest ∧ s.src = src := by
  have one : ∀ out src, values next (mine (out.map (·.2))).length s0.src = .ok (mine (out.map (·.2)), src) →
      Steps next s0 { s0 with recvd := out, src := src } := by
    intro out
    induction out using List.reverseRecOn with
    | nil =>
      intro src hv
      cases hv
      have : s0 = { s0 with recvd := [], src := s0.src } := by
        obtain ⟨a1, a2, a3, a4, a5, a6, a7, a8⟩ := s0
        have h6 : a6 = [] := h0.2.1
        rw [h6]
      rw [← this]
      exact .refl _
    | append_singleton out x ih =>
      intro src hv
      obtain ⟨k, x⟩ := x
      rw [List.map_append, mine_append] at hv
      obtain ⟨m, h1, h2⟩ := values_append next _ _ _ _ hv
      have h3 := ih m h1
      cases x with
      | mine v =>
        have h4 := values_one next m v src h2
        exact (h3.snoc (.draw _ v src h0.1 h4)).snoc (.sendDirect _ v c k rfl hc ho hb) |> fun h => by
          have e := h0.1
          obtain ⟨a1, a2, a3, a4, a5, a6, a7, a8⟩ := s0
          simp only at e
          subst e
          exact h
      | foreign v =>
        cases h2
        exact h3.snoc (.envDirect _ v k hb)
  rw [List.length_append] at hv
  obtain ⟨m, h1, h2⟩ := values_append next _ _ _ _ (by rw [List.length_append]; exact hv)
  have two : ∀ rest : List (Item α), rest.length ≤ c → ∀ src, values next (mine rest).length m = .ok (mine rest, src) →
      Steps next s0 { s0 with recvd := out, buf := rest, src := src } := by
    intro rest
    induction rest using List.reverseRecOn with
    | nil =>
      intro _ src hv
      cases hv
      have := one out m h1
      have e : { s0 with recvd := out, src := m } = { s0 with recvd := out, buf := [], src := m } := by
        obtain ⟨a1, a2, a3, a4, a5, a6, a7, a8⟩ := s0
        simp only at hb
        rw [hb]
      rw [← e]
      exact this
    | append_singleton rest x ih =>
      intro hl src hv
      rw [List.length_append, List.length_singleton] at hl
      rw [mine_append] at hv
      obtain ⟨m', h1, h2⟩ := values_append next _ _ _ _ hv
      have h3 := ih (by omega) m' h1
      cases x with
      | mine v =>
        have h4 := values_one next m' v src h2
        exact (h3.snoc (.draw _ v src h0.1 h4)).snoc (.sendBuf _ v c rfl hc ho (by simp only; omega)) |> fun h => by
          have e := h0.1
          obtain ⟨a1, a2, a3, a4, a5, a6, a7, a8⟩ := s0
          simp only at e
          subst e
          exact h
      | foreign v =>
        cases h2
        exact h3.snoc (.envSend _ v c hc ho (by simp only; omega))
  exact ⟨_, two rest hr src h2, h0.1, rfl, rfl, rfl⟩

/-- C32: whoever receives gets the oldest item in the channel. -/
theorem C32_recv (next : σ → Go (α × σ)) (s : State σ α) (k : Nat) (x : Item α) (r : List (Item α)) (hb : s.buf = x :: r) :
    ∃ t, Step next s t ∧ t.recvd = s.recvd ++ [(k, x)] ∧ t.buf = r ∧ t.phase = s.phase ∧ t.src = s.src :=
  ⟨_, .recv s k x r hb, rfl, rfl, rfl, rfl⟩

/-- Non-vacuity of C32 and C33: an execution of a counter over a channel of capacity 1 in which two values are delivered, one
is in the channel, the goroutine has stopped and lost one. -/
example : ∃ s0 s : State Nat Nat, s0.Initial ∧ Steps (fun n => .ok (n, n + 1)) s0 s ∧ s.recvd.map (·.1) = [7, 8] ∧
    mine (s.recvd.map (·.2)) = [0, 1] ∧ mine s.buf = [2] ∧ s.phase = .stopped 3 := by
  refine ⟨⟨0, .top, some 1, [], false, [], some 0, false⟩,
    ⟨4, .stopped 3, some 1, [.mine 2], false, [(7, .mine 0), (8, .mine 1)], some 0, false⟩, ⟨rfl, rfl, by simp⟩, ?_, rfl, rfl, rfl, rfl⟩
  have h1 := Steps.snoc (Steps.refl _) (Step.draw (next := fun n => .ok (n, n + 1)) (⟨0, .top, some 1, [], false, [], some 0, false⟩ : State Nat Nat) 0 1 rfl rfl)
  have h2 := Steps.snoc h1 (.sendDirect _ 0 1 7 rfl rfl rfl rfl)
  have h3 := Steps.snoc h2 (.draw _ 1 2 rfl rfl)
  have h4 := Steps.snoc h3 (.sendBuf _ 1 1 rfl rfl rfl (by simp))
  have h5 := Steps.snoc h4 (.draw _ 2 3 rfl rfl)
  have h6 := Steps.snoc h5 (.recv _ 8 (.mine 1) [] rfl)
  have h7 := Steps.snoc h6 (.sendBuf _ 2 1 rfl rfl rfl (by simp))
  have h8 := Steps.snoc h7 (.draw _ 3 4 rfl rfl)
  have h9 := Steps.snoc h8 (.quitSend _ 0 rfl)
  exact Steps.snoc h9 (.stop _ 3 rfl (.inl ⟨0, rfl⟩))

end Yield
end Crazy
