/-
C97: several yielders on the same channels.
-/
import Verif.Model.Yielders
import Verif.Props.Yield
import Mathlib.Data.Fintype.BigOperators
import Mathlib.Algebra.Order.BigOperators.Group.Finset
import Mathlib.Algebra.Ring.Nat
namespace Crazy
namespace Yield

variable {ι : Type} [DecidableEq ι] {σ : ι → Type} {α : Type}

/-- Specification: the values of yielder `i` among items. -/
def valuesOf (i : ι) (l : List (Option ι × α)) : List α := (l.filter fun x => x.1 = some i).map (·.2)

/-- Specification: yielder `i` has returned. -/
def Multi.Stopped (s : Multi ι σ α) (i : ι) : Prop := ∃ v, s.phase i = .stopped v

/-- Specification: yielder `i` has panicked. -/
def Multi.Crashed (s : Multi ι σ α) (i : ι) : Prop := ∃ v, s.phase i = .crashed v

/-- An item as one yielder sees it. -/
def seenBy (i : ι) (x : Option ι × α) : Item α := if x.1 = some i then .mine x.2 else .foreign x.2

/-- The system as one yielder sees it. -/
def Multi.view (s : Multi ι σ α) (i : ι) : State (σ i) α where
  src := s.src i
  phase := s.phase i
  cap := s.cap
  buf := s.buf.map (seenBy i)
  closed := s.closed
  recvd := s.recvd.map fun x => (x.1, seenBy i x.2)
  quitPending := s.quitPending
  quitClosed := s.quitClosed

theorem mine_seenBy (i : ι) (l : List (Option ι × α)) : mine (l.map (seenBy i)) = valuesOf i l := by
  induction l with
  | nil => rfl
  | cons x l ih =>
    unfold valuesOf at *
    by_cases h : x.1 = some i
    · rw [List.filter_cons_of_pos (by simpa using h), List.map_cons, List.map_cons, seenBy, if_pos h, mine, ih]
    · rw [List.filter_cons_of_neg (by simpa using h), List.map_cons, seenBy, if_neg h, mine, ih]

theorem Steps.one {σ α : Type} {next : σ → Go (α × σ)} {s t : State σ α} (h : Step next s t) : Steps next s t := .snoc (.refl s) h

theorem Steps.trans {σ α : Type} {next : σ → Go (α × σ)} {s t u : State σ α} (h : Steps next s t) (h' : Steps next t u) : Steps next s u := by
  induction h' with
  | refl => exact h
  | snoc _ h2 ih => exact .snoc ih h2

theorem view_own (next : (i : ι) → σ i → Go (α × σ i)) (s t : Multi ι σ α) (h : Own next s t) (i : ι) : Steps (next i) (s.view i) (t.view i) := by
  cases h with
  | draw j v w h hn =>
    by_cases hj : j = i
    · subst hj
      refine .one ?_
      have := Step.draw (next := next j) (s.view j) v w h hn
      simpa [Multi.view] using this
    · have : (Multi.view { s with phase := Function.update s.phase j (.offer v), src := Function.update s.src j w } i) = s.view i := by
        unfold Multi.view
        simp only [Function.update_of_ne (Ne.symm hj)]
      rw [this]
      exact .refl _
  | drawPanic j e h hn =>
    by_cases hj : j = i
    · subst hj
      refine .one ?_
      have := Step.drawPanic (next := next j) (s.view j) e h hn
      simpa [Multi.view] using this
    · have : (Multi.view { s with phase := Function.update s.phase j (.crashed none) } i) = s.view i := by
        unfold Multi.view
        simp only [Function.update_of_ne (Ne.symm hj)]
      rw [this]
      exact .refl _
  | sendBuf j v c h hc ho hb =>
    by_cases hj : j = i
    · subst hj
      refine .one ?_
      have := Step.sendBuf (next := next j) (s.view j) v c h hc ho (by simpa [Multi.view] using hb)
      simpa [Multi.view, seenBy] using this
    · refine .one ?_
      have := Step.envSend (next := next i) (s.view i) v c hc ho (by simpa [Multi.view] using hb)
      simpa [Multi.view, seenBy, hj, Function.update_of_ne (Ne.symm hj)] using this
  | sendClosed j v c h hc ho =>
    by_cases hj : j = i
    · subst hj
      refine .one ?_
      have := Step.sendClosed (next := next j) (s.view j) v c h hc ho
      simpa [Multi.view] using this
    · have : (Multi.view { s with phase := Function.update s.phase j (.crashed (some v)) } i) = s.view i := by
        unfold Multi.view
        simp only [Function.update_of_ne (Ne.symm hj)]
      rw [this]
      exact .refl _
  | stop j v h hq =>
    by_cases hj : j = i
    · subst hj
      refine .one ?_
      have := Step.stop (next := next j) (s.view j) v h hq
      simpa [Multi.view, State.quitTaken] using this
    · cases hp : s.quitPending with
      | none =>
        rcases hq with ⟨n, hn⟩ | ⟨h1, -⟩
        · rw [hp] at hn; cases hn
        · exact absurd hp h1
      | some n =>
        cases n with
        | zero =>
          have : (Multi.view { s with phase := Function.update s.phase j (.stopped v), quitPending := s.quitPending.map fun n => n - 1 } i) = s.view i := by
            unfold Multi.view
            simp only [Function.update_of_ne (Ne.symm hj), hp, Option.map_some]
          rw [hp] at this
          rw [this]
          exact .refl _
        | succ n =>
          refine .one ?_
          have := Step.quitTake (next := next i) (s.view i) n hp
          simpa [Multi.view, Function.update_of_ne (Ne.symm hj)] using this

theorem view_other (next : (i : ι) → σ i → Go (α × σ i)) (s t : Multi ι σ α) (h : Other s t) (i : ι) : Steps (next i) (s.view i) (t.view i) := by
  refine .one ?_
  cases h with
  | sendDirect j v c k h hc ho hb =>
    by_cases hj : j = i
    · subst hj
      have := Step.sendDirect (next := next j) (s.view j) v c k h hc ho (by simpa [Multi.view] using hb)
      simpa [Multi.view, seenBy] using this
    · have := Step.envDirect (next := next i) (s.view i) v k (by simpa [Multi.view] using hb)
      simpa [Multi.view, seenBy, hj, Function.update_of_ne (Ne.symm hj)] using this
  | recv k x r hb =>
    have := Step.recv (next := next i) (s.view i) k (seenBy i x) (r.map (seenBy i)) (by simp [Multi.view, hb])
    simpa [Multi.view] using this
  | envSend v c hc ho hb =>
    have := Step.envSend (next := next i) (s.view i) v c hc ho (by simpa [Multi.view] using hb)
    simpa [Multi.view, seenBy] using this
  | envDirect v k c hc ho hb =>
    have := Step.envDirect (next := next i) (s.view i) v k (by simpa [Multi.view] using hb)
    simpa [Multi.view, seenBy] using this
  | envClose c hc ho => exact Step.envClose (next := next i) (s.view i)
  | quitSend n hq ho => exact Step.quitSend (next := next i) (s.view i) n hq
  | quitClose hq ho => exact Step.quitClose (next := next i) (s.view i) hq
  | quitTake n hq => exact Step.quitTake (next := next i) (s.view i) n hq

/-- C97: every execution of the whole system is, as seen by each single yielder, an execution of that yielder alone with the others as part
of its environment: what C32 and C33 say holds for each. -/
theorem C97_each (next : (i : ι) → σ i → Go (α × σ i)) (s t : Multi ι σ α) (h : MSteps next s t) (i : ι) :
    Steps (next i) (s.view i) (t.view i) := by
  induction h with
  | refl => exact .refl _
  | own _ h2 ih => exact ih.trans (view_own next _ _ h2 i)
  | other _ h2 ih => exact ih.trans (view_other next _ _ h2 i)

theorem view_initial (s : Multi ι σ α) (h : s.Initial) (i : ι) : (s.view i).Initial := by
  obtain ⟨h1, h2, h3, -⟩ := h
  refine ⟨h1 i, by simp [Multi.view, h2], fun x hx => ?_⟩
  obtain ⟨y, hy, rfl⟩ := List.mem_map.mp hx
  exact ⟨y.2, by rw [seenBy, h3 y hy, if_neg (by simp)]⟩

/-- C97: however many yielders send over the same channel, the values of each of them arrive in order, none lost, none twice: what has been
received of yielder `i`, followed by what is in the channel of it, followed by the value computed and not sent, are the first `k` values of its source. -/
theorem C97_in_order (next : (i : ι) → σ i → Go (α × σ i)) (s0 s : Multi ι σ α) (h0 : s0.Initial) (h : MSteps next s0 s) (i : ι) :
    ∃ k, values (next i) k (s0.src i) =
      .ok (valuesOf i (s.recvd.map (·.2)) ++ valuesOf i s.buf ++ unsent (s.phase i), s.src i) := by
  obtain ⟨k, hk⟩ := C32_in_order (next i) _ _ (view_initial s0 h0 i) (C97_each next s0 s h i)
  refine ⟨k, ?_⟩
  have e : (s.view i).recvd.map (·.2) = (s.recvd.map (·.2)).map (seenBy i) := by
    simp [Multi.view, Function.comp_def]
  rw [e, mine_seenBy, show (s.view i).buf = s.buf.map (seenBy i) from rfl, mine_seenBy] at hk
  exact hk

section
variable [Fintype ι]
open Classical in
/-- Specification: how many yielders have returned. -/
noncomputable def Multi.numStopped (s : Multi ι σ α) : Nat := (Finset.univ.filter fun i => s.Stopped i).card

omit [DecidableEq ι] in
theorem numStopped_eq_of (s t : Multi ι σ α) (h : ∀ i, t.Stopped i ↔ s.Stopped i) : t.numStopped = s.numStopped := by
  classical
  unfold Multi.numStopped
  exact congrArg Finset.card (Finset.filter_congr fun i _ => h i)

theorem numStopped_succ (s t : Multi ι σ α) (i : ι) (hi : ¬ s.Stopped i) (ht : t.Stopped i) (h : ∀ j, j ≠ i → (t.Stopped j ↔ s.Stopped j)) :
    t.numStopped = s.numStopped + 1 := by
  classical
  unfold Multi.numStopped
  rw [← Finset.card_insert_of_notMem (a := i) (s := Finset.univ.filter fun i => s.Stopped i) (by simp [hi])]
  congr 1
  ext j
  simp only [Finset.mem_filter, Finset.mem_univ, true_and, Finset.mem_insert]
  by_cases hj : j = i
  · subst hj; simp [ht]
  · simp [hj, h j hj]

omit [Fintype ι] in
theorem stopped_update (s : Multi ι σ α) (i j : ι) (p : Phase α) (hs : ¬ s.Stopped i) (hp : ∀ v, p ≠ .stopped v)
    (t : Multi ι σ α) (ht : t.phase = Function.update s.phase i p) : t.Stopped j ↔ s.Stopped j := by
  unfold Multi.Stopped at *
  rw [ht]
  by_cases hj : j = i
  · subst hj
    rw [Function.update_self]
    exact ⟨fun ⟨v, hv⟩ => absurd hv (hp v), fun h => absurd h hs⟩
  · rw [Function.update_of_ne hj]

/-- C97: as long as `quit` is not closed, every value offered on it stops one yielder and no more, if nobody else takes it: the number of
yielders that have returned, of values still on offer and of those others have taken add up to the number of values offered. -/
theorem C97_one_each (next : (i : ι) → σ i → Go (α × σ i)) (s0 s : Multi ι σ α) (h0 : s0.Initial) (n0 : Nat) (hq : s0.quitPending = some n0)
    (h : MSteps next s0 s) (hc : s.quitClosed = false) :
    ∃ n, s.quitPending = some n ∧ s.numStopped + n + s.quitOther = n0 + s.quitSent := by
  induction h with
  | refl =>
    refine ⟨n0, hq, ?_⟩
    have : s0.numStopped = 0 := by
      classical
      unfold Multi.numStopped
      rw [Finset.card_eq_zero, Finset.filter_eq_empty_iff]
      rintro i - ⟨v, hv⟩
      rw [h0.1 i] at hv
      cases hv
    rw [this, h0.2.2.2.1, h0.2.2.2.2]
    omega
  | @own t u hs hstep ih =>
    have ns : ∀ {t : Multi ι σ α} {i : ι} {p : Phase α}, t.phase i = p → (∀ v, p ≠ .stopped v) → ¬ t.Stopped i := by
      rintro t i p hp hne ⟨v, hv⟩
      exact hne v (hp ▸ hv)
    cases hstep with
    | draw i v w h hn =>
      obtain ⟨n, h1, h2⟩ := ih hc
      refine ⟨n, h1, ?_⟩
      rw [numStopped_eq_of t _ fun j => stopped_update t i j (.offer v) (ns h (by simp)) (by simp) _ rfl]
      exact h2
    | drawPanic i e h hn =>
      obtain ⟨n, h1, h2⟩ := ih hc
      refine ⟨n, h1, ?_⟩
      rw [numStopped_eq_of t _ fun j => stopped_update t i j (.crashed none) (ns h (by simp)) (by simp) _ rfl]
      exact h2
    | sendBuf i v c h hcap ho hb =>
      obtain ⟨n, h1, h2⟩ := ih hc
      refine ⟨n, h1, ?_⟩
      rw [numStopped_eq_of t _ fun j => stopped_update t i j .top (ns h (by simp)) (by simp) _ rfl]
      exact h2
    | sendClosed i v c h hcap ho =>
      obtain ⟨n, h1, h2⟩ := ih hc
      refine ⟨n, h1, ?_⟩
      rw [numStopped_eq_of t _ fun j => stopped_update t i j (.crashed (some v)) (ns h (by simp)) (by simp) _ rfl]
      exact h2
    | stop i v h hr =>
      obtain ⟨n, h1, h2⟩ := ih hc
      rcases hr with ⟨m, hm⟩ | ⟨-, h4⟩
      · rw [h1] at hm
        cases hm
        refine ⟨m, by simp [h1], ?_⟩
        rw [numStopped_succ t _ i (ns h (by simp)) ⟨v, by simp⟩ fun j hj => by unfold Multi.Stopped; simp [Function.update_of_ne hj]]
        show t.numStopped + 1 + m + t.quitOther = n0 + t.quitSent
        omega
      · have hc : t.quitClosed = false := hc
        rw [hc] at h4
        cases h4
  | @other t u hs hstep ih =>
    have ns : ∀ {t : Multi ι σ α} {i : ι} {p : Phase α}, t.phase i = p → (∀ v, p ≠ .stopped v) → ¬ t.Stopped i := by
      rintro t i p hp hne ⟨v, hv⟩
      exact hne v (hp ▸ hv)
    cases hstep with
    | sendDirect i v c k h hcap ho hb =>
      obtain ⟨n, h1, h2⟩ := ih hc
      refine ⟨n, h1, ?_⟩
      rw [numStopped_eq_of t _ fun j => stopped_update t i j .top (ns h (by simp)) (by simp) _ rfl]
      exact h2
    | quitSend n hq ho =>
      obtain ⟨m, h1, h2⟩ := ih hc
      rw [hq] at h1
      cases h1
      refine ⟨n + 1, rfl, ?_⟩
      have e : Multi.numStopped { t with quitPending := some (n + 1), quitSent := t.quitSent + 1 } = t.numStopped := rfl
      rw [e]
      show t.numStopped + (n + 1) + t.quitOther = n0 + (t.quitSent + 1)
      omega
    | quitClose hq ho => cases hc
    | quitTake n hq =>
      obtain ⟨m, h1, h2⟩ := ih hc
      rw [hq] at h1
      cases h1
      refine ⟨n, rfl, ?_⟩
      have e : Multi.numStopped { t with quitPending := some n, quitOther := t.quitOther + 1 } = t.numStopped := rfl
      rw [e]
      show t.numStopped + n + (t.quitOther + 1) = n0 + t.quitSent
      omega
    | recv k x r hb => exact ih hc
    | envSend v c hcap ho hb => exact ih hc
    | envDirect v k c hcap ho hb => exact ih hc
    | envClose c hcap ho => exact ih hc

/-- What a yielder may still do on its own. -/
def todo : Phase α → Nat
  | .top => 2
  | .offer _ => 1
  | .stopped _ => 0
  | .crashed _ => 0

/-- What all of them may still do on their own. -/
def Multi.todo (s : Multi ι σ α) : Nat := 2 * (s.cap.getD 0 - s.buf.length) + ∑ i, Yield.todo (s.phase i)

theorem sum_update (s : ι → Phase α) (i : ι) (p : Phase α) :
    ∑ j, todo (Function.update s i p j) + todo (s i) = ∑ j, todo (s j) + todo p := by
  rw [← Finset.sum_erase_add Finset.univ (fun j => todo (s j)) (Finset.mem_univ i),
    ← Finset.sum_erase_add Finset.univ (fun j => todo (Function.update s i p j)) (Finset.mem_univ i), Function.update_self]
  have : ∑ j ∈ Finset.univ.erase i, todo (Function.update s i p j) = ∑ j ∈ Finset.univ.erase i, todo (s j) :=
    Finset.sum_congr rfl fun j hj => by rw [Function.update_of_ne (Finset.ne_of_mem_erase hj)]
  rw [this]
  omega

theorem own_todo (next : (i : ι) → σ i → Go (α × σ i)) (s t : Multi ι σ α) (h : Own next s t) : t.todo < s.todo := by
  unfold Multi.todo
  cases h with
  | draw i v w h hn =>
    have := sum_update s.phase i (.offer v)
    rw [h] at this
    simp only [todo] at this ⊢
    omega
  | drawPanic i e h hn =>
    have := sum_update s.phase i (.crashed none)
    rw [h] at this
    simp only [todo] at this ⊢
    omega
  | sendBuf i v c h hc ho hb =>
    have := sum_update s.phase i .top
    rw [h] at this
    simp only [hc, Option.getD_some, List.length_append, List.length_singleton]
    simp only [todo] at this ⊢
    omega
  | sendClosed i v c h hc ho =>
    have := sum_update s.phase i (.crashed (some v))
    rw [h] at this
    simp only [todo] at this ⊢
    omega
  | stop i v h hq =>
    have := sum_update s.phase i (.stopped v)
    rw [h] at this
    simp only [todo] at this ⊢
    omega

/-- C97: yielders left to themselves come to rest: they make at most two steps for each free place in the channel and two for each of them. -/
theorem C97_rest (next : (i : ι) → σ i → Go (α × σ i)) (n : Nat) (s t : Multi ι σ α) (h : Owns next n s t) :
    n ≤ 2 * (s.cap.getD 0 - s.buf.length) + 2 * Fintype.card ι := by
  have key : ∀ {n s t}, Owns next n s t → n + t.todo ≤ s.todo := by
    intro n s t h
    induction h with
    | refl => omega
    | snoc _ h2 ih =>
      have := own_todo next _ _ h2
      omega
  have h1 := key h
  have h2 : ∑ i, todo (s.phase i) ≤ 2 * Fintype.card ι := by
    calc ∑ i, todo (s.phase i) ≤ ∑ _i : ι, 2 := Finset.sum_le_sum fun i _ => by cases s.phase i <;> simp [todo]
      _ = 2 * Fintype.card ι := by rw [Finset.sum_const, Finset.card_univ, Nat.nsmul_eq_mul, Nat.mul_comm]
  unfold Multi.todo at h1
  omega

/-- C97: and they do come to rest: whatever they have done so far, some number of steps later none is possible. -/
theorem C97_comes_to_rest (next : (i : ι) → σ i → Go (α × σ i)) (s : Multi ι σ α) : ∃ n t, Owns next n s t ∧ ∀ u, ¬ Own next t u := by
  generalize hk : s.todo = k
  induction k using Nat.strong_induction_on generalizing s with
  | _ k ih =>
    by_cases h : ∃ t, Own next s t
    · obtain ⟨t, ht⟩ := h
      obtain ⟨n, u, h1, h2⟩ := ih t.todo (hk ▸ own_todo next s t ht) t rfl
      refine ⟨n + 1, u, ?_, h2⟩
      clear h2 ih
      induction h1 with
      | refl => exact .snoc (.refl s) ht
      | snoc _ h3 ih => exact .snoc (ih ht) h3
    · exact ⟨0, s, .refl s, fun u hu => h ⟨u, hu⟩⟩

end

/-- C97: when they are at rest, each of them has returned or panicked, or else it waits in its select with a value to send, `over` is nil or full, and
nothing can be received from `quit`. -/
theorem C97_at_rest (next : (i : ι) → σ i → Go (α × σ i)) (s : Multi ι σ α) (h : ∀ t, ¬ Own next s t) (i : ι) :
    s.Stopped i ∨ s.Crashed i ∨
      (∃ v, s.phase i = .offer v) ∧ ¬ s.quitReady ∧ (s.cap = none ∨ ∃ c, s.cap = some c ∧ s.closed = false ∧ c ≤ s.buf.length) := by
  cases hp : s.phase i with
  | top =>
    exfalso
    cases hn : next i (s.src i) with
    | error e => exact h _ (.drawPanic s i e hp hn)
    | ok r => exact h _ (.draw s i r.1 r.2 hp hn)
  | stopped v => exact .inl ⟨v, hp⟩
  | crashed v => exact .inr (.inl ⟨v, hp⟩)
  | offer v =>
    refine .inr (.inr ⟨⟨v, rfl⟩, fun hq => h _ (.stop s i v hp hq), ?_⟩)
    cases hc : s.cap with
    | none => exact .inl rfl
    | some c =>
      refine .inr ⟨c, rfl, ?_⟩
      cases ho : s.closed with
      | true => exact absurd (.sendClosed s i v c hp hc ho) (h _)
      | false =>
        refine ⟨rfl, ?_⟩
        by_contra hb
        exact h _ (.sendBuf s i v c hp hc ho (by omega))

/-- C97: closing `quit` stops them all: whatever happens after it, once nobody receives from `over` (or does anything else) any more and the
yielders are at rest, each has returned, or panicked. -/
theorem C97_close_all (next : (i : ι) → σ i → Go (α × σ i)) (s t : Multi ι σ α) (hq : s.quitPending ≠ none) (hc : s.quitClosed = true)
    (h : MSteps next s t) (hr : ∀ u, ¬ Own next t u) (i : ι) : t.Stopped i ∨ t.Crashed i := by
  have key : t.quitPending ≠ none ∧ t.quitClosed = true := by
    clear hr
    induction h with
    | refl => exact ⟨hq, hc⟩
    | own _ hstep ih =>
      cases hstep with
      | stop j v h hq' => exact ⟨by simpa using ih.1, ih.2⟩
      | draw => exact ih
      | drawPanic => exact ih
      | sendBuf => exact ih
      | sendClosed => exact ih
    | other _ hstep ih =>
      cases hstep with
      | quitSend n hq' ho => rw [ih.2] at ho; cases ho
      | quitClose hq' ho => rw [ih.2] at ho; cases ho
      | quitTake n hq' => exact ⟨by simp, ih.2⟩
      | sendDirect => exact ih
      | recv => exact ih
      | envSend => exact ih
      | envDirect => exact ih
      | envClose => exact ih
  rcases C97_at_rest next t hr i with h1 | h1 | ⟨-, h2, -⟩
  · exact .inl h1
  · exact .inr h1
  · exact absurd (.inr key) h2

/-- C97: a yielder panics only if computing a value does or if somebody closed `over`. -/
theorem C97_crash (next : (i : ι) → σ i → Go (α × σ i)) (s0 s : Multi ι σ α) (h0 : s0.Initial) (h : MSteps next s0 s) (i : ι) (hi : s.Crashed i) :
    s.closed = true ∨ ∃ e w k vs, values (next i) k (s0.src i) = .ok (vs, w) ∧ next i w = .error e := by
  suffices ∀ v, s.phase i = .crashed v → s.closed = true ∨ ∃ e, next i (s.src i) = .error e by
    obtain ⟨v, hv⟩ := hi
    rcases this v hv with h1 | ⟨e, he⟩
    · exact .inl h1
    · obtain ⟨k, hk⟩ := C97_in_order next s0 s h0 h i
      exact .inr ⟨e, _, k, _, hk, he⟩
  clear hi
  induction h with
  | refl => intro v hv; rw [h0.1 i] at hv; cases hv
  | @own t u hs hstep ih =>
    intro v hv
    cases hstep with
    | draw j x w h hn =>
      by_cases hj : j = i
      · subst hj; simp at hv
      · simp only [Function.update_of_ne (Ne.symm hj)] at hv ⊢; exact ih v hv
    | drawPanic j e h hn =>
      by_cases hj : j = i
      · subst hj; exact .inr ⟨e, hn⟩
      · simp only [Function.update_of_ne (Ne.symm hj)] at hv; exact ih v hv
    | sendBuf j x c h hc ho hb =>
      by_cases hj : j = i
      · subst hj; simp at hv
      · simp only [Function.update_of_ne (Ne.symm hj)] at hv; exact ih v hv
    | sendClosed j x c h hc ho => exact .inl ho
    | stop j x h hq =>
      by_cases hj : j = i
      · subst hj; simp at hv
      · simp only [Function.update_of_ne (Ne.symm hj)] at hv; exact ih v hv
  | @other t u hs hstep ih =>
    intro v hv
    cases hstep with
    | sendDirect j x c k h hc ho hb =>
      by_cases hj : j = i
      · subst hj; simp at hv
      · simp only [Function.update_of_ne (Ne.symm hj)] at hv; exact ih v hv
    | envClose c hc ho => exact .inl rfl
    | recv => exact ih v hv
    | envSend => exact ih v hv
    | envDirect => exact ih v hv
    | quitSend => exact ih v hv
    | quitClose => exact ih v hv
    | quitTake => exact ih v hv

theorem valuesOf_append (i : ι) (a b : List (Option ι × α)) : valuesOf i (a ++ b) = valuesOf i a ++ valuesOf i b := by
  simp [valuesOf]

/-- C97, the other direction: every mixture of the first values of the sources, each in order, and of values of others can be what arrives over a
channel that is open and empty, by whatever receivers. -/
theorem C97_any_mixture (next : (i : ι) → σ i → Go (α × σ i)) (s0 : Multi ι σ α) (h0 : s0.Initial) (c : Nat) (hc : s0.cap = some c)
    (ho : s0.closed = false) (hb : s0.buf = []) (out : List (Nat × Option ι × α)) (src : (i : ι) → σ i)
    (hv : ∀ i, values (next i) (valuesOf i (out.map (·.2))).length (s0.src i) = .ok (valuesOf i (out.map (·.2)), src i)) :
    MSteps next s0 { s0 with recvd := out, src := src } := by
  induction out using List.reverseRecOn generalizing src with
  | nil =>
    have e : s0 = { s0 with recvd := [], src := src } := by
      have h1 : s0.src = src := funext fun i => by
        have h := hv i
        rw [List.map_nil, show valuesOf i ([] : List (Option ι × α)) = [] from rfl, List.length_nil, values, Except.ok.injEq, Prod.mk.injEq] at h
        exact h.2
      have h2 := h0.2.1
      obtain ⟨a1, a2, a3, a4, a5, a6, a7, a8, a9, a10⟩ := s0
      simp only at h1 h2
      rw [h1, h2]
    rw [← e]
    exact .refl _
  | append_singleton out x ih =>
    obtain ⟨k, o, v⟩ := x
    cases o with
    | none =>
      have h1 := ih src fun i => by
        have := hv i
        rw [List.map_append, valuesOf_append, show valuesOf i (List.map (·.2) [(k, none, v)]) = [] by simp [valuesOf], List.append_nil] at this
        exact this
      exact .other h1 (.envDirect _ v k c hc ho hb)
    | some i =>
      have hi := hv i
      rw [List.map_append, valuesOf_append, show valuesOf i (List.map (·.2) [(k, some i, v)]) = [v] by simp [valuesOf]] at hi
      obtain ⟨m, h1, h2⟩ := values_append (next i) _ _ _ _ hi
      have h3 := values_one (next i) m v (src i) h2
      have h4 := ih (Function.update src i m) fun j => by
        by_cases hj : j = i
        · subst hj
          rw [Function.update_self]
          exact h1
        · have := hv j
          rw [List.map_append, valuesOf_append, show valuesOf j (List.map (·.2) [(k, some i, v)]) = [] by simp [valuesOf, Ne.symm hj], List.append_nil] at this
          rw [Function.update_of_ne hj]
          exact this
      have h5 := MSteps.own h4 (.draw _ i v (src i) (h0.1 i) (by simpa using h3))
      have h6 := MSteps.other h5 (.sendDirect _ i v c k (by simp) hc ho hb)
      have e1 : Function.update (Function.update s0.phase i (.offer v)) i .top = s0.phase := by
        rw [Function.update_idem, ← h0.1 i, Function.update_eq_self]
      have e2 : Function.update (Function.update src i m) i (src i) = src := by
        rw [Function.update_idem, Function.update_eq_self]
      simp only [e1, e2] at h6
      exact h6

/-- C97: one `StopYielding` can stop any of the yielders that are in their select, and it is used up. -/
theorem C97_stop_any (next : (i : ι) → σ i → Go (α × σ i)) (s : Multi ι σ α) (hq : s.quitPending = some 0) (hc : s.quitClosed = false) (i : ι) (v : α)
    (h : s.phase i = .offer v) : ∃ t, MSteps next s t ∧ t.phase i = .stopped v ∧ (∀ j, j ≠ i → t.phase j = s.phase j) ∧ t.quitPending = some 0 ∧
      t.recvd = s.recvd ∧ t.buf = s.buf := by
  refine ⟨_, .own (.other (.refl s) (.quitSend s 0 hq hc)) (.stop _ i v h (.inl ⟨0, rfl⟩)), by simp, fun j hj => ?_, rfl, rfl, rfl⟩
  show Function.update s.phase i _ j = _
  rw [Function.update_of_ne hj]

/-- Two yielders that count, one from 0 and one from 100, over one channel of capacity 1. -/
def two : Multi (Fin 2) (fun _ => Nat) Nat := ⟨fun i => 100 * i.val, fun _ => .top, some 1, [], false, [], some 0, false, 0, 0⟩

/-- Non-vacuity of C97: an execution in which a value of each arrives, one `StopYielding` stops the first, and the second goes on. -/
example : two.Initial ∧ ∃ s, MSteps (fun _ n => .ok (n, n + 1)) two s ∧ valuesOf 0 (s.recvd.map (·.2)) = [0] ∧ valuesOf 1 (s.recvd.map (·.2)) = [100] ∧
    s.Stopped 0 ∧ s.phase 1 = .offer 101 ∧ s.quitPending = some 0 ∧ s.quitSent = 1 := by
  refine ⟨⟨fun _ => rfl, rfl, by simp [two], rfl, rfl⟩, ?_⟩
  have h1 := MSteps.own (MSteps.refl (next := fun (_ : Fin 2) (n : Nat) => Except.ok (n, n + 1)) two) (.draw _ 0 0 1 rfl rfl)
  have h2 := MSteps.own h1 (.draw _ 1 100 101 rfl rfl)
  have h3 := MSteps.own h2 (.sendBuf _ 0 0 1 rfl rfl rfl (by simp [two]))
  have h4 := MSteps.own h3 (.draw _ 0 1 2 rfl rfl)
  have h5 := MSteps.other h4 (.recv _ 7 (some 0, 0) [] rfl)
  have h6 := MSteps.other h5 (.sendDirect _ 1 100 1 8 rfl rfl rfl rfl)
  have h7 := MSteps.own h6 (.draw _ 1 101 102 rfl rfl)
  have h8 := MSteps.other h7 (.quitSend _ 0 rfl rfl)
  have h9 := MSteps.own h8 (.stop _ 0 1 rfl (.inl ⟨0, rfl⟩))
  exact ⟨_, h9, rfl, rfl, ⟨1, rfl⟩, rfl, rfl, rfl⟩

end Yield
end Crazy
