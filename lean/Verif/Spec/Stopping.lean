/-
Specification vocabulary: how soon a yielder stops. The Go specification says of `select`: "If one or more of the communications can
proceed, a single one that can proceed is chosen via a uniform pseudo-random selection." Here each select statement in which both cases can
proceed is decided by a fair coin; everything else - when the goroutine runs, what receivers, other senders and other yielders do - is up to a
scheduler that knows all that has happened, but not the coins to come.
-/
import Verif.Model.Yield
import Mathlib.SetTheory.Cardinal.Finite
import Mathlib.Data.Real.Basic
namespace Crazy
namespace Yield

variable {σ α : Type}

/-- What can happen between two selects of the goroutine: steps of the others, and computing the value to be sent. -/
inductive Quiet (next : σ → Go (α × σ)) : State σ α → State σ α → Prop where
  | refl (s) : Quiet next s s
  | snoc {s t u} (h : Quiet next s t) (h' : Step next t u) (hp : t.phase = .top ∨ u.phase = t.phase) : Quiet next s u

/-- A scheduler: from the states after the selects so far (the last one first), and the present state, the state in which the goroutine comes
to its next select and, if the value can be sent there, the state after sending it. Or there is no further select. -/
abbrev Scheduler (σ α : Type) := List (State σ α) → State σ α → Option (State σ α × Option (State σ α))

/-- What the scheduler does is possible, and a receive from `quit` can proceed at each select. -/
def Scheduler.Legal (next : σ → Go (α × σ)) (sch : Scheduler σ α) : Prop :=
  ∀ past s a o, sch past s = some (a, o) → Quiet next s a ∧ (∃ v, a.phase = .offer v) ∧ a.quitReady ∧
    ∀ u, o = some u → Step next a u ∧ ((u.phase = .top) ∨ ∃ x, u.phase = .crashed x)

/-- How the run stands when the coins are used up. -/
inductive Outcome (σ α : Type) where
  /-- the goroutine has returned -/
  | stopped (s : State σ α)
  /-- it has not -/
  | running (s : State σ α)
  /-- it has not, and there was no further select -/
  | noSelect (s : State σ α)

/-- The state then. -/
def Outcome.state : Outcome σ α → State σ α
  | .stopped s => s
  | .running s => s
  | .noSelect s => s

/-- The goroutine takes the other case and returns (`util.go` 199-200, 214-215). -/
def State.quitNow (s : State σ α) : State σ α :=
  match s.phase with
  | .offer v => { s with phase := .stopped v, quitPending := s.quitTaken }
  | _ => s

/-- The run: one coin for each select, `true` for `quit`. -/
def Scheduler.play (sch : Scheduler σ α) : List Bool → List (State σ α) → State σ α → Outcome σ α
  | [], _, s => .running s
  | c :: cs, past, s => match sch past s with
    | none => .noSelect s
    | some (a, none) => .stopped a.quitNow
    | some (a, some u) => if c then .stopped a.quitNow else sch.play cs (s :: past) u

/-- How many values the goroutine has sent. -/
def State.sent (s : State σ α) : Nat := ((s.recvd.map (·.2)) ++ s.buf).countP fun x => match x with | .mine _ => true | .foreign _ => false

/-- The probability of `P` for `k` coins. -/
noncomputable def coinShare (k : Nat) (P : List Bool → Prop) : ℝ := (Nat.card {cs : List Bool // cs.length = k ∧ P cs} : ℝ) / 2 ^ k

/-- All ways `k` coins can fall. -/
def coins : Nat → List (List Bool)
  | 0 => [[]]
  | k + 1 => (coins k).map (true :: ·) ++ (coins k).map (false :: ·)

/-- The mean of `f` for `k` coins. -/
noncomputable def coinMean (k : Nat) (f : List Bool → ℝ) : ℝ := ((coins k).map f).sum / 2 ^ k

end Yield
end Crazy
