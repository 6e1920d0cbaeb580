/-
Specification vocabulary: how soon several yielders on the same channels stop. As in `Verif/Spec/Stopping.lean`, each select statement in
which both cases can proceed is decided by a fair coin, and everything else is up to a scheduler that knows all that has happened: also which
of the yielders comes to its select next.
-/
import Verif.Model.Yielders
import Verif.Spec.Stopping
namespace Crazy
namespace Yield

variable {ι : Type} [DecidableEq ι] {σ : ι → Type} {α : Type}

/-- What can happen between two selects: any steps in which no yielder leaves its select. -/
inductive QuietAll (next : (i : ι) → σ i → Go (α × σ i)) : Multi ι σ α → Multi ι σ α → Prop where
  | refl (s) : QuietAll next s s
  | snoc {s t u} (h : QuietAll next s t) (h' : Own next t u ∨ Other t u) (hp : ∀ i v, t.phase i = .offer v → u.phase i = .offer v) :
      QuietAll next s u

/-- A scheduler: from the states after the selects so far (the last one first), and the present state, the yielder that comes to a select
next, the state in which it does and, if its value can be sent there, the state after sending it. Or there is no further select. -/
abbrev SchedulerAll (ι : Type) (σ : ι → Type) (α : Type) :=
  List (Multi ι σ α) → Multi ι σ α → Option (ι × Multi ι σ α × Option (Multi ι σ α))

/-- What the scheduler does is possible, and a receive from `quit` can proceed at each select. -/
def SchedulerAll.Legal (next : (i : ι) → σ i → Go (α × σ i)) (sch : SchedulerAll ι σ α) : Prop :=
  ∀ past s i a o, sch past s = some (i, a, o) → QuietAll next s a ∧ (∃ v, a.phase i = .offer v) ∧ a.quitReady ∧
    ∀ u, o = some u → (Own next a u ∨ Other a u) ∧ (u.phase i = .top ∨ ∃ x, u.phase i = .crashed x)

/-- Yielder `i` takes the other case and returns (`util.go` 199-200, 214-215). -/
def Multi.quitNow (s : Multi ι σ α) (i : ι) : Multi ι σ α :=
  match s.phase i with
  | .offer v => { s with phase := Function.update s.phase i (.stopped v), quitPending := s.quitPending.map fun n => n - 1 }
  | _ => s

/-- How the run stands when the coins are used up, or when there is no further select. -/
inductive OutcomeAll (ι : Type) (σ : ι → Type) (α : Type) where
  | tossed (s : Multi ι σ α)
  | noSelect (s : Multi ι σ α)

/-- The state then. -/
def OutcomeAll.state : OutcomeAll ι σ α → Multi ι σ α
  | .tossed s => s
  | .noSelect s => s

/-- The run: one coin for each select, `true` for `quit`. (Where the value cannot be sent, the coin does not matter.) -/
def SchedulerAll.play (sch : SchedulerAll ι σ α) : List Bool → List (Multi ι σ α) → Multi ι σ α → OutcomeAll ι σ α
  | [], _, s => .tossed s
  | c :: cs, past, s => match sch past s with
    | none => .noSelect s
    | some (i, a, o) => sch.play cs (s :: past) (if c then a.quitNow i else o.getD (a.quitNow i))

/-- How many values the yielders have sent, together. -/
def Multi.sent (s : Multi ι σ α) : Nat := (s.recvd.map (·.2) ++ s.buf).countP fun x => x.1.isSome

/-- Yielder `i` has neither returned nor panicked. -/
def Multi.Live (s : Multi ι σ α) (i : ι) : Prop := s.phase i = .top ∨ ∃ v, s.phase i = .offer v

open Classical in
/-- How many have neither returned nor panicked. -/
noncomputable def Multi.live [Fintype ι] (s : Multi ι σ α) : Nat := (Finset.univ.filter fun i => s.Live i).card

end Yield
end Crazy
