/-
Model of several yielders (`util.go` 191-223) that were given the same `over` and the same `quit` channel, with everybody else who uses these
channels, as a transition system. `Verif/Model/Yield.lean` is the same seen from one of them.
-/
import Verif.Model.Yield
import Mathlib.Logic.Function.Basic
namespace Crazy
namespace Yield

variable {ι : Type} [DecidableEq ι] {σ : ι → Type} {α : Type}

/-- The system: yielder `i` has the random source `src i` of its own and is at `phase i`. Items of `over` are tagged with the yielder that
sent them (`none`: somebody else). `recvd` records what has been received from `over`, `quitSent` how many values have been offered
on `quit`, `quitOther` how many of them others than the yielders have taken. -/
structure Multi (ι : Type) (σ : ι → Type) (α : Type) where
  src : (i : ι) → σ i
  phase : ι → Phase α
  cap : Option Nat
  buf : List (Option ι × α)
  closed : Bool
  recvd : List (Nat × Option ι × α)
  quitPending : Option Nat
  quitClosed : Bool
  quitSent : Nat
  quitOther : Nat

/-- A receive from `quit` would not block. -/
def Multi.quitReady (s : Multi ι σ α) : Prop := (∃ n, s.quitPending = some (n + 1)) ∨ (s.quitPending ≠ none ∧ s.quitClosed)

/-- A step that a yielder makes without anybody's help (`util.go` 196-202, 211-217). -/
inductive Own (next : (i : ι) → σ i → Go (α × σ i)) : Multi ι σ α → Multi ι σ α → Prop where
  /-- `util.go` 197-198, 212-213: enter the select, computing the value -/
  | draw (s : Multi ι σ α) (i : ι) (v : α) (w : σ i) (h : s.phase i = .top) (hn : next i (s.src i) = .ok (v, w)) :
      Own next s { s with phase := Function.update s.phase i (.offer v), src := Function.update s.src i w }
  /-- computing the value panics -/
  | drawPanic (s : Multi ι σ α) (i : ι) (e : Panic) (h : s.phase i = .top) (hn : next i (s.src i) = .error e) :
      Own next s { s with phase := Function.update s.phase i (.crashed none) }
  /-- the send goes into the buffer -/
  | sendBuf (s : Multi ι σ α) (i : ι) (v : α) (c : Nat) (h : s.phase i = .offer v) (hc : s.cap = some c) (ho : s.closed = false)
      (hb : s.buf.length < c) : Own next s { s with phase := Function.update s.phase i .top, buf := s.buf ++ [(some i, v)] }
  /-- sending on a closed channel panics -/
  | sendClosed (s : Multi ι σ α) (i : ι) (v : α) (c : Nat) (h : s.phase i = .offer v) (hc : s.cap = some c) (ho : s.closed = true) :
      Own next s { s with phase := Function.update s.phase i (.crashed (some v)) }
  /-- `util.go` 199-200, 214-215: receive from `quit`, return -/
  | stop (s : Multi ι σ α) (i : ι) (v : α) (h : s.phase i = .offer v) (hq : s.quitReady) :
      Own next s { s with phase := Function.update s.phase i (.stopped v), quitPending := s.quitPending.map fun n => n - 1 }

/-- A step in which others take part. Simplification: what others do to the channels is restricted only by the rules of the language (no
operation on a nil channel succeeds, nothing is sent on a closed one, none is closed twice). -/
inductive Other : Multi ι σ α → Multi ι σ α → Prop where
  /-- the send of a yielder meets a waiting receiver `k` -/
  | sendDirect (s : Multi ι σ α) (i : ι) (v : α) (c k : Nat) (h : s.phase i = .offer v) (hc : s.cap = some c) (ho : s.closed = false)
      (hb : s.buf = []) : Other s { s with phase := Function.update s.phase i .top, recvd := s.recvd ++ [(k, some i, v)] }
  /-- receiver `k` takes the first item of the buffer -/
  | recv (s : Multi ι σ α) (k : Nat) (x : Option ι × α) (r : List (Option ι × α)) (hb : s.buf = x :: r) :
      Other s { s with buf := r, recvd := s.recvd ++ [(k, x)] }
  /-- somebody else sends into the buffer -/
  | envSend (s : Multi ι σ α) (v : α) (c : Nat) (hc : s.cap = some c) (ho : s.closed = false) (hb : s.buf.length < c) :
      Other s { s with buf := s.buf ++ [(none, v)] }
  /-- somebody else's send meets a receiver -/
  | envDirect (s : Multi ι σ α) (v : α) (k c : Nat) (hc : s.cap = some c) (ho : s.closed = false) (hb : s.buf = []) :
      Other s { s with recvd := s.recvd ++ [(k, none, v)] }
  /-- somebody closes `over` -/
  | envClose (s : Multi ι σ α) (c : Nat) (hc : s.cap = some c) (ho : s.closed = false) : Other s { s with closed := true }
  /-- somebody offers `StopYielding` on `quit` (`util.go` 221-223) -/
  | quitSend (s : Multi ι σ α) (n : Nat) (hq : s.quitPending = some n) (ho : s.quitClosed = false) :
      Other s { s with quitPending := some (n + 1), quitSent := s.quitSent + 1 }
  /-- somebody closes `quit` -/
  | quitClose (s : Multi ι σ α) (hq : s.quitPending ≠ none) (ho : s.quitClosed = false) : Other s { s with quitClosed := true }
  /-- somebody other than the yielders takes a value from `quit` -/
  | quitTake (s : Multi ι σ α) (n : Nat) (hq : s.quitPending = some (n + 1)) :
      Other s { s with quitPending := some n, quitOther := s.quitOther + 1 }

/-- Any number of steps, in any interleaving. -/
inductive MSteps (next : (i : ι) → σ i → Go (α × σ i)) : Multi ι σ α → Multi ι σ α → Prop where
  | refl (s) : MSteps next s s
  | own {s t u} (h : MSteps next s t) (h' : Own next t u) : MSteps next s u
  | other {s t u} (h : MSteps next s t) (h' : Other t u) : MSteps next s u

/-- `n` steps of the yielders, with nobody else doing anything. -/
inductive Owns (next : (i : ι) → σ i → Go (α × σ i)) : Nat → Multi ι σ α → Multi ι σ α → Prop where
  | refl (s) : Owns next 0 s s
  | snoc {n s t u} (h : Owns next n s t) (h' : Own next t u) : Owns next (n + 1) s u

/-- The yielders have just been started: none has sent anything, and nothing has happened on `quit` that counts. -/
def Multi.Initial (s : Multi ι σ α) : Prop :=
  (∀ i, s.phase i = .top) ∧ s.recvd = [] ∧ (∀ x ∈ s.buf, x.1 = none) ∧ s.quitSent = 0 ∧ s.quitOther = 0

end Yield
end Crazy
