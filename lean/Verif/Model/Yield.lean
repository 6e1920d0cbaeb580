/-
Model of the yielders (`util.go` 191-219): one goroutine, its `over` channel with everybody else who uses it, and its `quit`
channel, as a transition system. Every interleaving of the goroutine with its environment is a sequence of steps.
-/
import Verif.Model.RNG
namespace Crazy
namespace Yield

variable {σ α : Type}

/-- Where the goroutine is. -/
inductive Phase (α : Type) where
  /-- about to enter the `select` statement: the operands have not been evaluated -/
  | top
  /-- in the `select` with the value to be sent already computed (`util.go` 198, 213: the operand `from.Next()` /
  `from.Uint64()` is evaluated once, on entering the statement) -/
  | offer (v : α)
  /-- returned (`util.go` 200, 215), having computed `v` -/
  | stopped (v : α)
  /-- the goroutine panicked, having computed the value given (if any) since it last sent one -/
  | crashed (v : Option α)

/-- An item in or out of the channel: sent by this yielder, or by somebody else who uses the channel. -/
inductive Item (α : Type) where
  | mine (v : α)
  | foreign (v : α)

/-- The system. `over` is a channel of capacity `cap` (`none`: nil), FIFO; `recvd` records, in order, what has been received
from it and by whom; `quit` is a channel on which `quitPending` values are on offer (`none`: nil). -/
structure State (σ α : Type) where
  src : σ
  phase : Phase α
  cap : Option Nat
  buf : List (Item α)
  closed : Bool
  recvd : List (Nat × Item α)
  quitPending : Option Nat
  quitClosed : Bool

/-- A receive from `quit` would not block: somebody offers a value, or the channel is closed. -/
def State.quitReady (s : State σ α) : Prop := (∃ n, s.quitPending = some (n + 1)) ∨ (s.quitPending ≠ none ∧ s.quitClosed)

/-- `quit` after a successful receive. -/
def State.quitTaken (s : State σ α) : Option Nat := s.quitPending.map fun n => n - 1

/-- One step of the goroutine or of its environment. `next` is `from.Next` / `from.Uint64`. Simplification: nobody else uses
the random source while the yielder runs (that would be a data race). -/
inductive Step (next : σ → Go (α × σ)) : State σ α → State σ α → Prop where
  /-- `util.go` 197-198, 212-213: enter the select, computing the value -/
  | draw (s : State σ α) (v : α) (w : σ) (h : s.phase = .top) (hn : next s.src = .ok (v, w)) :
      Step next s { s with phase := .offer v, src := w }
  /-- computing the value panics -/
  | drawPanic (s : State σ α) (e : Panic) (h : s.phase = .top) (hn : next s.src = .error e) :
      Step next s { s with phase := .crashed none }
  /-- the send goes into the buffer -/
  | sendBuf (s : State σ α) (v : α) (c : Nat) (h : s.phase = .offer v) (hc : s.cap = some c) (ho : s.closed = false)
      (hb : s.buf.length < c) : Step next s { s with phase := .top, buf := s.buf ++ [.mine v] }
  /-- the send meets a waiting receiver `k` -/
  | sendDirect (s : State σ α) (v : α) (c k : Nat) (h : s.phase = .offer v) (hc : s.cap = some c) (ho : s.closed = false)
      (hb : s.buf = []) : Step next s { s with phase := .top, recvd := s.recvd ++ [(k, .mine v)] }
  /-- sending on a closed channel panics -/
  | sendClosed (s : State σ α) (v : α) (c : Nat) (h : s.phase = .offer v) (hc : s.cap = some c) (ho : s.closed = true) :
      Step next s { s with phase := .crashed (some v) }
  /-- `util.go` 199-200, 214-215: receive from `quit`, return -/
  | stop (s : State σ α) (v : α) (h : s.phase = .offer v) (hq : s.quitReady) :
      Step next s { s with phase := .stopped v, quitPending := s.quitTaken }
  /-- receiver `k` takes the first item of the buffer -/
  | recv (s : State σ α) (k : Nat) (x : Item α) (r : List (Item α)) (hb : s.buf = x :: r) :
      Step next s { s with buf := r, recvd := s.recvd ++ [(k, x)] }
  /-- somebody else sends into the buffer -/
  | envSend (s : State σ α) (v : α) (c : Nat) (hc : s.cap = some c) (ho : s.closed = false) (hb : s.buf.length < c) :
      Step next s { s with buf := s.buf ++ [.foreign v] }
  /-- somebody else's send meets a receiver -/
  | envDirect (s : State σ α) (v : α) (k : Nat) (hb : s.buf = []) :
      Step next s { s with recvd := s.recvd ++ [(k, .foreign v)] }
  /-- somebody closes `over` -/
  | envClose (s : State σ α) : Step next s { s with closed := true }
  /-- somebody offers a value on `quit` (`StopYielding`) -/
  | quitSend (s : State σ α) (n : Nat) (hq : s.quitPending = some n) : Step next s { s with quitPending := some (n + 1) }
  /-- somebody closes `quit` -/
  | quitClose (s : State σ α) (hq : s.quitPending ≠ none) : Step next s { s with quitClosed := true }
  /-- somebody else (another yielder with the same `quit`) takes the value -/
  | quitTake (s : State σ α) (n : Nat) (hq : s.quitPending = some (n + 1)) : Step next s { s with quitPending := some n }

/-- Any number of steps. -/
inductive Steps (next : σ → Go (α × σ)) : State σ α → State σ α → Prop where
  | refl (s) : Steps next s s
  | snoc {s t u} (h : Steps next s t) (h' : Step next t u) : Steps next s u

/-- `Yield(from, over, quit)` has just been called: nothing has been sent by it yet. -/
def State.Initial (s : State σ α) : Prop := s.phase = .top ∧ s.recvd = [] ∧ ∀ x ∈ s.buf, ∃ v, x = .foreign v

/-- `util.go` 206-219: `YieldUint64` is the system with `next := RNG.uint64 src`; `util.go` 191-204: `Yield` the one with
`next` the `Next` method of the distribution. -/
def uint64Step (src : Source σ) : State σ U64 → State σ U64 → Prop := Step (RNG.uint64 src)

end Yield
end Crazy
