/-
Model of `source.go`: the `Source` interface, and the language of API calls on a generator.
-/
import Verif.Model.Go
namespace Crazy

/-- `source.go` 5-10: a `Source` (= `io.Reader`). The source lives in a world of type `σ` which other
sources may share. A read takes the buffer's contents and gives back its new contents, a count and an
error, all arbitrary: nothing but the length of the caller's slice is guaranteed (`len_buf`). A source may
panic. Simplification: a source that blocks forever is not represented. -/
structure Source (σ : Type) where
  read : List Byte → σ → Go (ReadRes × σ)
  len_buf : ∀ p s r s', read p s = .ok (r, s') → r.buf.length = p.length

/-- One call of a method of a generator, as a caller can make it. `ε` are the methods a type has in
addition to the ones of `Saver` (`source.go` 12-33), `Uint64` and `Seed`. -/
inductive Op (ε : Type) where
  | uint64
  | read (p : List Byte)
  | seed (x : U64)
  | seedIV (iv : List Byte)
  | save (w : Writer)
  | restore (r : Reader)
  | ext (e : ε)

/-- What the caller observes of one call. -/
inductive Obs where
  /-- a returned 64-bit integer -/
  | u64 (x : U64)
  /-- `Read`: contents of the buffer afterwards, `n`, `err` -/
  | read (r : ReadRes)
  /-- a call without results -/
  | unit
  /-- `Save`: the bytes given to the writer, `n`, `err` -/
  | saved (bytes : List Byte) (n : Int) (err : Option Err)
  /-- `Restore`: `n`, `err` -/
  | restored (n : Int) (err : Option Err)
  /-- the call panicked -/
  | panic (p : Panic)
  deriving DecidableEq, Repr

/-- A generator type as seen by a caller: what one call does. -/
structure Api (σ ε : Type) where
  call : σ → Op ε → Go (Obs × σ)

/-- A sequence of calls on one generator and what is observed; a panic ends the sequence. -/
def Api.run {σ ε : Type} (a : Api σ ε) : σ → List (Op ε) → List Obs
  | _, [] => []
  | s, op :: ops =>
    match a.call s op with
    | .error p => [.panic p]
    | .ok (o, s') => o :: a.run s' ops

/-- The state after a sequence of calls, if none of them panicked. -/
def Api.after {σ ε : Type} (a : Api σ ε) : σ → List (Op ε) → Go σ
  | s, [] => .ok s
  | s, op :: ops =>
    match a.call s op with
    | .error p => .error p
    | .ok (_, s') => a.after s' ops

/-- `source.go` 21-33: the dispatch of a `Saver`'s calls to the methods of a concrete type. Only glue: each
field is one Go method. -/
structure Methods (σ ε : Type) where
  uint64 : σ → Go (U64 × σ)
  read : List Byte → σ → Go (ReadRes × σ)
  seed : U64 → σ → Go σ
  seedIV : List Byte → σ → Go σ
  /-- the bytes passed to the single `into.Write` call -/
  save : σ → Go (List Byte)
  restore : Reader → σ → Go ((Int × Option Err) × σ)
  ext : ε → σ → Go (Obs × σ)

/-- A call observes the method's results. `Save` returns what the writer returned. -/
def Methods.api {σ ε : Type} (m : Methods σ ε) : Api σ ε where
  call s
    | .uint64 => do let (x, s) ← m.uint64 s; return (.u64 x, s)
    | .read p => do let (r, s) ← m.read p s; return (.read r, s)
    | .seed x => do let s ← m.seed x s; return (.unit, s)
    | .seedIV iv => do let s ← m.seedIV iv s; return (.unit, s)
    | .save w => do let b ← m.save s; return (.saved b (w.reply b).1 (w.reply b).2, s)
    | .restore r => do let (r, s) ← m.restore r s; return (.restored r.1 r.2, s)
    | .ext e => m.ext e s

end Crazy
