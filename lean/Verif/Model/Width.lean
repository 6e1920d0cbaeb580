/-
The functions of `rng.go` and `util.go` whose behaviour depends on the size of `int` and `uint`, with that size as a parameter `w`
(32 on 386, arm, mips; 64 otherwise). `RNG.uintn` and the others are the case `w = 64` (`C90_64`).
-/
import Verif.Model.Util
import Verif.Model.RandString
namespace Crazy

variable {σ : Type}

namespace RNG

/-- `rng.go` 39-42: the loop of `Uintn`, `uint` being `w` bits wide; `uint(r.Uint64())` keeps the low `w` bits. -/
def uintnLoopW (w : Nat) (src : Source σ) (max bad : BitVec w) : Nat → BitVec w → σ → Go (BitVec w × σ)
  | fuel, x, s =>
    if bad < x then
      match fuel with
      | 0 => .error .fuel
      | fuel + 1 => do
        let (x, s) ← uint64 src s
        uintnLoopW w src max bad fuel (x.setWidth w) s
    else .ok (x % max, s)

/-- `rng.go` 34-43: `Uintn`, `uint` being `w` bits wide. -/
def uintnW (w : Nat) (src : Source σ) (fuel : Nat) (max : BitVec w) (s : σ) : Go (BitVec w × σ) := do
  if max = 0#w then .error .divide
  let bad := ~~~0#w - (~~~0#w) % max
  let (x, s) ← uint64 src s
  uintnLoopW w src max bad fuel (x.setWidth w) s

/-- `rng.go` 45-51: `Intn`, `int` being `w` bits wide. -/
def intnW (w : Nat) (src : Source σ) (fuel : Nat) (max : Int) (s : σ) : Go (Int × σ) := do
  if max < 0 then .error (.explicit "maximum below zero")
  let (x, s) ← uintnW w src fuel (BitVec.ofInt w max) s
  return (x.toInt, s)

/-- `runtime.maxAlloc`: `2^48` bytes on 64-bit, `2^32 - 1` on 32-bit platforms. -/
def maxAllocW (w : Nat) : Nat := if w = 32 then 2 ^ 32 - 1 else 2 ^ 48

/-- `make([]byte, n)` with a run-time length. -/
def makeBytesW (w n : Nat) : Go (List Byte) := if maxAllocW w < n then .error .makeslice else .ok (zeros n)

/-- `rng.go` 53-59: `Big`, `int` being `w` bits wide. -/
def bigW (w : Nat) (src : Source σ) (nbits : Int) (s : σ) : Go (Int × σ) := do
  let u := (nbits % 2 ^ w).toNat
  let p ← makeBytesW w (((u + 7) % 2 ^ w) >>> 3)
  let (r, s) ← src.read p s
  match r.buf with
  | [] => .error .index
  | b :: rest =>
    let b := b &&& ((0xff#8) >>> (8 - u % 8))
    return ((setBytes (b :: rest) : Int), s)

end RNG

/-- `util.go` 159-165: `Shuffle`, `int` being `w` bits wide. Simplification: the data and the random source do not share state. -/
def shuffleW (w : Nat) {δ : Type} (data : Swapper δ) (src : Source σ) (fuel : Nat) (d : δ) (s : σ) : Go (δ × σ) := do
  let (n, d) ← data.len d
  forIdx n.toNat (fun i (d, s) => do
    let (k, s) ← RNG.uintnW w src fuel (BitVec.ofInt w n) s
    let d ← data.swap i k.toInt d
    return (d, s)) (d, s)

/-- `util.go` 167-189: `ShuffleFloat64s`, `ShuffleInts`, `ShuffleStrings`, `int` being `w` bits wide. -/
def shuffleSliceW (w : Nat) {α : Type} (src : Source σ) (fuel : Nat) (data : List α) (s : σ) : Go (List α × σ) :=
  forIdx data.length (fun i (d, s) => do
    let (k, s) ← RNG.intnW w src fuel data.length s
    let x ← lget d k
    let y ← lget d i
    let d ← lset d i x
    let d ← lset d k y
    return (d, s)) (data, s)

/-- `make([]rune, n)`: a rune takes four bytes. -/
def makeRunesW (w : Nat) (n : Int) : Go (List Nat) :=
  if n < 0 ∨ (RNG.maxAllocW w : Int) < 4 * n then .error .makeslice else .ok (List.replicate n.toNat 0)

/-- `util.go` 143-150: `RandString`, `int` being `w` bits wide. -/
def randStringW (w : Nat) (src : Source σ) (fuel : Nat) (alphabet : List Byte) (length : Int) (s : σ) : Go (List Byte × σ) := do
  let p ← makeRunesW w length
  let a := runes alphabet
  let (p, s) ← forIdx p.length (fun i (p, s) => do
    let (k, s) ← RNG.uintnW w src fuel (BitVec.ofNat w a.length) s
    let x ← lget a k.toInt
    let p ← lset p i x
    return (p, s)) (p, s)
  return (stringOf p, s)

end Crazy
