/-
Model of `rng.go`. An `RNG` is a `Source`; every method takes the source's world and returns the new one.
-/
import Verif.Model.Source
namespace Crazy
namespace RNG

variable {σ : Type}

/-- `rng.go` 13-18: `Uint64`. The count and error of `Read` are dropped, as in the code. -/
def uint64 (src : Source σ) (s : σ) : Go (U64 × σ) := do
  let p := zeros 8
  let (r, s) ← src.read p s
  return (← u64le r.buf, s)

/-- `rng.go` 20-25: `Uint32`. -/
def uint32 (src : Source σ) (s : σ) : Go (BitVec 32 × σ) := do
  let p := zeros 4
  let (r, s) ← src.read p s
  return (← u32le r.buf, s)

/-- `rng.go` 27-32: `Uint16`. -/
def uint16 (src : Source σ) (s : σ) : Go (BitVec 16 × σ) := do
  let p := zeros 2
  let (r, s) ← src.read p s
  return (← u16le r.buf, s)

/-- `rng.go` 39-42: the loop `for x > bad { x = uint(r.Uint64()) }; return x % max`. `fuel` bounds the number
of further draws. -/
def uintnLoop (src : Source σ) (max bad : U64) : Nat → U64 → σ → Go (U64 × σ)
  | fuel, x, s =>
    if bad < x then
      match fuel with
      | 0 => .error .fuel
      | fuel + 1 => do
        let (x, s) ← uint64 src s
        uintnLoop src max bad fuel x s
    else .ok (x % max, s)

/-- `rng.go` 34-43: `Uintn`; `uint` is 64 bits wide. `fuel` bounds the number of rejected draws. -/
def uintn (src : Source σ) (fuel : Nat) (max : U64) (s : σ) : Go (U64 × σ) := do
  if max = 0#64 then .error .divide
  let bad := ~~~0#64 - (~~~0#64) % max
  let (x, s) ← uint64 src s
  uintnLoop src max bad fuel x s

/-- `rng.go` 45-51: `Intn`. The argument and the result are `int`s. -/
def intn (src : Source σ) (fuel : Nat) (max : Int) (s : σ) : Go (Int × σ) := do
  if max < 0 then .error (.explicit "maximum below zero")
  let (x, s) ← uintn src fuel (BitVec.ofInt 64 max) s
  return (x.toInt, s)

/-- `uint(z)` for an `int` `z`. -/
def toUint (z : Int) : Nat := (z % 2 ^ 64).toNat

/-- `runtime.maxAlloc` of 64-bit Go: `make([]byte, n)` panics when `n` exceeds it. Smaller requests that do
not fit the machine's memory (a fatal error, not a panic) are not modelled. -/
def maxAlloc : Nat := 2 ^ 48

/-- `make([]byte, n)` with a run-time length. -/
def makeBytes (n : Nat) : Go (List Byte) := if maxAlloc < n then .error .makeslice else .ok (zeros n)

/-- `math/big` `SetBytes`: the bytes as a big-endian unsigned integer. -/
def setBytes (p : List Byte) : Nat := p.foldl (fun n b => 256 * n + b.toNat) 0

/-- `rng.go` 53-59: `Big`. `byte(0xff >> (8 - uint(nbits)&7))` shifts a `byte`. -/
def big (src : Source σ) (nbits : Int) (s : σ) : Go (Int × σ) := do
  let p ← makeBytes (((toUint nbits + 7) % 2 ^ 64) >>> 3)
  let (r, s) ← src.read p s
  match r.buf with
  | [] => .error .index
  | b :: rest =>
    let b := b &&& ((0xff#8) >>> (8 - toUint nbits % 8))
    return ((setBytes (b :: rest) : Int), s)

/-- `math/big` `BitLen` of the absolute value. -/
def bitLen (n : Nat) : Nat := if n = 0 then 0 else n.log2 + 1

/-- `rng.go` 77-80: the loop of `Bign`. -/
def bignLoop (src : Source σ) (max k : Int) (nbits : Nat) : Nat → Int → σ → Go (Int × σ)
  | fuel, x, s =>
    if k < x then
      match fuel with
      | 0 => .error .fuel
      | fuel + 1 => do
        let (x, s) ← big src nbits s
        bignLoop src max k nbits fuel x s
    else .ok (x.tmod max, s)

/-- `rng.go` 61-81: `Bign`. The slice `n` (66-69) is filled but never used; `len(max.Bits()) ≥ 1` for `max > 0`, so
`n[1:]` does not panic; both are left out. `fuel` bounds the number of rejected draws. -/
def bign (src : Source σ) (fuel : Nat) (max : Int) (s : σ) : Go (Int × σ) := do
  if max ≤ 0 then .error (.explicit "maximum zero or below")
  let nbits := bitLen max.natAbs + 1
  let m : Int := 2 ^ nbits - 1
  let k := m - m.tmod max
  let (x, s) ← big src nbits s
  bignLoop src max k nbits fuel x s

end RNG
end Crazy
