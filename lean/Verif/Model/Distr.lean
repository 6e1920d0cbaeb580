/-
Model of `distr.go`, `ziggurat.go`, `expo.go` and `normal.go`. `fused`, `fused'` say whether the implementation fuses `x*y + z`
(`F64.mulAdd`) at each of the three places where the code has that form.
-/
import Verif.Model.RNG
import Verif.Model.Float
import Verif.Model.ZigTables
namespace Crazy

variable {σ : Type}

/-- `a[i]` on a fixed-size array of floats; panics when out of range. -/
def fget {n : Nat} (a : Vector F64 n) (i : Nat) : Go F64 :=
  if h : i < n then .ok (a[i]'h) else .error .index

/-- `distr.go` 20-24: `Uniform1_2.Next`. -/
def uniform12 (src : Source σ) (s : σ) : Go (F64 × σ) := do
  let b := zeros 8
  let (r, s) ← src.read (b.take 7) s
  let b := r.buf ++ b.drop 7
  return (F64.ofBits ((← u64le b) ||| 0x3ff0000000000000#64), s)

/-- `distr.go` 34-38: `Uniform0_1.Next`. -/
def uniform01 (src : Source σ) (s : σ) : Go (F64 × σ) := do
  let b := zeros 8
  let (r, s) ← src.read b s
  return (F64.mul (F64.ofNat ((← u64le r.buf) &&& 0x1fffffffffffff#64).toNat) (F64.ofDec 111022302462515654042 36), s)

/-- `distr.go` 46-49: `Uniform.Next`. -/
def uniform (fused : Bool) (low high : F64) (src : Source σ) (s : σ) : Go (F64 × σ) := do
  let (u, s) ← uniform12 src s
  return (F64.mulAdd fused high (F64.sub u (F64.ofNat 1)) low, s)

/-- `ziggurat.go` 6-26: `Ziggurat`. `Tail` may loop, so it takes a bound on its loop. -/
structure Ziggurat (σ : Type) where
  pdf : F64 → F64
  tail : Source σ → Nat → σ → Go (F64 × σ)
  mirrored : Bool
  K : Vector U64 1024
  W : Vector F64 1024
  F : Vector F64 1024

/-- `ziggurat.go` 30-36: the layer and the offset that one word stands for. `>>` on an `int64` keeps the sign. -/
def Ziggurat.split (mirrored : Bool) (x : U64) : Nat × U64 :=
  let i := (((x.sshiftRight 54) &&& 0x3ff#64).setWidth 16).toNat
  let j := if mirrored then (x <<< 10).sshiftRight 10 else x &&& 0x001fffffffffffff#64
  (i, j)

/-- `ziggurat.go` 37: `uint64(j+j>>63^j>>63)`. In Go `>>` binds tighter than `+` and `^`, which are left associative. -/
def Ziggurat.absj (j : U64) : U64 := (j + j.sshiftRight 63) ^^^ j.sshiftRight 63

/-- `ziggurat.go` 29-53: `GenNext`. `fuel` bounds the number of rejections, here and in the tail. -/
def Ziggurat.genNext (z : Ziggurat σ) (fused : Bool) (src : Source σ) : Nat → σ → Go (F64 × σ)
  | 0, _ => .error .fuel
  | fuel + 1, s => do
    let (x, s) ← RNG.uint64 src s
    let (i, j) := Ziggurat.split z.mirrored x
    if Ziggurat.absj j < (← aget z.K i) then
      return (F64.mul (F64.ofInt j.toInt) (← fget z.W i), s)
    if i ≠ 0 then
      let x := F64.mul (F64.ofInt j.toInt) (← fget z.W i)
      let (u, s) ← uniform01 src s
      let fi ← fget z.F i
      let fp ← fget z.F (i - 1)
      if F64.lt (F64.mulAdd fused u (F64.sub fp fi) fi) (z.pdf x) then return (x, s)
      else z.genNext fused src fuel s
    else
      let (x, s) ← z.tail src fuel s
      if j.toInt < 0 then return (F64.neg x, s) else return (x, s)

/-- `expo.go` 44: `expoR`. -/
def expoR : F64 := F64.ofDec 925616454426554 14

/-- `expo.go` 27-29: `expoPDF`. -/
def expoPDF (lib : MathLib) (x : F64) : F64 := lib.exp (F64.neg x)

/-- `expo.go` 31-33: `expoTail`. -/
def expoTail (lib : MathLib) (src : Source σ) (_ : Nat) (s : σ) : Go (F64 × σ) := do
  let (u, s) ← uniform01 src s
  return (F64.sub expoR (lib.log u), s)

/-- `expo.go` 35-42: `expoZig`. -/
def expoZig (lib : MathLib) : Ziggurat σ where
  pdf := expoPDF lib
  tail := expoTail lib
  mirrored := false
  K := expoK
  W := expoW
  F := expoF

/-- `expo.go` 21-25: `Exponential.Next`. -/
def exponential (lib : MathLib) (fused : Bool) (rate : F64) (src : Source σ) (fuel : Nat) (s : σ) : Go (F64 × σ) := do
  let (x, s) ← (expoZig lib).genNext fused src fuel s
  return (F64.div x rate, s)

/-- `normal.go` 52: `normalR`. -/
def normalR : F64 := F64.ofDec 40388498461095 13

/-- `normal.go` 28-30: `normalPDF`; `-0.5 * x * x` is `(-0.5 * x) * x`. -/
def normalPDF (lib : MathLib) (x : F64) : F64 := lib.exp (F64.mul (F64.mul (F64.neg (F64.ofDec 5 1)) x) x)

/-- `normal.go` 32-41: `normalTail`. `fuel` bounds the number of rejections. -/
def normalTail (lib : MathLib) (src : Source σ) : Nat → σ → Go (F64 × σ)
  | 0, _ => .error .fuel
  | fuel + 1, s => do
    let (u, s) ← uniform01 src s
    let x := F64.div (F64.neg (lib.log u)) normalR
    let (v, s) ← uniform01 src s
    let y := F64.neg (lib.log v)
    if F64.le (F64.mul x x) (F64.add y y) then return (F64.add x normalR, s)
    else normalTail lib src fuel s

/-- `normal.go` 43-50: `normalZig`. -/
def normalZig (lib : MathLib) : Ziggurat σ where
  pdf := normalPDF lib
  tail := normalTail lib
  mirrored := true
  K := normalK
  W := normalW
  F := normalF

/-- `normal.go` 22-26: `Normal.Next`. Whether `x*y + z` is fused may differ between the ziggurat (`fused`) and line 25 (`fused'`). -/
def normal (lib : MathLib) (fused fused' : Bool) (mean stddev : F64) (src : Source σ) (fuel : Nat) (s : σ) : Go (F64 × σ) := do
  let (x, s) ← (normalZig lib).genNext fused src fuel s
  return (F64.mulAdd fused' x stddev mean, s)

end Crazy
