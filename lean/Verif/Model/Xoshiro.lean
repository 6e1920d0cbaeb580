/-
Model of `xoshiro.go`.
-/
import Verif.Model.Xoroshiro
namespace Crazy

/-- `xoshiro.go` 20-22: `type Xoshiro struct { w, x, y, z uint64 }`. -/
structure Xoshiro where
  w : U64
  x : U64
  y : U64
  z : U64
  deriving DecidableEq, Repr

namespace Xoshiro

/-- `xoshiro.go` 24-28: `NewXoshiro`. -/
def new : Xoshiro := ⟨0, 0, 0, 0⟩

/-- `xoshiro.go` 240-251: the value returned by `Uint64`. -/
def out (g : Xoshiro) : U64 := rotl64 (g.x * 5) 7 * 9

/-- `xoshiro.go` 240-251: the state left by `Uint64`. -/
def step (g : Xoshiro) : Xoshiro :=
  let t := g.x <<< 17
  let y := g.y ^^^ g.w
  let z := g.z ^^^ g.x
  let x := g.x ^^^ y
  let w := g.w ^^^ z
  let y := y ^^^ t
  let z := rotl64 z 45
  ⟨w, x, y, z⟩

/-- `xoshiro.go` 240-251: `Uint64`. -/
def uint64 (g : Xoshiro) : Go (U64 × Xoshiro) := .ok (g.out, g.step)

/-- `xoshiro.go` 40-64: the four SplitMix64 outputs stored into the fields at the start of `SeedIV`, with the
SplitMix64 state `sm` they leave. -/
def seedInit (g : Xoshiro) : Xoshiro × U64 :=
  let sm : U64 := 0
  let sm := sm + smGamma
  let g := { g with w := smMix sm }
  let sm := sm + smGamma
  let g := { g with x := smMix sm }
  let sm := sm + smGamma
  let g := { g with y := smMix sm }
  let sm := sm + smGamma
  let g := { g with z := smMix sm }
  (g, sm)

/-- The block `sm += ...; z = mix(sm); xoshi.w ^= z; ... xoshi.z ^= z` that xors the next four SplitMix64
outputs into the state (`xoshiro.go` 78-101, 117-140, 152-175, 184-207, 213-236). -/
def smXor (g : Xoshiro) (sm : U64) : Xoshiro × U64 :=
  let sm := sm + smGamma
  let w := g.w ^^^ smMix sm
  let sm := sm + smGamma
  let x := g.x ^^^ smMix sm
  let sm := sm + smGamma
  let y := g.y ^^^ smMix sm
  let sm := sm + smGamma
  let z := g.z ^^^ smMix sm
  (⟨w, x, y, z⟩, sm)

/-- `xoshiro.go` 65-102: the loop `for len(iv) >= 32`. The pattern of 32 bytes is the loop condition, so
the slicings and `Uint64(iv)` of the body are applied to what remains of those 32 bytes and cannot
panic; they are nevertheless written with the checked primitives. -/
def seedLoop : List Byte → Xoshiro → U64 → Go (List Byte × Xoshiro × U64)
  | b0 :: b1 :: b2 :: b3 :: b4 :: b5 :: b6 :: b7 ::
    b8 :: b9 :: b10 :: b11 :: b12 :: b13 :: b14 :: b15 ::
    b16 :: b17 :: b18 :: b19 :: b20 :: b21 :: b22 :: b23 ::
    b24 :: b25 :: b26 :: b27 :: b28 :: b29 :: b30 :: b31 :: rest, g, sm => do
    let iv := b0 :: b1 :: b2 :: b3 :: b4 :: b5 :: b6 :: b7 ::
      b8 :: b9 :: b10 :: b11 :: b12 :: b13 :: b14 :: b15 ::
      b16 :: b17 :: b18 :: b19 :: b20 :: b21 :: b22 :: b23 ::
      b24 :: b25 :: b26 :: b27 :: b28 :: b29 :: b30 :: b31 :: rest
    let g := g.step.step.step.step
    let g := { g with w := g.w ^^^ (← u64le iv) }
    let iv ← sliceFrom iv 8
    let g := { g with x := g.x ^^^ (← u64le iv) }
    let iv ← sliceFrom iv 8
    let g := { g with y := g.y ^^^ (← u64le iv) }
    let iv ← sliceFrom iv 8
    let g := { g with z := g.z ^^^ (← u64le iv) }
    let (g, sm) := smXor g sm
    seedLoop rest g sm
  | iv, g, sm => .ok (iv, g, sm)

/-- `xoshiro.go` 30-238: `SeedIV`. -/
def seedIV (iv : List Byte) (g : Xoshiro) : Go Xoshiro := do
  let (g, sm) := seedInit g
  let (iv, g, sm) ← seedLoop iv g sm
  if 24 < iv.length then
    let g := g.step.step.step.step
    let g := { g with w := g.w ^^^ (← u64le iv) }
    let iv ← sliceFrom iv 8
    let g := { g with x := g.x ^^^ (← u64le iv) }
    let iv ← sliceFrom iv 8
    let g := { g with y := g.y ^^^ (← u64le iv) }
    let iv ← sliceFrom iv 8
    let p := copyInto (zeros 8) iv
    let g := { g with z := g.z ^^^ (← u64le p) }
    return (smXor g sm).1
  else if 16 < iv.length then
    let g := g.step.step.step
    let g := { g with w := g.w ^^^ (← u64le iv) }
    let iv ← sliceFrom iv 8
    let g := { g with x := g.x ^^^ (← u64le iv) }
    let iv ← sliceFrom iv 8
    let p := copyInto (zeros 8) iv
    let g := { g with y := g.y ^^^ (← u64le p) }
    return (smXor g sm).1
  else if 8 < iv.length then
    let g := g.step.step
    let g := { g with w := g.w ^^^ (← u64le iv) }
    let iv ← sliceFrom iv 8
    let p := copyInto (zeros 8) iv
    let g := { g with x := g.x ^^^ (← u64le p) }
    return (smXor g sm).1
  else if 0 < iv.length then
    let g := g.step
    let p := copyInto (zeros 8) iv
    let g := { g with w := g.w ^^^ (← u64le p) }
    return (smXor g sm).1
  else
    return g

/-- `xoshiro.go` 253-265: `Read`. -/
def read (p : List Byte) (g : Xoshiro) : Go (ReadRes × Xoshiro) := do
  let (q, g) ← readGt uint64 p g
  return (⟨q, p.length, none⟩, g)

/-- `xoshiro.go` 267-278: the bytes `Save` passes to `into.Write`. -/
def save (g : Xoshiro) : Go (List Byte) := do
  let p := zeros 32
  let p ← putU64 p g.w
  let p8 ← putU64 (← sliceFrom p 8) g.x
  let p16 ← putU64 (← sliceFrom p8 8) g.y
  let p24 ← putU64 (← sliceFrom p16 8) g.z
  return p.take 8 ++ p8.take 8 ++ p16.take 8 ++ p24

/-- `xoshiro.go` 280-291: `Restore`. -/
def restore (r : Reader) (g : Xoshiro) : Go ((Int × Option Err) × Xoshiro) := do
  let res := r.reply 32
  if res.n < 32 then return ((res.n, res.err), g)
  let p := res.buf
  let w ← u64le p
  let x ← u64le (← sliceFrom p 8)
  let y ← u64le (← sliceFrom p 16)
  let z ← u64le (← sliceFrom p 24)
  return ((res.n, none), ⟨w, x, y, z⟩)

/-- `xoshiro.go` 293-297: `Seed`, through `SeedInt64` (`util.go` 225-231). -/
def seed (x : U64) (g : Xoshiro) : Go Xoshiro := seedIV (le64 x) g

/-- `xoshiro.go` 299-303: `Copy`. -/
def copy (g : Xoshiro) : Xoshiro := g

/-- `xoshiro.go` 326-328: `xoshiroJump`. -/
def jumpTable : List U64 :=
  [0x76e15d3efefdcbbf#64, 0xc5004e441c522fb3#64, 0x77710069854ee241#64, 0x39109bb02acbe635#64]

/-- Word-wise xor of two states (`xoshiro.go` 311-314: `w ^= xoshi.w; ...`). -/
def xor (a b : Xoshiro) : Xoshiro := ⟨a.w ^^^ b.w, a.x ^^^ b.x, a.y ^^^ b.y, a.z ^^^ b.z⟩

/-- `xoshiro.go` 309-318: the inner loop of `Jump`, `n` iterations left, word `j`, accumulator `acc`
(the local variables `w, x, y, z`), generator `g`. -/
def jumpWord : Nat → U64 → Xoshiro → Xoshiro → Xoshiro × Xoshiro
  | 0, _, acc, g => (acc, g)
  | n + 1, j, acc, g =>
    let acc := if j &&& 1#64 ≠ 0#64 then acc.xor g else acc
    jumpWord n (j >>> 1) acc g.step

/-- `xoshiro.go` 308: the outer loop of `Jump` over the words of the table. -/
def jumpLoop : List U64 → Xoshiro → Xoshiro → Xoshiro
  | [], acc, _ => acc
  | j :: js, acc, g =>
    let (acc, g) := jumpWord 64 j acc g
    jumpLoop js acc g

/-- `xoshiro.go` 305-324: `Jump`. -/
def jump (g : Xoshiro) : Xoshiro := jumpLoop jumpTable ⟨0, 0, 0, 0⟩ g

/-- `xoshiro.go` 330-344: `Reverse`. -/
def reverse (g : Xoshiro) : Xoshiro :=
  let xa := g.x
  let xa := xa ^^^ (xa <<< 17)
  let xa := xa ^^^ (xa <<< 34)
  let ya := g.y
  let ya := ya ^^^ (ya <<< 17)
  let ya := ya ^^^ (ya <<< 34)
  let z := rotl64 g.z 19
  let y := g.w ^^^ g.x
  let w := g.w ^^^ z
  let x := xa ^^^ ya
  let z := z ^^^ x
  let y := y ^^^ z
  ⟨w, x, y, z⟩

/-- The extra methods of `*Xoshiro` (it has no `Int63`). -/
inductive Ext where
  | jump
  | reverse
  deriving DecidableEq, Repr

/-- `xoshiro.go`: the exported methods of `*Xoshiro`. -/
def methods : Methods Xoshiro Ext where
  uint64 := Xoshiro.uint64
  read := Xoshiro.read
  seed := Xoshiro.seed
  seedIV := Xoshiro.seedIV
  save := Xoshiro.save
  restore := Xoshiro.restore
  ext
    | .jump, g => .ok (.unit, g.jump)
    | .reverse, g => .ok (.unit, g.reverse)

end Xoshiro
end Crazy
