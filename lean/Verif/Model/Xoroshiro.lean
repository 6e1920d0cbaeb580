/-
Model of `xoroshiro.go`: `Xoroshiro` and `Rexoroshiro`.
-/
import Verif.Model.Source
namespace Crazy

/-- SplitMix64's increment, `xoroshiro.go` 37, 43, 54, 59, 67, 76 and `xoshiro.go` 41 ff. -/
def smGamma : U64 := 0x9e3779b97f4a7c15#64

/-- SplitMix64's output function, written out inline wherever it is used:
`z = (z ^ (z >> 30)) * 0xbf58476d1ce4e5b9; z = (z ^ (z >> 27)) * 0x94d049bb133111eb; z ^= z >> 31`
(`xoroshiro.go` 38-41, 44-47, 60-63, 68-71, 77-80; `xoshiro.go` 42-45 and every later repetition). -/
def smMix (z : U64) : U64 :=
  let z := (z ^^^ (z >>> 30)) * 0xbf58476d1ce4e5b9#64
  let z := (z ^^^ (z >>> 27)) * 0x94d049bb133111eb#64
  z ^^^ (z >>> 31)

/-- `xoroshiro.go` 15: `type Xoroshiro [2]uint64`. -/
structure Xoroshiro where
  s0 : U64
  s1 : U64
  deriving DecidableEq, Repr

namespace Xoroshiro

/-- `xoroshiro.go` 17-21: `NewXoroshiro`. -/
def new : Xoroshiro := ⟨0, 0⟩

/-- `xoroshiro.go` 51-55: the loop over `iv` while `len(iv) > 8`. The nine-byte pattern is the loop
condition; then `copy(p, iv)` copies eight bytes and `iv[8:]` is `b8 :: rest`. -/
def seedLoop : List Byte → U64 → Go (List Byte × U64)
  | b0 :: b1 :: b2 :: b3 :: b4 :: b5 :: b6 :: b7 :: b8 :: rest, sm => do
    let p := copyInto (zeros 8) (b0 :: b1 :: b2 :: b3 :: b4 :: b5 :: b6 :: b7 :: b8 :: rest)
    seedLoop (b8 :: rest) (sm + (smGamma ^^^ (← u64le p)))
  | iv, sm => .ok (iv, sm)

/-- `xoroshiro.go` 23-82: `SeedIV`. Takes the old state only to show that it is overwritten. -/
def seedIV (iv : List Byte) (g : Xoroshiro) : Go Xoroshiro := do
  let sm : U64 := 0
  if iv.length = 0 then
    let sm := sm + smGamma
    let g := { g with s0 := smMix sm }
    let sm := sm + smGamma
    let g := { g with s1 := smMix sm }
    return g
  let (iv, sm) ← seedLoop iv sm
  let (g, iv, sm) ←
    if 0 < iv.length then do
      let p := copyInto (zeros 8) iv
      let iv' ← sliceFrom iv (copyLen (zeros 8) iv)
      let sm := sm + smGamma
      let g := { g with s1 := smMix sm }
      let sm := sm ^^^ (← u64le p)
      pure (g, iv', sm)
    else do
      let sm := sm + smGamma
      pure ({ g with s1 := smMix sm }, iv, sm)
  -- 74-75 `p := []byte{7: 0}; copy(p, iv)`: `p` is not used afterwards
  let _p := copyInto (zeros 8) iv
  let sm := sm + smGamma
  return { g with s0 := smMix sm }

/-- `xoroshiro.go` 84-92: the value returned by `Uint64`. -/
def out (g : Xoroshiro) : U64 := g.s0 + g.s1

/-- `xoroshiro.go` 84-92: the state left by `Uint64`. -/
def step (g : Xoroshiro) : Xoroshiro :=
  let s0 := g.s0
  let s1 := g.s1 ^^^ s0
  ⟨rotl64 s0 55 ^^^ s1 ^^^ (s1 <<< 14), rotl64 s1 36⟩

/-- `xoroshiro.go` 84-92: `Uint64`. -/
def uint64 (g : Xoroshiro) : Go (U64 × Xoroshiro) := .ok (g.out, g.step)

/-- `xoroshiro.go` 94-106: the body of `Read`. The eight-byte pattern is the loop condition
`len(p) >= 8` (so `PutUint64(p, _)` and `p[8:]` cannot panic). -/
def readBytes : List Byte → Xoroshiro → Go (List Byte × Xoroshiro)
  | _ :: _ :: _ :: _ :: _ :: _ :: _ :: _ :: p, g => do
    let (x, g) ← g.uint64
    let (q, g) ← readBytes p g
    return (le64 x ++ q, g)
  | p, g => do
    let (x, g) ← g.uint64
    return (copyInto p (le64 x), g)

/-- `xoroshiro.go` 94-106: `Read`. -/
def read (p : List Byte) (g : Xoroshiro) : Go (ReadRes × Xoroshiro) := do
  let (q, g) ← readBytes p g
  return (⟨q, p.length, none⟩, g)

/-- `xoroshiro.go` 112-117: the bytes `Save` passes to `into.Write`. -/
def save (g : Xoroshiro) : Go (List Byte) := do
  let p := zeros 16
  let p ← putU64 p g.s0
  let q ← putU64 (← sliceFrom p 8) g.s1
  return p.take 8 ++ q

/-- `xoroshiro.go` 119-128: `Restore`. -/
def restore (r : Reader) (g : Xoroshiro) : Go ((Int × Option Err) × Xoroshiro) := do
  let res := r.reply 16
  if res.n < 16 then return ((res.n, res.err), g)
  let p := res.buf
  let a ← u64le p
  let b ← u64le (← sliceFrom p 8)
  return ((res.n, none), ⟨a, b⟩)

/-- `xoroshiro.go` 130-134: `Seed`, through `SeedInt64` (`util.go` 225-231). -/
def seed (x : U64) (g : Xoroshiro) : Go Xoroshiro := seedIV (le64 x) g

/-- `xoroshiro.go` 136-140: `Int63`. The result is an `int64`, here its bit pattern. -/
def int63 (g : Xoroshiro) : Go (U64 × Xoroshiro) := do
  let (x, g) ← g.uint64
  return (x >>> 1, g)

/-- `xoroshiro.go` 142-146: `Copy` (`x := *xoro` copies the array). -/
def copy (g : Xoroshiro) : Xoroshiro := g

end Xoroshiro

/-- The extra method of the generators that implement `rand.Source64`. -/
inductive ExtInt63 where
  | int63
  deriving DecidableEq, Repr

/-- `xoroshiro.go`: the exported methods of `*Xoroshiro`. -/
def Xoroshiro.methods : Methods Xoroshiro ExtInt63 where
  uint64 := Xoroshiro.uint64
  read := Xoroshiro.read
  seed := Xoroshiro.seed
  seedIV := Xoroshiro.seedIV
  save := Xoroshiro.save
  restore := Xoroshiro.restore
  ext _ g := do let (x, g) ← g.int63; return (.u64 x, g)

/-- `xoroshiro.go` 155: `type Rexoroshiro Xoroshiro`; the state is the same two words, held here as the
`Xoroshiro` one obtains by the pointer conversion `(*Xoroshiro)(rexo)`. -/
structure Rexoroshiro where
  xoro : Xoroshiro
  deriving DecidableEq, Repr

namespace Rexoroshiro

/-- `xoroshiro.go` 157-161: `NewRexoroshiro`. -/
def new : Rexoroshiro := ⟨Xoroshiro.new⟩

/-- `xoroshiro.go` 163-166: `SeedIV`. -/
def seedIV (iv : List Byte) (g : Rexoroshiro) : Go Rexoroshiro := do
  return ⟨← g.xoro.seedIV iv⟩

/-- `xoroshiro.go` 168-171: `Uint64`. -/
def uint64 (g : Rexoroshiro) : Go (U64 × Rexoroshiro) := do
  let (x, g) ← g.xoro.uint64
  return (reverseBytes64 x, ⟨g⟩)

/-- `xoroshiro.go` 173-184: `Read`. -/
def read (p : List Byte) (g : Rexoroshiro) : Go (ReadRes × Rexoroshiro) := do
  let (q, g) ← readGt uint64 p g
  return (⟨q, p.length, none⟩, g)

/-- `xoroshiro.go` 186-190: `Save`. -/
def save (g : Rexoroshiro) : Go (List Byte) := g.xoro.save

/-- `xoroshiro.go` 192-196: `Restore`. -/
def restore (r : Reader) (g : Rexoroshiro) : Go ((Int × Option Err) × Rexoroshiro) := do
  let (x, g) ← g.xoro.restore r
  return (x, ⟨g⟩)

/-- `xoroshiro.go` 198-202: `Seed`. -/
def seed (x : U64) (g : Rexoroshiro) : Go Rexoroshiro := do
  return ⟨← g.xoro.seed x⟩

/-- `xoroshiro.go` 204-210: `Int63`. -/
def int63 (g : Rexoroshiro) : Go (U64 × Rexoroshiro) := do
  let (x, g) ← g.uint64
  return (x &&& 0x7fffffffffffffff#64, g)

/-- `xoroshiro.go` 212-216: `Copy`. -/
def copy (g : Rexoroshiro) : Rexoroshiro := g

/-- `xoroshiro.go`: the exported methods of `*Rexoroshiro`. -/
def methods : Methods Rexoroshiro ExtInt63 where
  uint64 := Rexoroshiro.uint64
  read := Rexoroshiro.read
  seed := Rexoroshiro.seed
  seedIV := Rexoroshiro.seedIV
  save := Rexoroshiro.save
  restore := Rexoroshiro.restore
  ext _ g := do let (x, g) ← g.int63; return (.u64 x, g)

end Rexoroshiro
end Crazy
