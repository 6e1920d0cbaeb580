/-
Model of `mt64-19937.go`.
-/
import Verif.Model.Source
import Verif.Model.Xoroshiro
namespace Crazy

/-- `mt64-19937.go` 9. -/
def mt64N : Nat := 312
/-- `mt64-19937.go` 10. -/
def mt64M : Nat := 156
/-- `mt64-19937.go` 11. -/
def mt64A : U64 := 0xB5026F5AA96619E9#64

/-- `mt64-19937.go` 20-23: `type MT64 struct { i int; s [mt64N]uint64 }`; `i` is never negative. -/
structure MT64 where
  i : Nat
  s : Vector U64 312
  deriving DecidableEq

namespace MT64

/-- `mt64-19937.go` 25-29: `NewMT64`. -/
def new : MT64 := { i := 0, s := Vector.replicate 312 0#64 }

/-- `mt64-19937.go` 31-39: `Seed`. The loop `for i := 1; i < mt64N; i++` is written with `i = k+1`. -/
def seed (x : U64) (g : MT64) : Go MT64 := do
  let s ← aset g.s 0 x
  let s ← forIdx (mt64N - 1) (fun k s => do
    let i := k + 1
    let p ← aget s (i - 1)
    aset s i (6364136223846793005#64 * (p ^^^ (p >>> 62)) + BitVec.ofNat 64 i)) s
  return { i := mt64N, s := s }

/-- `mt64-19937.go` 48-54: `iv` padded with zero bytes to a multiple of eight. -/
def pad8 (iv : List Byte) : List Byte :=
  if iv.length % 8 ≠ 0 then copyInto (zeros (iv.length + 8 - iv.length % 8)) iv else iv

/-- `mt64-19937.go` 62-65 and 72-75: `if i++; i >= mt64N { mt.s[0] = mt.s[mt64N-1]; i = 1 }`. -/
def incI (i : Nat) (s : Vector U64 312) : Go (Nat × Vector U64 312) := do
  let i := i + 1
  if mt64N ≤ i then
    let s ← aset s 0 (← aget s (mt64N - 1))
    return (1, s)
  else
    return (i, s)

/-- `mt64-19937.go` 60-69: the first loop of `SeedIV`, `k` iterations left. -/
def seedLoop1 (iv : List Byte) : Nat → Nat → Nat → Vector U64 312 → Go (Nat × Vector U64 312)
  | 0, i, _, s => .ok (i, s)
  | k + 1, i, j, s => do
    let a ← aget s i
    let p ← aget s (i - 1)
    let key ← u64le (← sliceFrom iv (j * 8))
    let s ← aset s i ((a ^^^ p ^^^ (p >>> 62)) * 3935559000370003845#64 + key + BitVec.ofNat 64 j)
    let (i, s) ← incI i s
    let j := j + 1
    let j := if iv.length ≤ j * 8 then 0 else j
    seedLoop1 iv k i j s

/-- `mt64-19937.go` 70-76: the second loop of `SeedIV`, `k` iterations left. -/
def seedLoop2 : Nat → Nat → Vector U64 312 → Go (Nat × Vector U64 312)
  | 0, i, s => .ok (i, s)
  | k + 1, i, s => do
    let a ← aget s i
    let p ← aget s (i - 1)
    let s ← aset s i ((a ^^^ p ^^^ (p >>> 62)) * 2862933555777941757#64 - BitVec.ofNat 64 i)
    let (i, s) ← incI i s
    seedLoop2 k i s

/-- `mt64-19937.go` 41-77: `SeedIV`. -/
def seedIV (iv : List Byte) (g : MT64) : Go MT64 := do
  let g ← seed 19650218#64 g
  if iv.length = 0 then return g
  let iv := pad8 iv
  let k := if mt64N < iv.length then iv.length else mt64N
  let (i, s) ← seedLoop1 iv k 1 0 g.s
  let (_, s) ← seedLoop2 (mt64N - 1) i s
  return { g with s := s }

/-- `mt64-19937.go` 84-85, 90-91, 95-96: `x := a&0xffffffff80000000 | b&0x000000007fffffff;
x = x>>1 ^ mt64A*(x&1)`. -/
def twist (a b : U64) : U64 :=
  let x := (a &&& 0xffffffff80000000#64) ||| (b &&& 0x000000007fffffff#64)
  (x >>> 1) ^^^ (mt64A * (x &&& 1#64))

/-- `mt64-19937.go` 82-97: regeneration of the block. -/
def regen (s : Vector U64 312) : Go (Vector U64 312) := do
  let s ← forIdx (mt64N - mt64M) (fun i s => do
    let x := twist (← aget s i) (← aget s (i + 1))
    aset s i ((← aget s (i + mt64M)) ^^^ x)) s
  let s ← forIdx (mt64N - 1 - (mt64N - mt64M)) (fun k s => do
    let i := mt64N - mt64M + k
    let x := twist (← aget s i) (← aget s (i + 1))
    aset s i ((← aget s (i - (mt64N - mt64M))) ^^^ x)) s
  let x := twist (← aget s (mt64N - 1)) (← aget s 0)
  aset s (mt64N - 1) ((← aget s (mt64M - 1)) ^^^ x)

/-- `mt64-19937.go` 103-106: tempering. -/
def temper (x : U64) : U64 :=
  let x := x ^^^ ((x >>> 29) &&& 0x5555555555555555#64)
  let x := x ^^^ ((x <<< 17) &&& 0x71D67FFFEDA60000#64)
  let x := x ^^^ ((x <<< 37) &&& 0xFFF7EEE000000000#64)
  x ^^^ (x >>> 43)

/-- `mt64-19937.go` 79-108: `Uint64`. -/
def uint64 (g : MT64) : Go (U64 × MT64) := do
  let g ←
    if mt64N ≤ g.i then do
      let s ← regen g.s
      pure { i := 0, s := s }
    else pure g
  let x ← aget g.s g.i
  return (temper x, { g with i := g.i + 1 })

/-- `mt64-19937.go` 110-122: `Read`. -/
def read (p : List Byte) (g : MT64) : Go (ReadRes × MT64) := do
  let (q, g) ← readGt uint64 p g
  return (⟨q, p.length, none⟩, g)

/-- `mt64-19937.go` 124-128: `Int63`. -/
def int63 (g : MT64) : Go (U64 × MT64) := do
  let (x, g) ← g.uint64
  return (x >>> 1, g)

/-- `mt64-19937.go` 130-148: the bytes `Save` passes to `into.Write`: the words, then `byte(mt.i >> 8)` and
`byte(mt.i)`. -/
def save (g : MT64) : Go (List Byte) := do
  let p := zeros (2 + mt64N * 8)
  let p ← forRange (fun i v p => putAt p (8 * i) v) 0 g.s.toList p
  return p.take (mt64N * 8) ++ [BitVec.ofNat 8 (g.i >>> 8), BitVec.ofNat 8 g.i]

/-- `mt64-19937.go` 150-162: `Restore`. -/
def restore (r : Reader) (g : MT64) : Go ((Int × Option Err) × MT64) := do
  let res := r.reply (2 + mt64N * 8)
  if res.err.isSome then return ((res.n, res.err), g)
  let p := res.buf
  let s ← forIdx mt64N (fun i s => do aset s i (← u64le (← sliceFrom p (8 * i)))) g.s
  match p.drop (mt64N * 8) with
  | [hi, lo] => return ((res.n, none), { i := (hi.toNat <<< 8) ||| lo.toNat, s := s })
  | _ => .error .index

/-- `mt64-19937.go` 164-168: `Copy` (`m := *mt` copies the array). -/
def copy (g : MT64) : MT64 := g

/-- `mt64-19937.go`: the exported methods of `*MT64`. -/
def methods : Methods MT64 ExtInt63 where
  uint64 := MT64.uint64
  read := MT64.read
  seed := MT64.seed
  seedIV := MT64.seedIV
  save := MT64.save
  restore := MT64.restore
  ext _ g := do let (x, g) ← g.int63; return (.u64 x, g)

end MT64
end Crazy
