/-
Model of `lfg.go`.
-/
import Verif.Model.Source
import Verif.Model.Xoroshiro
import Verif.Model.LfgTable
namespace Crazy

/-- `lfg.go` 9. -/
def lfgJ : Nat := 273
/-- `lfg.go` 10. -/
def lfgK : Nat := 607

/-- `lfg.go` 32-35: `type LFG struct { f, t int; s [lfgK]uint64 }`. The two `int`s are never negative. -/
structure LFG where
  f : Nat
  t : Nat
  s : Vector U64 607
  deriving DecidableEq

namespace LFG

/-- `lfg.go` 37-40: `NewLFG`. -/
def new : LFG := { f := lfgK - lfgJ, t := 0, s := Vector.replicate 607 0#64 }

/-- The Go zero value `LFG{}` (not what `NewLFG` returns). -/
def zeroValue : LFG := { f := 0, t := 0, s := Vector.replicate 607 0#64 }

/-- `lfg.go` 61-73: `Uint64`. -/
def uint64 (g : LFG) : Go (U64 × LFG) := do
  let x := (← aget g.s g.f) + (← aget g.s g.t)
  let f := g.f + 1
  let t := g.t + 1
  let (f, t) :=
    if lfgK ≤ f then (0, t)
    else if lfgK ≤ t then (f, 0)
    else (f, t)
  let s ← aset g.s f x
  return (x, { f := f, t := t, s := s })

/-- `lfg.go` 53-55: the loop of `SeedIV` over the bytes of `iv`. Simplification: `int(v)+256*i` is computed without
the wrap-around that Go's `int` would have for `len(iv) ≥ 2^55`. -/
def seedBytes (iv : List Byte) (s : Vector U64 607) : Go (Vector U64 607) :=
  forRange (fun i v s => do
    let k := (i + lfgK - lfgJ) % lfgK
    let a ← aget s k
    let b ← aget lfgS0 ((v.toNat + 256 * i) % lfgK)
    aset s k (a + b)) 0 iv s

/-- `lfg.go` 56-58: `n` discarded outputs. -/
def discard (n : Nat) (g : LFG) : Go LFG :=
  forIdx n (fun _ g => do let (_, g) ← g.uint64; return g) g

/-- `lfg.go` 48-59: `SeedIV`. -/
def seedIV (iv : List Byte) (g : LFG) : Go LFG := do
  let g := { g with f := lfgK - lfgJ, t := 0 }
  let g := { g with s := lfgS0 }
  let s ← seedBytes iv g.s
  discard (lfgK * 8) { g with s := s }

/-- `lfg.go` 42-46: `Seed`, through `SeedInt64` (`util.go` 225-231). -/
def seed (x : U64) (g : LFG) : Go LFG := seedIV (le64 x) g

/-- `lfg.go` 75-87: `Read`. -/
def read (p : List Byte) (g : LFG) : Go (ReadRes × LFG) := do
  let (q, g) ← readGt uint64 p g
  return (⟨q, p.length, none⟩, g)

/-- `lfg.go` 89-93: `Int63`. -/
def int63 (g : LFG) : Go (U64 × LFG) := do
  let (x, g) ← g.uint64
  return (x >>> 1, g)

/-- `lfg.go` 95-109: the bytes `Save` passes to `into.Write`. `lfg.s[lfg.t:]` panics when `t > 607`. -/
def save (g : LFG) : Go (List Byte) := do
  let p := zeros (lfgK * 8)
  if lfgK < g.t then .error .index
  let p ← forRange (fun i v p => putAt p (8 * i) v) 0 (g.s.toList.drop g.t) p
  let p ← forRange (fun i v p => putAt p (8 * (lfgK - g.t + i)) v) 0 (g.s.toList.take g.t) p
  return p

/-- `lfg.go` 111-123: `Restore`. -/
def restore (r : Reader) (g : LFG) : Go ((Int × Option Err) × LFG) := do
  let res := r.reply (lfgK * 8)
  if res.n < (lfgK * 8 : Nat) then return ((res.n, res.err), g)
  let p := res.buf
  let s ← forIdx lfgK (fun i s => do aset s i (← u64le (← sliceFrom p (8 * i)))) g.s
  return ((res.n, none), { f := lfgK - lfgJ, t := 0, s := s })

/-- `lfg.go` 125-129: `Copy` (`l := *lfg` copies the array). -/
def copy (g : LFG) : LFG := g

/-- `lfg.go`: the exported methods of `*LFG`. -/
def methods : Methods LFG ExtInt63 where
  uint64 := LFG.uint64
  read := LFG.read
  seed := LFG.seed
  seedIV := LFG.seedIV
  save := LFG.save
  restore := LFG.restore
  ext _ g := do let (x, g) ← g.int63; return (.u64 x, g)

end LFG
end Crazy
