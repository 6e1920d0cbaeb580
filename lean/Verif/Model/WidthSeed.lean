/-
`LFG.SeedIV` with the size `w` of `int` as a parameter (32 on 386, arm, mips; 64 otherwise). `LFG.seedIV` is the case `w = 64` for ivs of up
to `2^55` bytes (`C90_LFG_SeedIV_64`).
-/
import Verif.Model.LFG
namespace Crazy

/-- `a[x]` on a fixed-size array, `x` an `int` of `w` bits; panics when out of range. -/
def agetW (w : Nat) {n : Nat} (a : Vector U64 n) (x : BitVec w) : Go U64 :=
  if x.toInt < 0 then .error .index else aget a x.toInt.toNat

/-- `a[x] = v` on a fixed-size array, `x` an `int` of `w` bits; panics when out of range. -/
def asetW (w : Nat) {n : Nat} (a : Vector U64 n) (x : BitVec w) (v : U64) : Go (Vector U64 n) :=
  if x.toInt < 0 then .error .index else aset a x.toInt.toNat v

namespace LFG

/-- `lfg.go` 53-55: the loop of `SeedIV` over the bytes of `iv`, `int` being `w` bits wide: sums and products wrap around, `%` (`BitVec.srem`)
takes the sign of its left operand. -/
def seedBytesW (w : Nat) (iv : List Byte) (s : Vector U64 607) : Go (Vector U64 607) :=
  forRange (fun i v s => do
    let i := BitVec.ofNat w i
    let k := (i + BitVec.ofNat w lfgK - BitVec.ofNat w lfgJ).srem (BitVec.ofNat w lfgK)
    let a ← agetW w s k
    let b ← agetW w lfgS0 ((BitVec.ofNat w v.toNat + BitVec.ofNat w 256 * i).srem (BitVec.ofNat w lfgK))
    asetW w s k (a + b)) 0 iv s

/-- `lfg.go` 48-59: `SeedIV`, `int` being `w` bits wide. -/
def seedIVW (w : Nat) (iv : List Byte) (g : LFG) : Go LFG := do
  let g := { g with f := lfgK - lfgJ, t := 0 }
  let g := { g with s := lfgS0 }
  let s ← seedBytesW w iv g.s
  discard (lfgK * 8) { g with s := s }

end LFG
end Crazy
