/-
The five generators as interface values: which of the methods `Read`, `SeedIV`, `Int63`, `Uint64`, `Seed` each has.
-/
import Verif.Model.Util
namespace Crazy

/-- `lfg.go`: `Seed` 42-46, `SeedIV` 48-59, `Uint64` 61-73, `Read` 75-87, `Int63` 89-93. -/
def LFG.obj : Obj LFG where
  read? := some LFG.read
  seedIV? := some LFG.seedIV
  int63? := some LFG.int63
  uint64? := some LFG.uint64
  seed? := some LFG.seed
  len_buf f hf := by cases hf; exact LFG.source.len_buf

/-- `mt64-19937.go`. -/
def MT64.obj : Obj MT64 where
  read? := some MT64.read
  seedIV? := some MT64.seedIV
  int63? := some MT64.int63
  uint64? := some MT64.uint64
  seed? := some MT64.seed
  len_buf f hf := by cases hf; exact MT64.source.len_buf

/-- `xoroshiro.go` 25-141. -/
def Xoroshiro.obj : Obj Xoroshiro where
  read? := some Xoroshiro.read
  seedIV? := some Xoroshiro.seedIV
  int63? := some Xoroshiro.int63
  uint64? := some Xoroshiro.uint64
  seed? := some Xoroshiro.seed
  len_buf f hf := by cases hf; exact Xoroshiro.source.len_buf

/-- `xoroshiro.go` 164-211. -/
def Rexoroshiro.obj : Obj Rexoroshiro where
  read? := some Rexoroshiro.read
  seedIV? := some Rexoroshiro.seedIV
  int63? := some Rexoroshiro.int63
  uint64? := some Rexoroshiro.uint64
  seed? := some Rexoroshiro.seed
  len_buf f hf := by cases hf; exact Rexoroshiro.source.len_buf

/-- `xoshiro.go` 32-345: the methods are `SeedIV`, `Uint64`, `Read`, `Save`, `Restore`, `Seed`, `Copy`, `Jump` and
`Reverse`. There is no `Int63`. -/
def Xoshiro.obj : Obj Xoshiro where
  read? := some Xoshiro.read
  seedIV? := some Xoshiro.seedIV
  int63? := none
  uint64? := some Xoshiro.uint64
  seed? := some Xoshiro.seed
  len_buf f hf := by cases hf; exact Xoshiro.source.len_buf

end Crazy
