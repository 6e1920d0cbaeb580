/-
Model of the Go language and standard-library primitives used by the package:
panics, byte slices, `encoding/binary.LittleEndian`, `copy`, `math/bits`, `io.Reader`/`io.Writer`.
-/
namespace Crazy

/-- `byte`. -/
abbrev Byte := BitVec 8
/-- `uint64` (and, as a bit pattern, `int64`). -/
abbrev U64 := BitVec 64

/-- The ways a modelled Go call can fail to return: the Go run-time panics that can occur in the
package's code, its explicit `panic` calls, and (for loops without a bound in the source) running out
of the model's fuel, which stands for "has not returned yet". -/
inductive Panic where
  /-- run-time error: index / slice bounds out of range -/
  | index
  /-- run-time error: integer divide by zero -/
  | divide
  /-- run-time error: makeslice: len out of range -/
  | makeslice
  /-- explicit `panic("...")` -/
  | explicit (msg : String)
  /-- not a panic: the loop has not finished within the fuel given to the model -/
  | fuel
  deriving DecidableEq, Repr

/-- Result of a Go call: a value or a panic. -/
abbrev Go (α : Type) := Except Panic α

/-- `error` values of readers and writers. -/
inductive Err where
  | eof
  | other (msg : String)
  deriving DecidableEq, Repr

/-- `make([]byte, n)` / `[n]byte{}`: a zeroed buffer. -/
def zeros (n : Nat) : List Byte := List.replicate n 0#8

/-- `encoding/binary` `littleEndian.PutUint64` viewed as a function from the value to the eight bytes
stored, `b[k] = byte(v >> (8*k))`. -/
def le64 (v : U64) : List Byte :=
  [v.setWidth 8, (v >>> 8).setWidth 8, (v >>> 16).setWidth 8, (v >>> 24).setWidth 8,
   (v >>> 32).setWidth 8, (v >>> 40).setWidth 8, (v >>> 48).setWidth 8, (v >>> 56).setWidth 8]

/-- `encoding/binary` `littleEndian.Uint64(b)`; panics when `len(b) < 8`. -/
def u64le : List Byte → Go U64
  | b0 :: b1 :: b2 :: b3 :: b4 :: b5 :: b6 :: b7 :: _ =>
    .ok (b0.setWidth 64 ||| (b1.setWidth 64 <<< 8) ||| (b2.setWidth 64 <<< 16) |||
      (b3.setWidth 64 <<< 24) ||| (b4.setWidth 64 <<< 32) ||| (b5.setWidth 64 <<< 40) |||
      (b6.setWidth 64 <<< 48) ||| (b7.setWidth 64 <<< 56))
  | _ => .error .index

/-- `encoding/binary` `littleEndian.Uint32(b)`; panics when `len(b) < 4`. -/
def u32le : List Byte → Go (BitVec 32)
  | b0 :: b1 :: b2 :: b3 :: _ =>
    .ok (b0.setWidth 32 ||| (b1.setWidth 32 <<< 8) ||| (b2.setWidth 32 <<< 16) |||
      (b3.setWidth 32 <<< 24))
  | _ => .error .index

/-- `encoding/binary` `littleEndian.Uint16(b)`; panics when `len(b) < 2`. -/
def u16le : List Byte → Go (BitVec 16)
  | b0 :: b1 :: _ => .ok (b0.setWidth 16 ||| (b1.setWidth 16 <<< 8))
  | _ => .error .index

/-- `littleEndian.PutUint64(p, v)` into an existing slice: overwrites the first eight bytes,
panics when `len(p) < 8`. -/
def putU64 (p : List Byte) (v : U64) : Go (List Byte) :=
  if 8 ≤ p.length then .ok (le64 v ++ p.drop 8) else .error .index

/-- `p[k:]`; panics when `k > len(p)`. -/
def sliceFrom (p : List Byte) (k : Nat) : Go (List Byte) :=
  if k ≤ p.length then .ok (p.drop k) else .error .index

/-- Contents of `dst` after the built-in `copy(dst, src)`. -/
def copyInto (dst src : List Byte) : List Byte :=
  src.take dst.length ++ dst.drop src.length

/-- Number of bytes copied by the built-in `copy(dst, src)`. -/
def copyLen (dst src : List Byte) : Nat := min dst.length src.length

/-- `a[i]` on a fixed-size array; panics when out of range. -/
def aget {n : Nat} (a : Vector U64 n) (i : Nat) : Go U64 :=
  if h : i < n then .ok (a[i]'h) else .error .index

/-- `a[i] = x` on a fixed-size array; panics when out of range. -/
def aset {n : Nat} (a : Vector U64 n) (i : Nat) (x : U64) : Go (Vector U64 n) :=
  if h : i < n then .ok (a.set i x h) else .error .index

/-- `PutUint64(p[off:], v)` on a byte array `p`: the contents of `p` afterwards. -/
def putAt (p : List Byte) (off : Nat) (v : U64) : Go (List Byte) :=
  if off + 8 ≤ p.length then .ok (p.take off ++ le64 v ++ p.drop (off + 8)) else .error .index

/-- `for i := 0; i < n; i++ { body }` with loop state `s`. -/
def forIdx {σ : Type} : Nat → (Nat → σ → Go σ) → σ → Go σ
  | 0, _, s => .ok s
  | n + 1, body, s => do
    let s ← forIdx n body s
    body n s

/-- `for i, v := range l { body }` with loop state `s`; `i` counts from the first argument. -/
def forRange {α σ : Type} (body : Nat → α → σ → Go σ) : Nat → List α → σ → Go σ
  | _, [], s => .ok s
  | i, v :: l, s => do
    let s ← body i v s
    forRange body (i + 1) l s

/-- `math/bits.RotateLeft64(x, k)` for `0 ≤ k < 64`. -/
def rotl64 (x : U64) (k : Nat) : U64 := x <<< (k % 64) ||| x >>> ((64 - k % 64) % 64)

/-- `math/bits.ReverseBytes64`. -/
def reverseBytes64 (x : U64) : U64 :=
  ((x >>> 56) &&& 0xff#64) ||| (((x >>> 48) &&& 0xff#64) <<< 8) |||
  (((x >>> 40) &&& 0xff#64) <<< 16) ||| (((x >>> 32) &&& 0xff#64) <<< 24) |||
  (((x >>> 24) &&& 0xff#64) <<< 32) ||| (((x >>> 16) &&& 0xff#64) <<< 40) |||
  (((x >>> 8) &&& 0xff#64) <<< 48) ||| ((x &&& 0xff#64) <<< 56)

/-- What one call `r.Read(p)` hands back: the whole contents of `p` afterwards (a reader may use all
of `p` as scratch space), the count and the error. -/
structure ReadRes where
  buf : List Byte
  n : Int
  err : Option Err
  deriving DecidableEq, Repr

/-- The reply of an `io.Reader` to one `Read` call on a zeroed buffer of `k` bytes, as used by the
`Restore` methods (each calls `from.Read` exactly once). The slice header belongs to the caller, so the
buffer keeps its length: that is Go's type system, expressed by `len_buf`. -/
structure Reader where
  reply : Nat → ReadRes
  len_buf : ∀ k, (reply k).buf.length = k

/-- An `io.Writer` as used by the `Save` methods (one `Write` call): the count and error it returns for
the bytes it is given. -/
structure Writer where
  reply : List Byte → Int × Option Err

/-- The `for len(p) > 8 { PutUint64(p, next()); p = p[8:] }` loop followed by the final
`b := [8]byte{}; PutUint64(b[:], next()); copy(p, b[:])` that all `Read` methods except `Xoroshiro`'s
consist of (`lfg.go` 77-87, `mt64-19937.go` 112-122, `xoroshiro.go` 174-184, `xoshiro.go` 255-265,
`util.go` 90-100). Returns the new contents of `p`. The pattern with nine leading bytes is the loop
condition `len(p) > 8`; it is also what keeps `PutUint64(p, _)` and `p[8:]` from panicking, so these two
checks are not repeated. -/
def readGt {σ : Type} (next : σ → Go (U64 × σ)) : List Byte → σ → Go (List Byte × σ)
  | _ :: _ :: _ :: _ :: _ :: _ :: _ :: _ :: b8 :: p, s => do
    let (x, s) ← next s
    let (q, s) ← readGt next (b8 :: p) s
    return (le64 x ++ q, s)
  | p, s => do
    let (x, s) ← next s
    return (copyInto p (le64 x), s)

end Crazy
