/-
Model of `RandString` (`util.go` 139-150) with the string conversions of the Go run-time it uses.
-/
import Verif.Model.Util
namespace Crazy

variable {σ : Type}

/-- `runtime/utf8.go`: `locb <= b && b <= hicb`. -/
def isCont (b : Byte) : Bool := 0x80#8 ≤ b && b ≤ 0xBF#8

/-- `runeError`, width 1. -/
def badRune : Nat × Nat := (0xFFFD, 1)

/-- `for _, r := range s`, one step at the start of the string: the rune and how many bytes it takes. Bytes below 0x80 stand
for themselves, otherwise `runtime/utf8.go` `decoderune`: sequences that are truncated, overlong, surrogates or beyond
U+10FFFF give U+FFFD and are one byte wide. -/
def decodeRune : List Byte → Nat × Nat
  | [] => badRune
  | s0 :: s =>
    if s0 < 0x80#8 then (s0.toNat, 1)
    else if 0xC0#8 ≤ s0 ∧ s0 < 0xE0#8 then
      match s with
      | s1 :: _ =>
        let r := ((s0 &&& 0x1F#8).toNat <<< 6) ||| (s1 &&& 0x3F#8).toNat
        if isCont s1 ∧ 0x7F < r then (r, 2) else badRune
      | _ => badRune
    else if 0xE0#8 ≤ s0 ∧ s0 < 0xF0#8 then
      match s with
      | s1 :: s2 :: _ =>
        let r := ((s0 &&& 0x0F#8).toNat <<< 12) ||| ((s1 &&& 0x3F#8).toNat <<< 6) ||| (s2 &&& 0x3F#8).toNat
        if isCont s1 ∧ isCont s2 ∧ 0x7FF < r ∧ ¬ (0xD800 ≤ r ∧ r ≤ 0xDFFF) then (r, 3) else badRune
      | _ => badRune
    else if 0xF0#8 ≤ s0 ∧ s0 < 0xF8#8 then
      match s with
      | s1 :: s2 :: s3 :: _ =>
        let r := ((s0 &&& 0x07#8).toNat <<< 18) ||| ((s1 &&& 0x3F#8).toNat <<< 12) ||| ((s2 &&& 0x3F#8).toNat <<< 6) |||
          (s3 &&& 0x3F#8).toNat
        if isCont s1 ∧ isCont s2 ∧ isCont s3 ∧ 0xFFFF < r ∧ r ≤ 0x10FFFF then (r, 4) else badRune
      | _ => badRune
    else badRune

/-- The loop of `runtime/string.go` `stringtoslicerune`; the first argument bounds the number of runes. -/
def runesAux : Nat → List Byte → List Nat
  | 0, _ => []
  | _ + 1, [] => []
  | k + 1, b :: s => (decodeRune (b :: s)).1 :: runesAux k ((b :: s).drop (decodeRune (b :: s)).2)

/-- `[]rune(s)` for a string `s`, given by its bytes. A string has at most as many runes as bytes. -/
def runes (s : List Byte) : List Nat := runesAux s.length s

/-- `runtime/utf8.go` `encoderune` for a rune that is not negative. -/
def encodeRune (r : Nat) : List Byte :=
  if r ≤ 0x7F then [BitVec.ofNat 8 r]
  else if r ≤ 0x7FF then [0xC0#8 ||| BitVec.ofNat 8 (r >>> 6), 0x80#8 ||| (BitVec.ofNat 8 r &&& 0x3F#8)]
  else
    let r := if 0x10FFFF < r ∨ (0xD800 ≤ r ∧ r ≤ 0xDFFF) then 0xFFFD else r
    if r ≤ 0xFFFF then
      [0xE0#8 ||| BitVec.ofNat 8 (r >>> 12), 0x80#8 ||| (BitVec.ofNat 8 (r >>> 6) &&& 0x3F#8),
        0x80#8 ||| (BitVec.ofNat 8 r &&& 0x3F#8)]
    else
      [0xF0#8 ||| BitVec.ofNat 8 (r >>> 18), 0x80#8 ||| (BitVec.ofNat 8 (r >>> 12) &&& 0x3F#8),
        0x80#8 ||| (BitVec.ofNat 8 (r >>> 6) &&& 0x3F#8), 0x80#8 ||| (BitVec.ofNat 8 r &&& 0x3F#8)]

/-- `string(rs)`: `runtime/string.go` `slicerunetostring`. -/
def stringOf (rs : List Nat) : List Byte := rs.flatMap encodeRune

/-- `make([]rune, n)`: a rune takes four bytes. -/
def makeRunes (n : Int) : Go (List Nat) :=
  if n < 0 ∨ (RNG.maxAlloc : Int) < 4 * n then .error .makeslice else .ok (List.replicate n.toNat 0)

/-- `util.go` 143-150: `RandString`; the alphabet is given by its bytes, so is the result. `fuel` bounds the rejected
draws of each `Uintn` call. -/
def randString (src : Source σ) (fuel : Nat) (alphabet : List Byte) (length : Int) (s : σ) : Go (List Byte × σ) := do
  let p ← makeRunes length
  let a := runes alphabet
  let (p, s) ← forIdx p.length (fun i (p, s) => do
    let (k, s) ← RNG.uintn src fuel (BitVec.ofNat 64 a.length) s
    let x ← lget a k.toInt
    let p ← lset p i x
    return (p, s)) (p, s)
  return (stringOf p, s)

end Crazy
