/-
Specification: what `MT64.SeedIV` computes, as a sequence; the published `init_by_array64` in the same form; and the Mersenne Twister
started from arbitrary words.
-/
import Verif.Spec.MT
namespace Crazy
namespace MTRef

/-- The words `x_i` of the Mersenne Twister (see `MTRef.x`) from arbitrary first 312 words. -/
def gen (w : Nat → U64) (i : Nat) : U64 :=
  if i < 312 then w i
  else
    let y : U64 := (gen w (i - 312)).extractLsb' 31 33 ++ (gen w (i - 311)).extractLsb' 0 31
    gen w (i - 156) ^^^ (if y.getLsbD 0 then (y >>> 1) ^^^ 0xB5026F5AA96619E9#64 else y >>> 1)
termination_by i

/-- The words that seeding with an array computes, in the order in which it does so, for a way `mix` of combining a constant, the old word and
the previous word: words 1 to 311 of the array seeded with 19650218; then, cyclically over positions 1 to 311, `n1` words from the old word, the
one before it and the key; then the rest in the same way with the position in place of the key. -/
def arr (mix : U64 → U64 → U64 → U64) (key : List U64) (n1 : Nat) (n : Nat) : U64 :=
  if h : n < 311 then x 19650218#64 (n + 1)
  else
    let old := arr mix key n1 (n - 311)
    let prev := if n = 311 then x 19650218#64 0 else arr mix key n1 (n - 1)
    let j := (n - 311) % key.length
    if n - 311 < n1 then mix 3935559000370003845#64 old prev + key.getD j 0#64 + BitVec.ofNat 64 j
    else mix 2862933555777941757#64 old prev - BitVec.ofNat 64 (1 + n % 311)
termination_by n

/-- The code multiplies after the xor with the old word. -/
def mixCode (c old prev : U64) : U64 := (old ^^^ prev ^^^ (prev >>> 62)) * c

/-- The published function multiplies before. -/
def mixPub (c old prev : U64) : U64 := old ^^^ ((prev ^^^ (prev >>> 62)) * c)

/-- The 312 words after `init_by_array64` with the given key: of the last 311 words computed the one for each position, but
`2^63` at position 0. -/
def pubWords (key : List U64) (i : Nat) : U64 :=
  let n1 := max 312 key.length
  if i = 0 then 0x8000000000000000#64 else arr mixPub key n1 (311 + n1 + (i - 1 + 311 * n1 - n1) % 311)

end MTRef
end Crazy
