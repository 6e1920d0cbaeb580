/-
Model of Go's `float64` (IEEE 754 binary64, round to nearest even) and of the primitives of package `math` that
`distr.go`, `ziggurat.go`, `expo.go` and `normal.go` use.
-/
import Verif.Model.Go
namespace Crazy

/-- A `float64`. Every finite one is an integer multiple of `2^-1074`: `fin neg n` is `n * 2^-1074`, negated if `neg`
(so there are two zeros). Simplification: NaNs are not told apart. -/
inductive F64 where
  | nan
  | inf (neg : Bool)
  | fin (neg : Bool) (n : Nat)
  deriving DecidableEq, Repr

namespace F64

/-- The unit: `1.0` is `2^1074` times the smallest positive number. -/
def one : Nat := 2 ^ 1074

/-- `2^1024` in units: no finite number is that large. -/
@[irreducible] def limit : Nat := 2 ^ 2098

/-- The exponent of the last place kept of a number of magnitude `q`, in units: 53 significant bits. -/
def place (q : Nat) : Nat := q.log2 + 1 - 53

/-- The rational number `a / b` (in units) rounded to 53 significant bits, to nearest, ties to even. -/
def rndNat (a b : Nat) : Nat :=
  let k := place (a / b)
  let d := b * 2 ^ k
  let m := a / d
  let r := a % d
  (if d < 2 * r ∨ (2 * r = d ∧ m % 2 = 1) then m + 1 else m) * 2 ^ k

/-- IEEE 754 rounding of `± a / b` units; what reaches `2^1024` becomes infinite. -/
def rnd (neg : Bool) (a b : Nat) : F64 :=
  if rndNat a b < limit then fin neg (rndNat a b) else inf neg

/-- A finite number as a signed number of units. -/
def sint (neg : Bool) (n : Nat) : Int := if neg then -n else n

/-- Rounding of `z / b` units; `zneg` is the sign of the result if `z = 0`. -/
def rndInt (zneg : Bool) (z : Int) (b : Nat) : F64 :=
  if z = 0 then fin zneg 0 else rnd (decide (z < 0)) z.natAbs b

/-- `-x`. -/
def neg : F64 → F64
  | nan => nan
  | inf s => inf !s
  | fin s n => fin (!s) n

/-- `x + y`. -/
def add : F64 → F64 → F64
  | nan, _ => nan
  | _, nan => nan
  | inf a, inf b => if a = b then inf a else nan
  | inf a, fin _ _ => inf a
  | fin _ _, inf b => inf b
  | fin a n, fin b m => rndInt (a && b) (sint a n + sint b m) 1

/-- `x - y`. -/
def sub (x y : F64) : F64 := add x (neg y)

/-- `x * y`. -/
def mul : F64 → F64 → F64
  | nan, _ => nan
  | _, nan => nan
  | inf a, inf b => inf (a ^^ b)
  | inf a, fin b m => if m = 0 then nan else inf (a ^^ b)
  | fin a n, inf b => if n = 0 then nan else inf (a ^^ b)
  | fin a n, fin b m => rnd (a ^^ b) (n * m) one

/-- `x / y`. -/
def div : F64 → F64 → F64
  | nan, _ => nan
  | _, nan => nan
  | inf _, inf _ => nan
  | inf a, fin b _ => inf (a ^^ b)
  | fin a _, inf b => fin (a ^^ b) 0
  | fin a n, fin b m => if m = 0 then if n = 0 then nan else inf (a ^^ b) else rnd (a ^^ b) (n * one) m

/-- `x * y + z` computed with one rounding, as some processors do. -/
def fma : F64 → F64 → F64 → F64
  | fin a n, fin b m, fin c l => rndInt ((a ^^ b) && c) (sint (a ^^ b) (n * m) + sint c (l * one)) one
  | fin _ _, fin _ _, z => z
  | x, y, z => add (mul x y) z

/-- `x*y + z` as written in a Go program: the language lets the implementation fuse the two operations (`fused`) or not.
On amd64 the default is not to fuse, on arm64 it is to fuse. -/
def mulAdd (fused : Bool) (x y z : F64) : F64 := if fused then fma x y z else add (mul x y) z

/-- `x < y`. -/
def lt : F64 → F64 → Bool
  | nan, _ => false
  | _, nan => false
  | inf a, inf b => a && !b
  | inf a, fin _ _ => a
  | fin _ _, inf b => !b
  | fin a n, fin b m => decide (sint a n < sint b m)

/-- `x <= y`; also `y >= x`. -/
def le : F64 → F64 → Bool
  | nan, _ => false
  | _, nan => false
  | inf a, inf b => a || !b
  | inf a, fin _ _ => a
  | fin _ _, inf b => !b
  | fin a n, fin b m => decide (sint a n ≤ sint b m)

/-- `float64(n)` for an unsigned integer. -/
def ofNat (n : Nat) : F64 := rnd false (n * one) 1

/-- `float64(j)` for a signed integer. -/
def ofInt (j : Int) : F64 := rnd (decide (j < 0)) (j.natAbs * one) 1

/-- A decimal constant `m * 10^-e` converted to `float64`. -/
def ofDec (m e : Nat) : F64 := rnd false (m * one) (10 ^ e)

/-- `math.Float64frombits`. -/
def ofBits (b : U64) : F64 :=
  let s := b.msb
  let e := (b >>> 52 &&& 0x7ff#64).toNat
  let f := (b &&& 0xfffffffffffff#64).toNat
  if e = 0 then fin s f
  else if e = 2047 then if f = 0 then inf s else nan
  else fin s ((2 ^ 52 + f) * 2 ^ (e - 1))

end F64

/-- `math.Exp` and `math.Log`: arbitrary functions. What a theorem needs to know about them it states. -/
structure MathLib where
  exp : F64 → F64
  log : F64 → F64

end Crazy
