/-
Specification: the 64-bit Mersenne Twister MT19937-64, written from its published definition (Nishimura and Matsumoto)
with parameters w = 64, n = 312, m = 156, r = 31, independently of the code.
-/
import Verif.Model.Go
namespace Crazy
namespace MTRef

/-- Initialization: `x_0 = seed`, `x_i = f * (x_(i-1) xor (x_(i-1) >> (w-2))) + i`, `f = 6364136223846793005`, `i < 312`;
recurrence: `x_(k+n) = x_(k+m) xor (upper w-r bits of x_k | lower r bits of x_(k+1)) A`, where `y A` is `y >> 1` for even
`y` and `(y >> 1) xor a` for odd `y`, `a = 0xB5026F5AA96619E9`. -/
def x (seed : U64) (i : Nat) : U64 :=
  if i = 0 then seed
  else if i < 312 then
    6364136223846793005#64 * (x seed (i - 1) ^^^ (x seed (i - 1) >>> 62)) + BitVec.ofNat 64 i
  else
    let y : U64 := (x seed (i - 312)).extractLsb' 31 33 ++ (x seed (i - 311)).extractLsb' 0 31
    x seed (i - 156) ^^^ (if y.getLsbD 0 then (y >>> 1) ^^^ 0xB5026F5AA96619E9#64 else y >>> 1)
termination_by i

/-- Tempering with `(u, d) = (29, 0x5555555555555555)`, `(s, b) = (17, 0x71D67FFFEDA60000)`,
`(t, c) = (37, 0xFFF7EEE000000000)`, `l = 43`. -/
def temper (x : U64) : U64 :=
  let y := x ^^^ ((x >>> 29) &&& 0x5555555555555555#64)
  let y := y ^^^ ((y <<< 17) &&& 0x71D67FFFEDA60000#64)
  let y := y ^^^ ((y <<< 37) &&& 0xFFF7EEE000000000#64)
  y ^^^ (y >>> 43)

/-- The `k`-th output (from 0) after seeding. -/
def out (seed : U64) (k : Nat) : U64 := temper (x seed (312 + k))

end MTRef
end Crazy
