/-
Specification: Vigna's SplitMix64 generator, written from its published definition (`splitmix64.c`) over the natural numbers,
independently of the code.
-/
import Verif.Spec.Stream
namespace Crazy
namespace SplitMix

/-- The state `x` after `x += 0x9e3779b97f4a7c15`. -/
def advance (x : Nat) : Nat := (x + 0x9e3779b97f4a7c15) % 2 ^ 64

/-- The output for the state `z`: `z = (z ^ (z >> 30)) * 0xbf58476d1ce4e5b9; z = (z ^ (z >> 27)) * 0x94d049bb133111eb; return
z ^ (z >> 31)`. -/
def mix (z : Nat) : Nat :=
  let z := (z ^^^ z / 2 ^ 30) * 0xbf58476d1ce4e5b9 % 2 ^ 64
  let z := (z ^^^ z / 2 ^ 27) * 0x94d049bb133111eb % 2 ^ 64
  z ^^^ z / 2 ^ 31

/-- The state after `n` calls. -/
def state (seed : Nat) : Nat → Nat
  | 0 => seed
  | n + 1 => advance (state seed n)

/-- The result of call number `n`, from 0. -/
def out (seed n : Nat) : U64 := BitVec.ofNat 64 (mix (state seed (n + 1)))

end SplitMix
end Crazy
