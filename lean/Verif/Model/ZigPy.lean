/-
Model of `/repo/ziggurat/ziggurat.py`, the program that computed the tables of `expo.go` and `normal.go`: `solve` and `tables`, in exact real
arithmetic. mpmath's `quad` is the integral, `findroot(lambda x: f(x) - y, xm1)` is some root of `f x = y` with `x ≥ 0`, `almosteq` is equality,
and the outer `findroot(mini, r)` is not modelled: what is modelled is the function `mini` whose root it looks for. Formatting, the command line and
the messages are left out.
-/
import Mathlib.MeasureTheory.Integral.Bochner.Set
import Mathlib.MeasureTheory.Constructions.BorelSpace.Real
import Mathlib.MeasureTheory.Measure.Haar.OfBasis
import Mathlib.Data.Real.Sign
namespace Crazy.ZigPy
open MeasureTheory

/-- `v = r*f(r) + mpmath.quad(f, [r, mpmath.inf])` (`ziggurat/ziggurat.py` 68). -/
noncomputable def area (f : ℝ → ℝ) (r : ℝ) : ℝ := r * f r + ∫ t in Set.Ioi r, f t

/-- `mpmath.findroot(lambda x: f(x) - y, xm1)` (`ziggurat/ziggurat.py` 78); which of several roots is found, and the starting point, are not
modelled. -/
noncomputable def root (f : ℝ → ℝ) (y : ℝ) : ℝ := Function.invFunOn f (Set.Ici 0) y

/-- `xi[i]` and `y` when the loop of `mini` begins its turn `i` (`ziggurat/ziggurat.py` 66-79); here without the `break`. -/
noncomputable def rise (f : ℝ → ℝ) (r : ℝ) : Nat → ℝ × ℝ
  | 0 => (r, f r)
  | i + 1 =>
    let y := (rise f r i).2 + area f r / (rise f r i).1
    (root f y, y)

/-- The loop leaves in its turn `i` (`ziggurat/ziggurat.py` 75-76). -/
def Breaks (f : ℝ → ℝ) (r : ℝ) (i : Nat) : Prop := f 0 ≤ (rise f r (i + 1)).2

open Classical in
/-- The turn in which the loop leaves. If it never does, which no theorem here needs, 0. -/
noncomputable def turn (f : ℝ → ℝ) (r : ℝ) : Nat := if h : ∃ i, Breaks f r i then Nat.find h else 0

/-- `xi` after the loop (`ziggurat/ziggurat.py` 66, 79-80). -/
noncomputable def xi (f : ℝ → ℝ) (r : ℝ) : List ℝ := ((List.range (turn f r + 1)).map fun i => (rise f r i).1) ++ [0]

open Classical in
/-- `mini(r)` (`ziggurat/ziggurat.py` 64-89). -/
noncomputable def mini (f : ℝ → ℝ) (nseg : Nat) (r : ℝ) : ℝ :=
  let len := (xi f r).length
  let y := (rise f r (turn f r + 1)).2
  let h := area f r / (rise f r (turn f r)).1
  if len = nseg then
    if y = f 0 then 0 else f 0 - y
  else (len : ℝ) - nseg + h * Real.sign ((len : ℝ) - nseg)

/-- `txi`, as `mini` sets it when it returns 0 (`ziggurat/ziggurat.py` 83). -/
noncomputable def txi (f : ℝ → ℝ) (r : ℝ) : List ℝ := (xi f r).reverse

/-- `im` for 64-bit tables (`ziggurat/ziggurat.py` 101-103): with `n` entries, `2 ** (63 - (n-1).bit_length())`. -/
def im (n : Nat) : Nat := 2 ^ (63 - (if n - 1 = 0 then 0 else Nat.log2 (n - 1) + 1))

/-- `ki` (`ziggurat/ziggurat.py` 109-118). -/
noncomputable def ki (f : ℝ → ℝ) (r v : ℝ) (xs : List ℝ) : List Int :=
  (List.range xs.length).map fun i =>
    if i = 0 then ⌊(im xs.length : ℝ) * r * f r / v⌋ else ⌊(im xs.length : ℝ) * xs.getD (i - 1) 0 / xs.getD i 0⌋

/-- `wi` (`ziggurat/ziggurat.py` 109-118). -/
noncomputable def wi (f : ℝ → ℝ) (r v : ℝ) (xs : List ℝ) : List ℝ :=
  (List.range xs.length).map fun i => if i = 0 then v / f r / (im xs.length : ℝ) else xs.getD i 0 / (im xs.length : ℝ)

/-- `fi` (`ziggurat/ziggurat.py` 118). -/
noncomputable def fi (f : ℝ → ℝ) (xs : List ℝ) : List ℝ := xs.map f

end Crazy.ZigPy
