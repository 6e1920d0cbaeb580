/-
Specification of the ziggurat of a decreasing density: Marsaglia and Tsang, "The Ziggurat Method for Generating Random Variables", the paper that
`ziggurat/ziggurat.py` names.
-/
import Mathlib.MeasureTheory.Integral.Bochner.Set
import Mathlib.MeasureTheory.Constructions.BorelSpace.Real
import Mathlib.MeasureTheory.Measure.Haar.OfBasis
namespace Crazy
open MeasureTheory

/-- The functions that a ziggurat can be made for: "any monotonically decreasing probability distribution ... supported on the interval [0, inf)",
not necessarily normalised. -/
structure Falling (f : ℝ → ℝ) : Prop where
  pos : ∀ x, 0 ≤ x → 0 < f x
  anti : StrictAntiOn f (Set.Ici 0)
  cont : ContinuousOn f (Set.Ici 0)
  int : IntegrableOn f (Set.Ioi 0)

/-- `0 = x 0 < x 1 < ... < x (n-1)` cut the region below `f` in `n` parts of the same area `v`: `n - 1` rectangles, that between `x i` and
`x (i+1)` as wide as `x (i+1)` and as high as `f` falls between the two, and the rectangle at the bottom together with the tail beyond `x (n-1)`. -/
structure ExactZig (f : ℝ → ℝ) (n : Nat) (x : Nat → ℝ) (v : ℝ) : Prop where
  zero : x 0 = 0
  lt : ∀ i, i + 1 < n → x i < x (i + 1)
  layer : ∀ i, i + 1 < n → x (i + 1) * (f (x i) - f (x (i + 1))) = v
  base : x (n - 1) * f (x (n - 1)) + ∫ t in Set.Ioi (x (n - 1)), f t = v

end Crazy
