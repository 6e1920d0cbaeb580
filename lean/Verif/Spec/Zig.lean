/-
Specification of the tables of a 1024-layer ziggurat (`ziggurat.go` 18-25; Marsaglia and Tsang, "The Ziggurat Method").
-/
import Verif.Model.Go
import Verif.Spec.Float
import Mathlib.MeasureTheory.Integral.Bochner.Set
import Mathlib.MeasureTheory.Constructions.BorelSpace.Real
import Mathlib.MeasureTheory.Measure.Haar.OfBasis
namespace Crazy
open MeasureTheory

/-- The abscissa `x[i]` of layer `i ≥ 1`; for `i = 0`, the width that the base layer would have as a rectangle. -/
noncomputable def zx (W : Vector F64 1024) (i : Nat) (h : i < 1024 := by omega) : ℝ := 2 ^ 53 * ((W[i].val : ℚ) : ℝ)

/-- The ordinate `F[i]`. -/
noncomputable def zf (F : Vector F64 1024) (i : Nat) (h : i < 1024 := by omega) : ℝ := ((F[i].val : ℚ) : ℝ)

/-- The area of the base layer: its height times its width. -/
noncomputable def zv (W F : Vector F64 1024) : ℝ := zx W 0 * zf F 1023

/-- The layer that a random word selects: its top ten bits. -/
def zlayer (x : U64) : Nat := x.toNat / 2 ^ 54

theorem zlayer_lt (x : U64) : zlayer x < 1024 := by
  have := x.isLt
  unfold zlayer
  omega

/-- The offset in the layer: the low 54 bits, signed, if the ziggurat is mirrored, and otherwise the low 53 bits. -/
def zoffset (mirrored : Bool) (x : U64) : Int := if mirrored then Int.bmod x.toNat (2 ^ 54) else (x.toNat % 2 ^ 53 : Nat)

/-- The real number a finite float denotes. -/
noncomputable def rv (x : F64) : ℝ := ((x.val : ℚ) : ℝ)

/-- The tables `K`, `W`, `F` are those of a ziggurat for the density `pdf` (not normalised, 1 at 0). -/
structure IsZiggurat (pdf : ℝ → ℝ) (K : Vector U64 1024) (W F : Vector F64 1024) : Prop where
  /-- Every entry is a positive number. -/
  finite : ∀ i (_ : i < 1024), W[i].IsFin ∧ W[i].Valid ∧ 0 < zx W i ∧ F[i].IsFin ∧ F[i].Valid ∧ 0 < zf F i
  /-- The layers get wider from the top, ... -/
  x_lt : ∀ i (_ : i < 1024), 2 ≤ i → zx W (i - 1) < zx W i
  /-- ... which is at height 1, ... -/
  f_zero : zf F 0 = 1
  /-- ... downwards. -/
  f_lt : ∀ i (_ : i < 1024), 1 ≤ i → zf F i < zf F (i - 1)
  /-- The corner of every layer is on the curve. -/
  f_pdf : ∀ i (_ : i < 1024), 1 ≤ i → |zf F i - pdf (zx W i)| ≤ pdf (zx W i) / 2 ^ 49
  /-- All layers have the same area ... -/
  area : ∀ i (_ : i < 1024), 1 ≤ i → |zx W i * (zf F (i - 1) - zf F i) - zv W F| ≤ zv W F / 2 ^ 42
  /-- ... as the base layer, which consists of a rectangle and of the tail beyond it. -/
  base : |zv W F - (zx W 1023 * pdf (zx W 1023) + ∫ t in Set.Ioi (zx W 1023), pdf t)| ≤ zv W F / 2 ^ 42
  /-- `K[i]` is `2^53` times the part of the layer that lies entirely below the curve; none of the topmost layer ... -/
  k_one : K[1] = 0
  k_ratio : ∀ i (_ : i < 1024), 2 ≤ i → |(K[i].toNat : ℝ) - 2 ^ 53 * (zx W (i - 1) / zx W i)| < 3
  /-- ... and of the base layer the rectangle. -/
  k_base : |(K[0].toNat : ℝ) - 2 ^ 53 * (zx W 1023 / zx W 0)| < 1

end Crazy
