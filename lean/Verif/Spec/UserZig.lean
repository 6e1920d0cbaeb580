/-
What a user who fills in a `Ziggurat` for a density of his own is to provide, and what he is to get (`ziggurat.go` 3-26).
-/
import Verif.Spec.MathLib
import Verif.Spec.Prob
import Verif.Model.Distr
namespace Crazy
open MeasureTheory Set

/-- The float is at least the real number `t` (a finite float, or +Inf). -/
def AtLeast (t : ℝ) (r : F64) : Prop := r = .inf false ∨ (r.IsFin ∧ t ≤ rv r)

/-- A monotone decreasing density on the positive numbers, not normalised, but scaled so that it is 1 at 0 and nowhere steeper than
1. -/
structure Decreasing (f : ℝ → ℝ) : Prop where
  top : f 0 = 1
  pos : ∀ x, 0 ≤ x → 0 < f x
  anti : AntitoneOn f (Ici 0)
  slope : ∀ a b, 0 ≤ a → 0 ≤ b → |f a - f b| ≤ |a - b|
  area : IntegrableOn f (Ioi 0)

/-- The ziggurat `z` is filled in for the density `f`, except for the tail; its layers are at most `X` wide. -/
structure ZigFor {σ : Type} (z : Ziggurat σ) (f : ℝ → ℝ) (X : ℝ) : Prop where
  /-- The tables are as the comments of the fields say, up to rounding. -/
  tables : IsZiggurat f z.K z.W z.F
  /-- No layer is wider than `X`. -/
  width : ∀ i (h : i < 1024), zx z.W i h ≤ X
  base : (z.K[0]).toNat ≤ 2 ^ 53
  /-- The function `PDF` computes the density with an error of at most `2^-49`, also for negative arguments if the ziggurat is
  mirrored. -/
  pdf : ∀ x : F64, x.IsFin → x.Valid → (z.mirrored = true ∨ 0 ≤ rv x) → |rv x| ≤ X →
    (z.pdf x).IsFin ∧ |rv (z.pdf x) - f (|rv x|)| ≤ 1 / 2 ^ 49

/-- `p n` tends to `v`, up to an error of `e`. -/
def TendsNear (p : Nat → ℝ) (v e : ℝ) : Prop := ∀ ε > 0, ∃ N, ∀ n ≥ N, |p n - v| ≤ e + ε

/-- The function `Tail` draws from the part of the density beyond `R`, up to an error of `δ`: with more and more independent uniform
words, the probabilities that it returns something that is at most `t`, and something that is at least `t`, tend to the shares of
the area beyond `R` that lie on this side of `t`. (What is at least `t` matters only if the ziggurat is mirrored.) -/
structure TailFor (z : Ziggurat (List U64)) (f : ℝ → ℝ) (R δ : ℝ) : Prop where
  atMost : ∀ t : ℝ, TendsNear (fun n => prob (2 * n + 1) fun w => ∃ r rest, z.tail tape n w = .ok (r, rest) ∧ AtMost t r)
    ((∫ s in Ioc R t, f s) / ∫ s in Ioi R, f s) δ
  atLeast : z.mirrored = true → ∀ t : ℝ, TendsNear (fun n => prob (2 * n + 1) fun w => ∃ r rest, z.tail tape n w = .ok (r, rest) ∧ AtLeast t r)
    ((∫ s in Ioi (max R t), f s) / ∫ s in Ioi R, f s) δ

end Crazy
