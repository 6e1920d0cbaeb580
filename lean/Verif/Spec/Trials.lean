/-
Specification vocabulary: several calls made one after the other on the same source, each with a condition on its result.
-/
import Verif.Model.Go
namespace Crazy

/-- A call `next` on a world `σ` with a result of some type, and a condition on the result. -/
structure Trial (σ : Type) where
  {α : Type}
  next : σ → Go (α × σ)
  good : α → Prop

/-- The calls, made one after the other beginning in the world `s`, all return, and each result meets its condition. -/
def AllGood {σ : Type} : List (Trial σ) → σ → Prop
  | [], _ => True
  | t :: ts, s => ∃ r s', t.next s = .ok (r, s') ∧ t.good r ∧ AllGood ts s'

end Crazy
