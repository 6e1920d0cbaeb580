/-
Specification vocabulary: how many words of the source a call reads.
-/
import Verif.Spec.Moment
namespace Crazy

/-- The number of the words of the list `w` that a call reads: those that it does not leave behind, and all of them if they do not
suffice. -/
def wordsRead {α : Type} (call : List U64 → Go (α × List U64)) (w : List U64) : Nat :=
  match call w with
  | .ok (_, rest) => w.length - rest.length
  | .error _ => w.length

end Crazy
