/-
Specification vocabulary: freshly seeded generators.
-/
import Verif.Model.Distr
import Verif.Model.GenSources
namespace Crazy

/-- The state of a `Xoshiro` right after `SeedIV` with 1 to 8 bytes, `Seed` among them, whatever was done with it before. -/
def Xoshiro.Fresh (s : Xoshiro) : Prop := ∃ (g : Xoshiro) (iv : List Byte), iv ≠ [] ∧ iv.length ≤ 8 ∧ g.seedIV iv = .ok s

/-- The first output of a `Xoshiro`, however it is seeded with 1 to 8 bytes (C76). -/
def xoshiroFirst : Nat := 0x3af8419d9287d417

end Crazy
