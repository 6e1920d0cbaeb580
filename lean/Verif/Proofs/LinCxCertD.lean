/-
The certificates of `LinCxCertB` checked.
-/
import Verif.Proofs.LinCxCertB
namespace Crazy

/-- The state the certificates start from. -/
def xoshiStart : Xoshiro := ⟨0x0123456789abcdef#64, 0xfedcba9876543210#64, 0xdeadbeefcafebabe#64, 0x0f1e2d3c4b5a6978#64⟩

theorem xoshiBits_ok : frc (Xoshiro.run xoshiStart) (fun W => chks 32768 W xoshiBits) = true := by decide +kernel
theorem xoshiBits_all : xoshiBits.map (fun r => r.1) = List.range 64 := by decide +kernel
theorem xoshiBits_ge : ∀ r ∈ xoshiBits, 16381 ≤ r.2.2.1 + 1 - r.2.1 := by decide +kernel

end Crazy
