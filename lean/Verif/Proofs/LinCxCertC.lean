/-
The certificates of `LinCxCertA` checked.
-/
import Verif.Proofs.LinCxCertA
namespace Crazy

/-- The state the certificates start from. -/
def xoroStart : Xoroshiro := ⟨0x0123456789abcdef#64, 0xfedcba9876543210#64⟩

theorem xoroBits_ok : frc (Xoroshiro.run xoroStart) (fun W => chks 32768 W xoroBits) = true := by decide +kernel
theorem xoroBits_all : xoroBits.map (fun r => r.1) = (List.range 64).drop 1 := by decide +kernel
theorem xoroBits_ge : ∀ r ∈ xoroBits, (if r.1 = 1 then 8256 else 16381) ≤ r.2.2.1 + 1 - r.2.1 := by decide +kernel

end Crazy
