/-
Kernel-checked facts about the rows of the ziggurat tables.
-/
import Verif.Proofs.ZigRows
import Verif.Proofs.ExpCert
import Verif.Proofs.Mills
namespace Crazy

/-- A row `(K, W, F)`. -/
abbrev ZRow := Nat × (Nat × Nat) × (Nat × Nat)

/-- `2^114 * W`. -/
def ZRow.w (r : ZRow) : Nat := r.2.1.1 * 2 ^ r.2.1.2
/-- `2^114 * F`. -/
def ZRow.f (r : ZRow) : Nat := r.2.2.1 * 2 ^ r.2.2.2

def expoRows : List ZRow := List.zip expoKLit (List.zip expoWRow expoFRow)
def normalRows : List ZRow := List.zip normalKLit (List.zip normalWRow normalFRow)

/-- Every two consecutive elements satisfy `p`. -/
def pairsAll {α : Type} (p : α → α → Bool) : List α → Bool
  | [] => true
  | a :: l => (match l with | [] => true | b :: _ => p a b) && pairsAll p l

theorem pairsAll_get {α : Type} (p : α → α → Bool) : ∀ (l : List α), pairsAll p l = true →
    ∀ i (h : i + 1 < l.length), p l[i] l[i + 1] = true
  | [], _, i, h => absurd h (Nat.not_lt_zero _)
  | a :: l, hp, i, h => by
    simp only [pairsAll, Bool.and_eq_true] at hp
    cases i with
    | zero =>
      cases l with
      | nil => simp at h
      | cons b l => exact hp.1
    | succ i => exact pairsAll_get p l hp.2 i (by simpa using h)

/-- Layers `i - 1` and `i`, for `i ≥ 2`: the abscissas increase and `K[i]` is `2^53` times their ratio, up to 3. -/
def chkW (r0 r : ZRow) : Bool :=
  Nat.blt r0.w r.w && Nat.blt (r.1 * r.w) (2 ^ 53 * r0.w + 3 * r.w) && Nat.blt (2 ^ 53 * r0.w) (r.1 * r.w + 3 * r.w) &&
  Nat.ble r.1 (2 ^ 53)

/-- Layers `i - 1` and `i`, for `i ≥ 1`: the ordinates decrease, and the area of the layer is `V`, up to `2^-42`. -/
def chkF (V : Nat) (r0 r : ZRow) : Bool :=
  Nat.blt r.f r0.f && Nat.ble (2 ^ 42 * (r.w * r0.f)) (2 ^ 42 * (r.w * r.f) + 2 ^ 42 * V + V) &&
  Nat.ble (2 ^ 42 * (r.w * r.f) + 2 ^ 42 * V) (2 ^ 42 * (r.w * r0.f) + V)

/-- The first and the last row: `K[0]` is `2^53 * W[1023] / W[0]` up to 1, and `F[0] = 1`. -/
def chkEnds (r0 rl : ZRow) : Bool :=
  Nat.blt (r0.1 * r0.w) (2 ^ 53 * rl.w + r0.w) && Nat.blt (2 ^ 53 * rl.w) (r0.1 * r0.w + r0.w) &&
  Nat.beq r0.f (2 ^ 114) && Nat.blt 0 r0.w && Nat.ble ((r0.1 - 1) * r0.w) (2 ^ 53 * rl.w) && Nat.ble r0.1 (2 ^ 53)

/-- Layers `i - 1` and `i`, for `i ≥ 1`: the difference of the ordinates has 53 significant bits; `F[i]` is at least `2^-61`. -/
def chkD (r0 r : ZRow) : Bool :=
  Nat.ble r.2.2.2 r0.2.2.2 && Nat.blt r0.f (r.f + 2 ^ (53 + r.2.2.2)) && Nat.ble (2 ^ 53) r.f && Nat.ble r0.f (2 ^ 114)

theorem expoRows_D : pairsAll chkD expoRows = true := by decide +kernel
theorem normalRows_D : pairsAll chkD normalRows = true := by decide +kernel
theorem expoRows_W : pairsAll chkW expoRows.tail = true := by decide +kernel
theorem normalRows_W : pairsAll chkW normalRows.tail = true := by decide +kernel
theorem expoRows_F : pairsAll (chkF (expoRows[0]!.w * expoRows[1023]!.f)) expoRows = true := by decide +kernel
theorem normalRows_F : pairsAll (chkF (normalRows[0]!.w * normalRows[1023]!.f)) normalRows = true := by decide +kernel
theorem expoRows_ends : chkEnds expoRows[0]! expoRows[1023]! = true := by decide +kernel
theorem normalRows_ends : chkEnds normalRows[0]! normalRows[1023]! = true := by decide +kernel
theorem expoRows_one : expoRows[1]!.1 = 0 ∧ expoRows[1]!.w ≠ 0 := by decide +kernel
theorem normalRows_one : normalRows[1]!.1 = 0 ∧ normalRows[1]!.w ≠ 0 := by decide +kernel
theorem expoRows_exp : expoRows.tail.all (fun r => expCheck r.w (2 ^ 65) r.f) = true := by decide +kernel
theorem normalRows_exp : normalRows.tail.all (fun r => expCheck (r.w * r.w) (2 ^ 127) r.f) = true := by decide +kernel
theorem normalRows_tail : millsCheck normalRows[1023]!.w (2 ^ 61) normalRows[0]!.w = true := by decide +kernel
theorem expoRows_tail : expoRows[0]!.w = expoRows[1023]!.w + 2 ^ 61 := by decide +kernel

end Crazy
