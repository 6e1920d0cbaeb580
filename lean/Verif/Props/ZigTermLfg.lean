/-
C87: which values every second output of LFG takes; C69 for LFG.
-/
import Verif.Props.ZigTerm
import Verif.Proofs.LfgFree
import Verif.Proofs.NormTail3
set_option exponentiation.threshold 2200
set_option maxRecDepth 4000
namespace Crazy

namespace LFG

/-- The hypothesis of the theorems below does not depend on where in its sequence the generator is. -/
theorem half_nexts (g : LFG) (hi : Inv g) (n N : Nat) (h : OutputPeriod uint64 (nexts n g) N) : OutputPeriod uint64 g N := by
  rw [outputPeriod_iff _ (inv_nexts n g hi)] at h
  have hP := (outputPeriod_iff g hi _).mp (per_period g hi)
  have hz : ∀ k, (nexts n g).zs k = g.zs (k + n) := by
    intro k
    rw [zs, seq_nexts, zs, Nat.add_assoc]
  simp only [hz] at h
  have hmul : ∀ m k, g.zs (335 + k + m * Kron.lfgPer) = g.zs (335 + k) := by
    intro m
    induction m with
    | zero => intro k; rw [Nat.zero_mul, Nat.add_zero]
    | succ m ih =>
      intro k
      rw [Nat.succ_mul, ← Nat.add_assoc, Nat.add_assoc 335 k, hP, ← Nat.add_assoc, ih]
  have hpos : 1 ≤ Kron.lfgPer := by decide +kernel
  rw [outputPeriod_iff g hi]
  intro k
  have hle : n ≤ n * Kron.lfgPer := Nat.le_mul_of_pos_right n hpos
  have h1 := h (k + (n * Kron.lfgPer - n))
  have h2 := hmul n (k + N)
  have h3 := hmul n k
  generalize n * Kron.lfgPer = Q at *
  rw [show 335 + (k + (Q - n)) + N + n = 335 + (k + N) + Q by omega, show 335 + (k + (Q - n)) + n = 335 + k + Q by omega, h2, h3] at h1
  rw [Nat.add_assoc]
  exact h1

theorem half_not_dvd : ¬ (2 ^ 108 - 1) / 65 * (2 ^ 187 - 1) * 2 ^ 63 ∣ (2 ^ 108 - 1) / 65 * (2 ^ 187 - 1) * 2 ^ 62 := by decide +kernel

end LFG

/-! ### C87 -/

/-- C87: unless the outputs repeat after half the period of C74, every second output, from any point on, takes all the 2^62 values that
leave a certain remainder modulo 4. -/
theorem C87_LFG (g : LFG) (hg : Reachable LFG.methods.api LFG.new g)
    (h : ¬ OutputPeriod LFG.uint64 g ((2 ^ 108 - 1) / 65 * (2 ^ 187 - 1) * 2 ^ 62)) (n : Nat) :
    ∃ b < 4, ∀ x : U64, x.toNat % 4 = b → ∃ k, Emits LFG.uint64 g (n + 2 * k) [x] := by
  have hi := LFG.safe.reachable LFG.inv_new hg
  obtain ⟨b, hb, hx⟩ := LFG.every_second g hi h n
  exact ⟨b, hb, fun x hx' => (hx x hx').imp fun k hk => (LFG.emits_iff g hi _ _).mpr hk⟩

/-- C87: seeding with at most 273 bytes meets that condition, and so does any state reached from there by drawing. -/
theorem C87_LFG_seeded (g s t : LFG) (iv : List Byte) (hl : iv.length ≤ 273) (h : g.seedIV iv = .ok s) (m : Nat)
    (ht : Leads LFG.uint64 m s t) : ¬ OutputPeriod LFG.uint64 t ((2 ^ 108 - 1) / 65 * (2 ^ 187 - 1) * 2 ^ 62) := by
  intro hp
  have h0 := h
  rw [LFG.seedIV_eq] at h
  injection h with h
  have hi : LFG.Inv s := h ▸ LFG.inv_nexts _ _ (LFG.inv_seedStart iv)
  rw [LFG.leads_iff s t hi] at ht
  subst ht
  exact LFG.half_not_dvd ((C74_LFG_seeded g s iv hl h0 _).mp (LFG.half_nexts s hi m _ hp))

/-- C87: after `Seed` with any seed. -/
theorem C87_LFG_Seed (g s : LFG) (x : U64) (h : g.seed x = .ok s) (n : Nat) :
    ∃ b < 4, ∀ x : U64, x.toNat % 4 = b → ∃ k, Emits LFG.uint64 s (n + 2 * k) [x] := by
  have hp := C87_LFG_seeded g s s (le64 x) (by simp) h 0 ⟨[], rfl⟩
  have h : g.seedIV (le64 x) = .ok s := h
  rw [LFG.seedIV_eq] at h
  injection h with h
  have hi : LFG.Inv s := h ▸ LFG.inv_nexts _ _ (LFG.inv_seedStart _)
  obtain ⟨b, hb, hx⟩ := LFG.every_second s hi hp n
  exact ⟨b, hb, fun x hx' => (hx x hx').imp fun k hk => (LFG.emits_iff s hi _ _).mpr hk⟩

/-! ### C69 for LFG -/

theorem neg_log_rel (lib : MathLib) (hl : LogOk lib) (m : Nat) (hm : m < 2 ^ 53) (hm0 : 0 < m) :
    (F64.neg (lib.log (unit m))).IsFin ∧ 0 ≤ nlog m ∧ |rv (F64.neg (lib.log (unit m))) - nlog m| ≤ nlog m / 2 ^ 50 := by
  obtain ⟨e, he⟩ : ∃ e, 1021 = e := ⟨_, rfl⟩
  obtain ⟨n, h1, -, -, -, h5, h6⟩ := log_uniform lib hl e m he hm hm0
  have hu : unit m = .fin false (m * 2 ^ e) := by unfold unit; rw [he]
  have h0 := (neg_log_near lib hl m hm hm0).2.1
  rw [hu, h1]
  refine ⟨trivial, h0, ?_⟩
  show |rv (.fin false n) - _| ≤ _
  rw [rv_pos n (53 + e) (by omega)]
  exact h5

theorem nlog_lower (m : Nat) (hm : m < 2 ^ 53) (hm0 : 0 < m) : 1 / 2 ^ 53 ≤ nlog m := by
  have h1 : (0 : ℝ) < (m : ℝ) / 2 ^ 53 := by
    have : (0 : ℝ) < m := by exact_mod_cast hm0
    positivity
  have h2 := Real.log_le_sub_one_of_pos h1
  have h3 : (m : ℝ) + 1 ≤ 2 ^ 53 := by exact_mod_cast hm
  unfold nlog
  have h4 : (m : ℝ) / 2 ^ 53 ≤ 1 - 1 / 2 ^ 53 := by
    rw [div_le_iff₀ (by positivity)]
    have : (1 - 1 / 2 ^ 53 : ℝ) * 2 ^ 53 = 2 ^ 53 - 1 := by norm_num
    rw [this]
    linarith
  linarith

theorem nlog_upper (m : Nat) (hm : 2 ^ 53 ≤ m + 4) (hm2 : m < 2 ^ 53) : nlog m ≤ 1 / 2 ^ 50 := by
  have hm' : (2 : ℝ) ^ 53 ≤ m + 4 := by exact_mod_cast hm
  have h0 : (1 : ℝ) / 2 ≤ (m : ℝ) / 2 ^ 53 := by
    rw [le_div_iff₀ (by positivity)]
    have : (1 : ℝ) / 2 * 2 ^ 53 + 4 ≤ 2 ^ 53 := by norm_num
    linarith
  have h1 : (0 : ℝ) < (m : ℝ) / 2 ^ 53 := lt_of_lt_of_le (by norm_num) h0
  have h2 := Real.one_sub_inv_le_log_of_pos h1
  unfold nlog
  have h3 : ((m : ℝ) / 2 ^ 53)⁻¹ ≤ 1 + 1 / 2 ^ 50 := by
    rw [inv_le_comm₀ h1 (by positivity)]
    rw [le_div_iff₀ (by positivity)]
    have : (1 + 1 / 2 ^ 50 : ℝ)⁻¹ * 2 ^ 53 + 4 ≤ 2 ^ 53 := by norm_num
    linarith
  linarith

/-- A first uniform close to 1 ends the loop of the normal tail. -/
theorem tailEnds_one (lib : MathLib) (hl : LogOk lib) (x y : U64) (hx : 2 ^ 53 ≤ x.toNat % 2 ^ 53 + 4) : TailEnds lib x y := by
  generalize hm : x.toNat % 2 ^ 53 = m at hx
  generalize hk : y.toNat % 2 ^ 53 = k
  have hm2 : m < 2 ^ 53 := hm ▸ Nat.mod_lt _ (by decide)
  have hk2 : k < 2 ^ 53 := hk ▸ Nat.mod_lt _ (by decide)
  have hm0 : 0 < m := by omega
  unfold TailEnds
  rw [hm, hk]
  show F64.le (F64.mul (tailX lib m) (tailX lib m)) (F64.add (F64.neg (lib.log (unit k))) (F64.neg (lib.log (unit k)))) = true
  obtain ⟨l1, l2, l3⟩ := neg_log_rel lib hl m hm2 hm0
  have hup := nlog_upper m hx hm2
  obtain ⟨r1, r2⟩ := normalR_bounds
  have r0 : 0 < rv normalR := by linarith
  have htiny := tiny
  have h1000 : (1 : ℝ) ≤ 2 ^ 1000 := one_le_pow₀ (by norm_num)
  have ha : |rv (F64.neg (lib.log (unit m)))| ≤ 1 / 2 ^ 49 := by
    have h1 : nlog m / 2 ^ 50 ≤ nlog m := div_le_self l2 (by norm_num)
    rw [abs_le] at l3 ⊢
    have : (1 : ℝ) / 2 ^ 50 + 1 / 2 ^ 50 = 1 / 2 ^ 49 := by norm_num
    constructor <;> linarith [l3.1, l3.2]
  have hq : |rv (F64.neg (lib.log (unit m))) / rv normalR| ≤ 1 / 2 ^ 49 := by
    rw [abs_div, abs_of_pos r0, div_le_iff₀ r0]
    have : (1 : ℝ) / 2 ^ 49 ≤ 1 / 2 ^ 49 * rv normalR := le_mul_of_one_le_right (by positivity) (by linarith)
    linarith
  have hX := F64.div_near _ _ l1 normalR_val.1 r0.ne' (hq.trans (le_trans (by norm_num) h1000))
  have hX1 : |rv (tailX lib m)| ≤ 1 / 2 ^ 48 := by
    have h1 := hX.2.2
    have h2 : |rv (F64.neg (lib.log (unit m))) / rv normalR| / 2 ^ 53 ≤ 1 / 2 ^ 49 / 2 ^ 53 := div_le_div_of_nonneg_right hq (by positivity)
    have h3 : |rv (tailX lib m)| ≤ |rv (tailX lib m) - rv (F64.neg (lib.log (unit m))) / rv normalR| + |rv (F64.neg (lib.log (unit m))) / rv normalR| := by
      have := abs_add_le (rv (tailX lib m) - rv (F64.neg (lib.log (unit m))) / rv normalR) (rv (F64.neg (lib.log (unit m))) / rv normalR)
      rwa [sub_add_cancel] at this
    have h4 : (1 : ℝ) / 2 ^ 49 / 2 ^ 53 + 1 / 2 ^ 60 + 1 / 2 ^ 49 ≤ 1 / 2 ^ 48 := by norm_num
    have h5 : |rv (tailX lib m) - rv (F64.neg (lib.log (unit m))) / rv normalR| ≤ _ := h1
    linarith
  have hsq : |rv (tailX lib m) * rv (tailX lib m)| ≤ 1 / 2 ^ 96 := by
    rw [abs_mul]
    calc |rv (tailX lib m)| * |rv (tailX lib m)| ≤ 1 / 2 ^ 48 * (1 / 2 ^ 48) := mul_le_mul hX1 hX1 (abs_nonneg _) (by positivity)
      _ = 1 / 2 ^ 96 := by norm_num
  have hM := F64.mul_near (tailX lib m) (tailX lib m) hX.1 hX.1 (hsq.trans (le_trans (by norm_num) h1000))
  have hM1 : rv (F64.mul (tailX lib m) (tailX lib m)) ≤ 1 / 2 ^ 58 := by
    have h1 := (abs_le.mp hM.2.2).2
    have h2 : |rv (tailX lib m) * rv (tailX lib m)| / 2 ^ 53 ≤ 1 / 2 ^ 96 / 2 ^ 53 := div_le_div_of_nonneg_right hsq (by positivity)
    have h3 := le_abs_self (rv (tailX lib m) * rv (tailX lib m))
    have h4 : (1 : ℝ) / 2 ^ 96 / 2 ^ 53 + 1 / 2 ^ 60 + 1 / 2 ^ 96 ≤ 1 / 2 ^ 58 := by norm_num
    linarith
  rcases Nat.eq_zero_or_pos k with rfl | hk0
  · have e : unit 0 = .fin false 0 := by unfold unit; rw [Nat.zero_mul]
    rw [e, hl.zero]
    exact sq_le_inf _ fun h => by have := hX.1; unfold tailX at h; rw [h] at this; exact this
  · obtain ⟨m1, m2, m3⟩ := neg_log_rel lib hl k hk2 hk0
    have hlow := nlog_lower k hk2 hk0
    have hnear := neg_log_near lib hl k hk2 hk0
    have hy : 1 / 2 ^ 54 ≤ rv (F64.neg (lib.log (unit k))) := by
      have h1 := (abs_le.mp m3).1
      have h2 : nlog k / 2 ^ 50 ≤ nlog k / 2 := div_le_div_of_nonneg_left m2 (by norm_num) (by norm_num)
      have h3 : (1 : ℝ) / 2 ^ 53 / 2 = 1 / 2 ^ 54 := by norm_num
      linarith
    have hy2 : rv (F64.neg (lib.log (unit k))) ≤ 54 := by
      have h1 := (abs_le.mp hnear.2.2.2).2
      have h2 : (1 : ℝ) / 2 ^ 44 ≤ 1 := by norm_num
      linarith [hnear.2.2.1]
    have hpos : 0 ≤ rv (F64.neg (lib.log (unit k))) := le_trans (by positivity) hy
    have hS := F64.add_near _ _ m1 m1 (by
      rw [abs_of_nonneg (by linarith)]
      have := huge
      have h2 : (2 : ℝ) ^ 10 = 1024 := by norm_num
      linarith)
    rw [le_fin _ _ hM.1 hS.1]
    have h1 := (abs_le.mp hS.2.2).1
    rw [abs_of_nonneg (by linarith)] at h1
    have h2 : (rv (F64.neg (lib.log (unit k))) + rv (F64.neg (lib.log (unit k)))) / 2 ^ 53 ≤ (rv (F64.neg (lib.log (unit k))) + rv (F64.neg (lib.log (unit k)))) / 2 :=
      div_le_div_of_nonneg_left (by linarith) (by norm_num) (by norm_num)
    have h3 : (1 : ℝ) / 2 ^ 58 + 1 / 2 ^ 60 ≤ 1 / 2 ^ 54 := by norm_num
    linarith

theorem fast_small {σ : Type} (z : Ziggurat σ) (hK : 3 < (z.K[0]).toNat) (x : U64) (hx : x.toNat < 4) : Fast z x := by
  have e : zlayer x = 0 := Nat.div_eq_of_lt (by omega)
  have e2 : (zoffset z.mirrored x).natAbs < 4 := by
    unfold zoffset
    split
    · rw [Int.bmod_eq_of_le (by omega) (by omega)]
      omega
    · omega
  unfold Fast
  simp only [e]
  omega

theorem LFG.distr_returns (g : LFG) (hi : LFG.Inv g) (h : ¬ OutputPeriod LFG.uint64 g ((2 ^ 108 - 1) / 65 * (2 ^ 187 - 1) * 2 ^ 62)) :
    DistrReturnFrom LFG.source g := by
  obtain ⟨h0, hd⟩ := rngDraws_delivers LFG.source g (fun k => g.seq (607 + k)) (fun k => LFG.nexts k g) (fun n => by
    rw [show rngDraws LFG.source n g = _ from (C06_LFG g).1 n]
    exact LFG.draws_eq n g hi)
  have key : ∀ n, ∃ b < 4, ∀ x : U64, x.toNat % 4 = b → ∃ k, g.seq (607 + (n + 2 * k)) = x := LFG.every_second g hi h
  have hfast : ∀ {z : Ziggurat LFG}, 3 < (z.K[0]).toNat → ∀ n, ∃ k, Fast z (g.seq (607 + (n + 2 * k))) := by
    intro z hK n
    obtain ⟨b, hb, hx⟩ := key n
    have e : (BitVec.ofNat 64 b).toNat = b := by rw [BitVec.toNat_ofNat]; omega
    obtain ⟨k, hk⟩ := hx (BitVec.ofNat 64 b) (by omega)
    exact ⟨k, by rw [hk]; exact fast_small z hK _ (by omega)⟩
  refine h0 ▸ distr_return_of hd (fun lib n => ?_) (fun lib n => ?_) fun lib hl n => ?_
  · exact hfast (show 3 < (expoK[0]).toNat by decide +kernel) n
  · exact hfast (show 3 < (normalK[0]).toNat by decide +kernel) n
  · obtain ⟨b, hb, hx⟩ := key n
    have e : (BitVec.ofNat 64 (2 ^ 53 - 4 + b)).toNat = 2 ^ 53 - 4 + b := by rw [BitVec.toNat_ofNat]; omega
    obtain ⟨k, hk⟩ := hx (BitVec.ofNat 64 (2 ^ 53 - 4 + b)) (by omega)
    refine ⟨k, tailEnds_one lib hl _ _ ?_⟩
    rw [hk]
    omega

/-- C69 for LFG, from any state from which the outputs do not repeat after half the period of C74. -/
theorem C69_LFG (g : LFG) (hg : Reachable LFG.methods.api LFG.new g)
    (h : ¬ OutputPeriod LFG.uint64 g ((2 ^ 108 - 1) / 65 * (2 ^ 187 - 1) * 2 ^ 62)) : DistrReturnFrom LFG.source g :=
  LFG.distr_returns g (LFG.safe.reachable LFG.inv_new hg) h

/-- C69 for LFG seeded with at most 273 bytes (which includes every `Seed`), whatever has been drawn from it since. -/
theorem C69_LFG_seeded (g s t : LFG) (iv : List Byte) (hl : iv.length ≤ 273) (h : g.seedIV iv = .ok s) (m : Nat)
    (ht : Leads LFG.uint64 m s t) : DistrReturnFrom LFG.source t := by
  have hp := C87_LFG_seeded g s t iv hl h m ht
  rw [LFG.seedIV_eq] at h
  injection h with h
  have hi : LFG.Inv s := h ▸ LFG.inv_nexts _ _ (LFG.inv_seedStart iv)
  rw [LFG.leads_iff s t hi] at ht
  subst ht
  exact LFG.distr_returns _ (LFG.inv_nexts _ _ hi) hp

/-- Non-vacuity: a generator seeded with two bytes, after a hundred draws. -/
example : ∃ s t, Reachable LFG.methods.api LFG.new s ∧ LFG.new.seedIV [7#8, 9#8] = .ok s ∧ Leads LFG.uint64 100 s t ∧
    ¬ OutputPeriod LFG.uint64 t ((2 ^ 108 - 1) / 65 * (2 ^ 187 - 1) * 2 ^ 62) := by
  have hi := LFG.inv_nexts 4856 _ (LFG.inv_seedStart [7#8, 9#8])
  exact ⟨_, _, ⟨[.seedIV [7#8, 9#8]], Api.after_ok [] (Methods.call_seedIV (m := LFG.methods) (LFG.seedIV_eq [7#8, 9#8] LFG.new))⟩,
    LFG.seedIV_eq _ _, (LFG.leads_iff _ _ hi 100).mpr rfl,
    C87_LFG_seeded LFG.new _ _ [7#8, 9#8] (by decide) (LFG.seedIV_eq _ _) 100 ((LFG.leads_iff _ _ hi 100).mpr rfl)⟩

end Crazy
