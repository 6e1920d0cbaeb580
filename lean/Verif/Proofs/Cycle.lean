/-
Runs of generators whose `Uint64` is a state update and an output function, and updates that form one cycle.
-/
import Verif.Spec.Period
import Verif.Proofs.Stream
import Mathlib.SetTheory.Cardinal.Finite
import Mathlib.Logic.Equiv.Option
import Mathlib.SetTheory.Cardinal.NatCard
import Mathlib.Logic.Function.Iterate
import Mathlib.Data.Nat.ModEq
import Mathlib.Dynamics.PeriodicPts.Lemmas
namespace Crazy

section
variable {σ : Type} {next : σ → Go (U64 × σ)} {out : σ → U64} {step : σ → σ}

theorem draws_pure (h : ∀ s, next s = .ok (out s, step s)) (n : Nat) (s : σ) :
    draws next n s = .ok ((List.range n).map (fun k => out (step^[k] s)), step^[n] s) := by
  induction n generalizing s with
  | zero => rfl
  | succ n ih =>
    simp only [draws, bind, Except.bind, pure, Except.pure, h, ih, Function.iterate_succ, Function.comp_apply,
      List.range_succ_eq_map, List.map_cons, List.map_map, Function.iterate_zero, id]
    rfl

theorem leads_pure (h : ∀ s, next s = .ok (out s, step s)) (n : Nat) (s t : σ) : Leads next n s t ↔ step^[n] s = t := by
  unfold Leads
  rw [draws_pure h]
  constructor
  · rintro ⟨xs, h1⟩
    injection h1 with h1
    exact congrArg Prod.snd h1
  · rintro rfl
    exact ⟨_, rfl⟩

theorem emits_pure (h : ∀ s, next s = .ok (out s, step s)) (s : σ) (n : Nat) (ws : List U64) :
    Emits next s n ws ↔ (List.range ws.length).map (fun k => out (step^[k] (step^[n] s))) = ws := by
  unfold Emits
  simp only [leads_pure h, draws_pure h]
  constructor
  · rintro ⟨t, t', rfl, h1⟩
    injection h1 with h1
    exact congrArg Prod.fst h1
  · intro h1
    refine ⟨_, step^[ws.length] (step^[n] s), rfl, ?_⟩
    rw [h1]

theorem emits_one (h : ∀ s, next s = .ok (out s, step s)) (s : σ) (n : Nat) (x : U64) :
    Emits next s n [x] ↔ out (step^[n] s) = x := by
  rw [emits_pure h]
  simp [List.range_succ]

theorem outputPeriod_pure (h : ∀ s, next s = .ok (out s, step s)) (s : σ) (p : Nat) :
    OutputPeriod next s p ↔ ∀ n, out (step^[n + p] s) = out (step^[n] s) := by
  unfold OutputPeriod
  simp only [emits_one h]
  constructor
  · intro h1 n
    exact (h1 n _).mp rfl
  · intro h1 n x
    rw [h1 n]

end

section
variable {σ : Type} {step : σ → σ} {z : σ} {N : Nat}

/-- One cycle through everything but `z`. -/
structure FullCycle (step : σ → σ) (z : σ) (N : Nat) : Prop where
  finite : Finite σ
  pos : 0 < N
  card : Nat.card σ = N + 1
  nz : ∀ s, s ≠ z → step s ≠ z
  period : ∀ s, s ≠ z → ∀ n, step^[n] s = s ↔ N ∣ n

theorem FullCycle.iter_nz (h : FullCycle step z N) {s : σ} (hs : s ≠ z) (n : Nat) : step^[n] s ≠ z := by
  induction n with
  | zero => exact hs
  | succ n ih => rw [Function.iterate_succ_apply']; exact h.nz _ ih

theorem FullCycle.iter_inj (h : FullCycle step z N) {s : σ} (hs : s ≠ z) {m n : Nat} :
    step^[m] s = step^[n] s ↔ m ≡ n [MOD N] := by
  wlog hmn : m ≤ n generalizing m n
  · rw [eq_comm, this (by omega)]
    exact ⟨Nat.ModEq.symm, Nat.ModEq.symm⟩
  obtain ⟨k, rfl⟩ := Nat.exists_eq_add_of_le hmn
  rw [Nat.add_comm m k, Function.iterate_add_apply, eq_comm, h.period _ (h.iter_nz hs m),
    Nat.modEq_iff_dvd' (by omega), Nat.add_sub_cancel]

theorem FullCycle.bijective (h : FullCycle step z N) {s : σ} (hs : s ≠ z) :
    Function.Bijective (fun i : Fin N => (⟨step^[i] s, h.iter_nz hs i⟩ : {t : σ // t ≠ z})) := by
  have := h.finite
  rw [Nat.bijective_iff_injective_and_card]
  constructor
  · intro i j hij
    have h1 : step^[i] s = step^[j] s := congrArg Subtype.val hij
    rw [h.iter_inj hs] at h1
    exact Fin.ext (Nat.ModEq.eq_of_lt_of_lt h1 i.2 j.2)
  · classical
    have h1 := Nat.card_congr (Equiv.optionSubtypeNe z)
    rw [Finite.card_option, h.card] at h1
    rw [Nat.card_fin]
    omega

theorem FullCycle.existsUnique (h : FullCycle step z N) {s t : σ} (hs : s ≠ z) (ht : t ≠ z) :
    ∃! n, n < N ∧ step^[n] s = t := by
  obtain ⟨i, hi⟩ := (h.bijective hs).2 ⟨t, ht⟩
  refine ⟨i, ⟨i.2, congrArg Subtype.val hi⟩, ?_⟩
  rintro n ⟨hn, h1⟩
  have h2 := congrArg Subtype.val hi
  simp only at h2
  rw [← h2, h.iter_inj hs] at h1
  exact Nat.ModEq.eq_of_lt_of_lt h1 hn i.2

theorem FullCycle.card_visits (h : FullCycle step z N) {s : σ} (hs : s ≠ z) (P : σ → Prop) :
    Nat.card {n : Nat // n < N ∧ P (step^[n] s)} = Nat.card {t : σ // t ≠ z ∧ P t} := by
  refine Nat.card_congr (Equiv.ofBijective
    (fun n => ⟨step^[n.1] s, h.iter_nz hs n.1, n.2.2⟩) ⟨?_, ?_⟩)
  · rintro ⟨m, hm, _⟩ ⟨n, hn, _⟩ hmn
    have h1 : step^[m] s = step^[n] s := congrArg Subtype.val hmn
    rw [h.iter_inj hs] at h1
    exact Subtype.ext (Nat.ModEq.eq_of_lt_of_lt h1 hm hn)
  · rintro ⟨t, ht, hP⟩
    obtain ⟨n, ⟨hn, h1⟩, -⟩ := h.existsUnique hs ht
    exact ⟨⟨n, hn, by rwa [h1]⟩, Subtype.ext h1⟩

end

theorem card_U64 : Nat.card U64 = 2 ^ 64 := by
  rw [Nat.card_congr (⟨BitVec.toFin, BitVec.ofFin, fun _ => rfl, fun _ => rfl⟩ : U64 ≃ Fin (2 ^ 64)), Nat.card_fin]

instance finite_U64 : Finite U64 :=
  Finite.of_equiv (Fin (2 ^ 64)) ⟨BitVec.ofFin, BitVec.toFin, fun _ => rfl, fun _ => rfl⟩

end Crazy
