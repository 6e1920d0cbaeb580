/-
C115: the mean number of selects until the yielders have stopped. (The mean of a number `N` of selects is the sum over `k` of the
probabilities that `N > k`.)
-/
import Verif.Props.StoppingAll
import Mathlib.Analysis.SpecificLimits.Normed
import Mathlib.Algebra.BigOperators.Field
namespace Crazy
namespace Yield

theorem hasSum_choose (i : Nat) : HasSum (fun k : Nat => (k.choose i : ℝ) / 2 ^ k) 2 := by
  have h := (hasSum_choose_mul_geometric_of_norm_lt_one (𝕜 := ℝ) i (r := 1 / 2) (by norm_num)).mul_left ((1 / 2 : ℝ) ^ i)
  rw [← hasSum_nat_add_iff' i]
  have h0 : ∑ k ∈ Finset.range i, (k.choose i : ℝ) / 2 ^ k = 0 := by
    refine Finset.sum_eq_zero fun k hk => ?_
    rw [Nat.choose_eq_zero_of_lt (Finset.mem_range.1 hk)]
    simp
  rw [h0, sub_zero]
  have e : (1 / 2 : ℝ) ^ i * (1 / (1 - 1 / 2) ^ (i + 1)) = 2 := by
    rw [show (1 : ℝ) - 1 / 2 = 1 / 2 by norm_num, pow_succ]
    field_simp
  rw [e] at h
  refine h.congr_fun ?_
  intro k
  rw [pow_add, one_div, inv_pow, inv_pow]
  field_simp

theorem hasSum_heads (m : Nat) : HasSum (fun k : Nat => (∑ i ∈ Finset.range m, (k.choose i : ℝ)) / 2 ^ k) (2 * m) := by
  have h := hasSum_sum (s := Finset.range m) fun i _ => hasSum_choose i
  have e : ∑ _i ∈ Finset.range m, (2 : ℝ) = 2 * m := by simp [mul_comm]
  rw [e] at h
  refine h.congr_fun ?_
  intro k
  exact Finset.sum_div ..

theorem coinShare_nonneg (k : Nat) (P : List Bool → Prop) : 0 ≤ coinShare k P := by
  unfold coinShare
  positivity

variable {ι : Type} [DecidableEq ι] {σ : ι → Type} {α : Type} [Fintype ι]

/-- **C115**, several yielders: on average it takes at most two selects for each of them until all have returned (or panicked). -/
theorem C115_all_selects (next : (i : ι) → σ i → Go (α × σ i)) (sch : SchedulerAll ι σ α) (hl : sch.Legal next) (s : Multi ι σ α) :
    ∃ mean, HasSum (fun k => coinShare k fun cs => ∃ t, sch.play cs [] s = .tossed t ∧ 0 < t.live) mean ∧ mean ≤ 2 * s.live := by
  have h1 := fun k => C115_all_stop next sch hl s k
  have h2 := hasSum_heads s.live
  have h3 := Summable.of_nonneg_of_le (fun k => coinShare_nonneg k _) h1 h2.summable
  exact ⟨_, h3.hasSum, hasSum_le h1 h3.hasSum h2⟩

/-- **C115**, several yielders: with a receiver that is always there it takes exactly two selects for each on average. -/
theorem C115_all_selects_tight (next : (i : ι) → σ i → Go (α × σ i)) (hn : ∀ i x, ∃ v w, next i x = .ok (v, w)) (s : Multi ι σ α)
    (hp : ∀ i, s.phase i = .top) (hc : s.cap.isSome) (ho : s.closed = false) (hb : s.buf = []) (hq : s.quitPending.isSome)
    (hcl : s.quitClosed = true) :
    ∃ sch : SchedulerAll ι σ α, sch.Legal next ∧
      HasSum (fun k => coinShare k fun cs => ∃ t, sch.play cs [] s = .tossed t ∧ 0 < t.live) (2 * Fintype.card ι) := by
  obtain ⟨sch, h1, h2⟩ := C115_all_tight next hn s hp hc ho hb hq hcl
  exact ⟨sch, h1, (hasSum_heads _).congr_fun fun k => (h2 k).2⟩

/-- **C115**: a single yielder comes to at most two selects, on average, before it returns. -/
theorem C115_selects {σ : Type} (sch : Scheduler σ α) (s : State σ α) :
    ∃ mean, HasSum (fun k => coinShare k fun cs => ∃ t, sch.play cs [] s = .running t) mean ∧ mean ≤ 2 := by
  have h1 := fun k => C115_stops sch s k
  have h2 : HasSum (fun k : Nat => (1 / 2 : ℝ) ^ k) 2 := hasSum_geometric_two
  have h3 := Summable.of_nonneg_of_le (fun k => coinShare_nonneg k _) h1 h2.summable
  exact ⟨_, h3.hasSum, hasSum_le h1 h3.hasSum h2⟩

/-- Non-vacuity: the three yielders of 0, 1, ..., of 10, 11, ... and of 20, 21, ...: six selects on average. -/
example : ∃ sch : SchedulerAll (Fin 3) (fun _ => Nat) Nat, sch.Legal (fun _ n => .ok (n, n + 1)) ∧
    HasSum (fun k => coinShare k fun cs => ∃ t, sch.play cs []
      ⟨fun i => 10 * i.val, fun _ => .top, some 0, [], false, [], some 0, true, 0, 0⟩ = .tossed t ∧ 0 < t.live) 6 := by
  obtain ⟨sch, h1, h2⟩ := C115_all_selects_tight (ι := Fin 3) (σ := fun _ => Nat) (α := Nat) (fun _ n => .ok (n, n + 1)) (fun _ x => ⟨x, x + 1, rfl⟩)
    ⟨fun i => 10 * i.val, fun _ => .top, some 0, [], false, [], some 0, true, 0, 0⟩ (fun _ => rfl) rfl rfl rfl rfl rfl
  refine ⟨sch, h1, ?_⟩
  rw [Fintype.card_fin] at h2
  norm_num at h2
  exact h2

end Yield
end Crazy
