/-
C117: repeated shuffles become fair.
-/
import Verif.Spec.Repeat
import Verif.Props.PeriodCalls
import Mathlib.Data.Fintype.Perm
import Mathlib.Algebra.BigOperators.Fin
import Mathlib.Tactic.Linarith
import Mathlib.Tactic.DefEqTransformations
import Mathlib.Tactic.FieldSimp
namespace Crazy

/-! ### The law of the choices -/

/-- The permutation that `k` shuffles make. -/
def timesPerm {N k : Nat} (js : Fin k → Fin N → Fin N) : Equiv.Perm (Fin N) := (List.ofFn fun i => shufflePerm (js i)).prod

open Classical in
/-- The probability of `P` for `k` shuffles with ideal choices. -/
noncomputable def timesShare (N k : Nat) (P : Equiv.Perm (Fin N) → Prop) : ℝ :=
  (∑ js : Fin k → Fin N → Fin N, if P (timesPerm js) then (1 : ℝ) else 0) / ((N : ℝ) ^ N) ^ k

theorem timesPerm_succ {N k : Nat} (b : Fin N → Fin N) (js : Fin k → Fin N → Fin N) :
    timesPerm (Fin.cons b js : Fin (k + 1) → Fin N → Fin N) = shufflePerm b * timesPerm js := by
  unfold timesPerm
  rw [List.ofFn_succ, List.prod_cons]
  simp

theorem timesShare_succ (N k : Nat) (P : Equiv.Perm (Fin N) → Prop) :
    timesShare N (k + 1) P = (∑ b : Fin N → Fin N, timesShare N k fun π => P (shufflePerm b * π)) / (N : ℝ) ^ N := by
  classical
  unfold timesShare
  rw [← Finset.sum_div, div_div, ← pow_succ, ← (Fin.consEquiv fun _ : Fin (k + 1) => Fin N → Fin N).sum_comp, Fintype.sum_prod_type]
  refine congrArg (· / ((N : ℝ) ^ N) ^ (k + 1)) ?_
  refine Finset.sum_congr rfl fun b _ => Finset.sum_congr rfl fun js _ => ?_
  have : (Fin.consEquiv fun _ : Fin (k + 1) => Fin N → Fin N) (b, js) = (Fin.cons b js : Fin (k + 1) → Fin N → Fin N) := rfl
  rw [this, timesPerm_succ]

open Classical in
/-- The probability of `P` for a fair shuffle. -/
noncomputable def permShare (N : Nat) (P : Equiv.Perm (Fin N) → Prop) : ℝ := (∑ π : Equiv.Perm (Fin N), if P π then (1 : ℝ) else 0) / (N.factorial : ℝ)

theorem permShare_left (N : Nat) (P : Equiv.Perm (Fin N) → Prop) (ρ : Equiv.Perm (Fin N)) : permShare N (fun π => P (ρ * π)) = permShare N P := by
  classical
  unfold permShare
  rw [← Equiv.sum_comp (Equiv.mulLeft ρ) (fun π => if P π then (1 : ℝ) else 0)]
  rfl

theorem permShare_nonneg (N : Nat) (P : Equiv.Perm (Fin N) → Prop) : 0 ≤ permShare N P := by
  classical
  unfold permShare
  exact div_nonneg (Finset.sum_nonneg fun π _ => by split <;> norm_num) (Nat.cast_nonneg _)

theorem permShare_not (N : Nat) (P : Equiv.Perm (Fin N) → Prop) : permShare N P + permShare N (fun π => ¬ P π) = 1 := by
  classical
  unfold permShare
  rw [← add_div, ← Finset.sum_add_distrib, Finset.sum_congr rfl (g := fun _ => (1 : ℝ)), Finset.sum_const, Finset.card_univ, Fintype.card_perm, Fintype.card_fin,
    nsmul_eq_mul, mul_one, div_self (by exact_mod_cast N.factorial_ne_zero)]
  intro π _
  by_cases h : P π <;> simp [h]

theorem timesShare_not (N k : Nat) (hN : 0 < N) (P : Equiv.Perm (Fin N) → Prop) : timesShare N k P + timesShare N k (fun π => ¬ P π) = 1 := by
  classical
  unfold timesShare
  have : ((N : ℝ) ^ N) ^ k ≠ 0 := by positivity
  rw [← add_div, ← Finset.sum_add_distrib, Finset.sum_congr rfl (g := fun _ => (1 : ℝ)), Finset.sum_const, Finset.card_univ, Fintype.card_fun, Fintype.card_fun,
    Fintype.card_fin, Fintype.card_fin, nsmul_eq_mul, mul_one]
  · push_cast
    exact div_self this
  · intro js _
    by_cases h : P (timesPerm js) <;> simp [h]

theorem timesShare_nonneg (N k : Nat) (P : Equiv.Perm (Fin N) → Prop) : 0 ≤ timesShare N k P := by
  classical
  unfold timesShare
  exact div_nonneg (Finset.sum_nonneg fun π _ => by split <;> norm_num) (by positivity)

/-- A fair order stays fair. -/
theorem timesShare_fair (N k : Nat) (hN : 0 < N) (P : Equiv.Perm (Fin N) → Prop) :
    ∑ ρ : Equiv.Perm (Fin N), timesShare N k (fun π => P (ρ * π)) = N.factorial * permShare N P := by
  classical
  have hf : (N.factorial : ℝ) ≠ 0 := by exact_mod_cast N.factorial_ne_zero
  have hp : ((N : ℝ) ^ N) ^ k ≠ 0 := by positivity
  unfold timesShare permShare
  rw [← Finset.sum_div, Finset.sum_comm, mul_div_cancel₀ _ hf]
  have : ∀ js : Fin k → Fin N → Fin N, ∑ ρ : Equiv.Perm (Fin N), (if P (ρ * timesPerm js) then (1 : ℝ) else 0) = ∑ π, if P π then (1 : ℝ) else 0 := fun js =>
    Equiv.sum_comp (Equiv.mulRight (timesPerm js)) (fun π => if P π then (1 : ℝ) else 0)
  rw [Finset.sum_congr rfl fun js _ => this js, Finset.sum_const, Finset.card_univ, Fintype.card_fun, Fintype.card_fun,
    Fintype.card_fin, Fintype.card_fin, nsmul_eq_mul]
  push_cast
  exact mul_div_cancel_left₀ _ hp

theorem times_lower (N k : Nat) (hN : 0 < N) (P : Equiv.Perm (Fin N) → Prop) :
    (1 - (1 - (N.factorial : ℝ) / (N : ℝ) ^ N) ^ k) * permShare N P ≤ timesShare N k P := by
  classical
  induction k generalizing P with
  | zero => rw [pow_zero, sub_self, zero_mul]; exact timesShare_nonneg N 0 P
  | succ k ih =>
    choose g hg using fun π : Equiv.Perm (Fin N) => C30_perm π
    have hinj : Function.Injective g := fun a b h => by rw [← hg a, ← hg b, h]
    have hsplit := Finset.sum_filter_add_sum_filter_not (Finset.univ : Finset (Fin N → Fin N)) (fun b => b ∈ Set.range g)
      (fun b => timesShare N k fun π => P (shufflePerm b * π))
    have him : (Finset.univ : Finset (Fin N → Fin N)).filter (fun b => b ∈ Set.range g) = Finset.univ.image g := by
      ext b; simp
    have hs1 : ∑ b ∈ (Finset.univ : Finset (Fin N → Fin N)).filter (fun b => b ∈ Set.range g), (timesShare N k fun π => P (shufflePerm b * π)) =
        N.factorial * permShare N P := by
      rw [him, Finset.sum_image fun a _ b _ h => hinj h, ← timesShare_fair N k hN P]
      exact Finset.sum_congr rfl fun π _ => by rw [hg π]
    have hcard : (((Finset.univ : Finset (Fin N → Fin N)).filter (fun b => ¬ b ∈ Set.range g)).card : ℝ) = (N : ℝ) ^ N - N.factorial := by
      have h1 := Finset.card_filter_add_card_filter_not (s := (Finset.univ : Finset (Fin N → Fin N))) (fun b => b ∈ Set.range g)
      rw [him, Finset.card_image_of_injective _ hinj, Finset.card_univ, Finset.card_univ, Fintype.card_perm, Fintype.card_fun, Fintype.card_fin] at h1
      have h2 := congrArg (Nat.cast (R := ℝ)) h1
      push_cast at h2
      linarith
    have hs2 : ((N : ℝ) ^ N - N.factorial) * ((1 - (1 - (N.factorial : ℝ) / (N : ℝ) ^ N) ^ k) * permShare N P) ≤
        ∑ b ∈ (Finset.univ : Finset (Fin N → Fin N)).filter (fun b => ¬ b ∈ Set.range g), (timesShare N k fun π => P (shufflePerm b * π)) := by
      rw [← hcard, ← nsmul_eq_mul]
      refine Finset.card_nsmul_le_sum _ _ _ fun b _ => ?_
      have := ih fun π => P (shufflePerm b * π)
      rwa [permShare_left] at this
    rw [timesShare_succ, ← hsplit, hs1]
    have hp : (0 : ℝ) < (N : ℝ) ^ N := by positivity
    rw [le_div_iff₀ hp]
    refine le_trans (le_of_eq ?_) (add_le_add_right hs2 _)
    rw [pow_succ]
    generalize (1 - (N.factorial : ℝ) / (N : ℝ) ^ N) ^ k = e
    field_simp
    ring

/-- The ideal choices come close to a fair shuffle. -/
theorem times_near (N k : Nat) (hN : 0 < N) (P : Equiv.Perm (Fin N) → Prop) :
    |timesShare N k P - permShare N P| ≤ (1 - (N.factorial : ℝ) / (N : ℝ) ^ N) ^ k := by
  have h1 := times_lower N k hN P
  have h2 := times_lower N k hN fun π => ¬ P π
  have h3 := permShare_not N P
  have h4 := timesShare_not N k hN P
  have h5 := permShare_nonneg N P
  have h6 := permShare_nonneg N fun π => ¬ P π
  have hle : (N.factorial : ℝ) / (N : ℝ) ^ N ≤ 1 := by
    rw [div_le_one (by positivity)]
    exact_mod_cast Nat.factorial_le_pow N
  have h7 : 0 ≤ (1 - (N.factorial : ℝ) / (N : ℝ) ^ N) ^ k := pow_nonneg (by linarith) k
  generalize (1 - (N.factorial : ℝ) / (N : ℝ) ^ N) ^ k = e at *
  rw [abs_le]
  constructor <;> nlinarith

/-! ### From the choices to the calls -/

/-- The numbers that `Uintn` has to return for the choices `js`. -/
def choiceList {N k : Nat} (js : Fin k → Fin N → Fin N) : List (Fin N) := (List.ofFn fun i => List.ofFn (js i)).flatten

theorem choiceList_succ {N k : Nat} (js : Fin (k + 1) → Fin N → Fin N) :
    choiceList js = List.ofFn (js 0) ++ choiceList (fun i => js i.succ) := by
  unfold choiceList
  rw [List.ofFn_succ, List.flatten_cons]

theorem choiceList_length {N k : Nat} (js : Fin k → Fin N → Fin N) : (choiceList js).length = k * N := by
  induction k with
  | zero => simp [choiceList]
  | succ k ih => rw [choiceList_succ, List.length_append, ih, List.length_ofFn, Nat.succ_mul, Nat.add_comm]

theorem choiceList_inj {N k : Nat} : Function.Injective (choiceList (N := N) (k := k)) := by
  induction k with
  | zero => intro a b _; exact funext fun i => i.elim0
  | succ k ih =>
    intro a b h
    rw [choiceList_succ, choiceList_succ] at h
    obtain ⟨h1, h2⟩ := List.append_inj h (by simp)
    funext i
    refine Fin.cases (List.ofFn_injective h1) (fun i => congrFun (ih h2) i) i

section
variable {σ α : Type}

/-- One shuffle of a function's values. -/
theorem shuffle_fn (src : Source σ) (n N : Nat) (hN : N < 2 ^ 63) (d : Fin N → α) (s : σ) :
    (∀ xs s', draws (RNG.uintn src n (BitVec.ofNat 64 N)) N s = .ok (xs, s') →
      ∃ j : Fin N → Fin N, xs.map BitVec.toNat = (List.ofFn j).map Fin.val ∧
        shuffleSlice src n (List.ofFn d) s = .ok (List.ofFn (fun i => d (shufflePerm j i)), s')) ∧
    (∀ e, draws (RNG.uintn src n (BitVec.ofNat 64 N)) N s = .error e → shuffleSlice src n (List.ofFn d) s = .error e) := by
  obtain ⟨data, hd⟩ : ∃ data, data = List.ofFn d := ⟨_, rfl⟩
  have hl : data.length = N := by rw [hd, List.length_ofFn]
  subst hl
  have hg : data.get = d := by
    apply List.ofFn_injective
    exact (List.ofFn_get data).trans hd
  have hc := C29_slice src n data hN s
  rw [← hd]
  refine ⟨fun xs s' h => ?_, hc.2⟩
  obtain ⟨j, h1, h2⟩ := hc.1 xs s' h
  refine ⟨j, ?_, ?_⟩
  · have hlen := draws_length h
    apply List.ext_getElem
    · simp [hlen]
    · intro i h3 h4
      have hi : i < data.length := by simpa [hlen] using h3
      have := h1 ⟨i, hi⟩
      rw [List.getElem?_eq_getElem (by simpa using h3), Option.some.injEq] at this
      simp only [List.getElem_map, List.getElem_ofFn]
      rw [this, BitVec.toNat_ofNat]
      have := (j ⟨i, hi⟩).isLt
      omega
  · rw [h2, permuted, hg]

/-- `k` shuffles end in `T` exactly when the draws are choices that lead there. -/
theorem times_event (src : Source σ) (n N : Nat) (hN : N < 2 ^ 63) (k : Nat) (d : Fin N → α) (T : List α → Prop) (s : σ) :
    (∃ out rest, shuffleTimes src n k (List.ofFn d) s = .ok (out, rest) ∧ T out) ↔
      ∃ xs rest, draws (RNG.uintn src n (BitVec.ofNat 64 N)) (k * N) s = .ok (xs, rest) ∧
        ∃ js : Fin k → Fin N → Fin N, xs.map BitVec.toNat = (choiceList js).map Fin.val ∧ T (List.ofFn fun i => d (timesPerm js i)) := by
  induction k generalizing d s with
  | zero =>
    rw [Nat.zero_mul]
    constructor
    · rintro ⟨out, rest, h1, h2⟩
      simp only [shuffleTimes, Except.ok.injEq, Prod.mk.injEq] at h1
      refine ⟨[], s, rfl, fun i => i.elim0, rfl, ?_⟩
      rw [← h1.1] at h2
      exact h2
    · rintro ⟨xs, rest, -, js, -, h⟩
      exact ⟨_, s, rfl, h⟩
  | succ k ih =>
    have hc := shuffle_fn src n N hN d s
    have hst : shuffleTimes src n (k + 1) (List.ofFn d) s = (shuffleSlice src n (List.ofFn d) s >>= fun p => shuffleTimes src n k p.1 p.2) := rfl
    rw [Nat.succ_mul, Nat.add_comm (k * N) N, draws_add, hst]
    cases hd : draws (RNG.uintn src n (BitVec.ofNat 64 N)) N s with
    | error e =>
      rw [hc.2 e hd]
      constructor
      · rintro ⟨out, rest, h1, -⟩; cases h1
      · rintro ⟨xs, rest, h1, -⟩; cases h1
    | ok q =>
      obtain ⟨xs, s'⟩ := q
      obtain ⟨j, hj, hs⟩ := hc.1 xs s' hd
      rw [hs]
      simp only [bind, Except.bind]
      rw [ih (fun i => d (shufflePerm j i)) s']
      constructor
      · rintro ⟨ys, rest, h1, js, h2, h3⟩
        refine ⟨xs ++ ys, rest, by rw [h1]; rfl, Fin.cons j js, ?_, ?_⟩
        · rw [choiceList_succ, List.map_append, List.map_append, hj, h2]
          simp
        · rw [timesPerm_succ]
          exact h3
      · rintro ⟨zs, rest, h1, js, h2, h3⟩
        cases hy : draws (RNG.uintn src n (BitVec.ofNat 64 N)) (k * N) s' with
        | error e => rw [hy] at h1; cases h1
        | ok p =>
          obtain ⟨ys, t⟩ := p
          rw [hy] at h1
          simp only [pure, Except.pure, Except.ok.injEq, Prod.mk.injEq] at h1
          obtain ⟨rfl, rfl⟩ := h1
          rw [choiceList_succ, List.map_append, List.map_append, hj] at h2
          obtain ⟨h4, h5⟩ := List.append_inj h2 (by simp)
          have h6 : j = js 0 := List.ofFn_injective (List.map_injective_iff.mpr Fin.val_injective h4)
          have h7 : js = (Fin.cons j fun i => js i.succ : Fin (k + 1) → Fin N → Fin N) := by
            rw [h6]; exact (Fin.cons_self_tail js).symm
          refine ⟨ys, t, rfl, fun i => js i.succ, h5, ?_⟩
          rw [h7, timesPerm_succ] at h3
          exact h3

end

/-- The share of the lists of draws is that of the choices. -/
theorem uniformShare_times (N k : Nat) (P : Equiv.Perm (Fin N) → Prop) :
    uniformShare N (k * N) (fun l => ∃ js : Fin k → Fin N → Fin N, l = (choiceList js).map Fin.val ∧ P (timesPerm js)) = timesShare N k P := by
  classical
  unfold uniformShare timesShare
  have e : {l : List (Fin N) // l.length = k * N ∧ ∃ js : Fin k → Fin N → Fin N, l.map Fin.val = (choiceList js).map Fin.val ∧ P (timesPerm js)} ≃
      {js : Fin k → Fin N → Fin N // P (timesPerm js)} :=
    (Equiv.ofBijective (fun js : {js : Fin k → Fin N → Fin N // P (timesPerm js)} =>
      (⟨choiceList js.1, choiceList_length js.1, js.1, rfl, js.2⟩ :
        {l : List (Fin N) // l.length = k * N ∧ ∃ js : Fin k → Fin N → Fin N, l.map Fin.val = (choiceList js).map Fin.val ∧ P (timesPerm js)}))
      ⟨fun a b h => Subtype.ext (choiceList_inj (Subtype.mk.inj h)), fun l => by
        obtain ⟨l, h1, js, h2, h3⟩ := l
        exact ⟨⟨js, h3⟩, Subtype.ext (List.map_injective_iff.mpr Fin.val_injective h2).symm⟩⟩).symm
  rw [Nat.card_congr e, Nat.card_eq_fintype_card, Fintype.card_subtype, Finset.card_filter, ← pow_mul, Nat.mul_comm N k]
  push_cast
  rfl

theorem permShare_data {α : Type} (data : List α) (T : List α → Prop) :
    permShare data.length (fun π => T (List.ofFn fun i => data.get (π i))) = fairShare data T := by
  classical
  unfold permShare fairShare
  rw [Nat.card_eq_fintype_card, Fintype.card_subtype, Finset.card_filter]
  push_cast
  rfl

/-- The calls with ideal words have the law of the ideal choices, up to the error of the `k N` draws. -/
theorem times_ideal {α : Type} (data : List α) (hd : data ≠ []) (hN : data.length < 2 ^ 63) (k n : Nat) (T : List α → Prop) :
    |prob (k * data.length * (n + 1)) (fun w => ∃ out rest, shuffleTimes tape n k data w = .ok (out, rest) ∧ T out) -
        timesShare data.length k (fun π => T (List.ofFn fun i => data.get (π i)))| ≤ (k * data.length : Nat) * (1 / 2 ^ 63 + 1 / 2 ^ (n + 1)) := by
  have hpos : 0 < data.length := List.length_pos_iff.mpr hd
  have hof : (BitVec.ofNat 64 data.length).toNat = data.length := by rw [BitVec.toNat_ofNat]; omega
  have hne : BitVec.ofNat 64 data.length ≠ 0#64 := fun h => by
    have := congrArg BitVec.toNat h
    rw [hof] at this
    have : data.length = 0 := this
    omega
  have h1 := C73_draws n (BitVec.ofNat 64 data.length) hne (k * data.length) (fun l => ∃ js : Fin k → Fin data.length → Fin data.length,
    l = (choiceList js).map Fin.val ∧ (fun π => T (List.ofFn fun i => data.get (π i))) (timesPerm js))
  have h0 := uniformShare_times data.length k (fun π => T (List.ofFn fun i => data.get (π i)))
  beta_reduce at h0 h1
  rw [hof, h0] at h1
  have e : prob (k * data.length * (n + 1)) (fun w => ∃ out rest, shuffleTimes tape n k data w = .ok (out, rest) ∧ T out) =
      prob (k * data.length * (n + 1)) (fun w => ∃ xs rest, draws (RNG.uintn tape n (BitVec.ofNat 64 data.length)) (k * data.length) w = .ok (xs, rest) ∧
        ∃ js : Fin k → Fin data.length → Fin data.length, xs.map BitVec.toNat = (choiceList js).map Fin.val ∧ T (List.ofFn fun i => data.get (timesPerm js i))) :=
    prob_congr fun w _ => by
      have := times_event tape n data.length hN k data.get T w
      rw [List.ofFn_get] at this
      exact this
  rw [e]
  exact h1

/-- C117: `k` shuffles of `N` elements with ideal words give a result in `T` with the probability of a fair shuffle, up to `(1 - N!/N^N)^k`, which
tends to zero, and the error of the `k N` draws. -/
theorem C117_ideal {α : Type} (data : List α) (hd : data ≠ []) (hN : data.length < 2 ^ 63) (k n : Nat) (T : List α → Prop) :
    |prob (k * data.length * (n + 1)) (fun w => ∃ out rest, shuffleTimes tape n k data w = .ok (out, rest) ∧ T out) - fairShare data T| ≤
      (1 - (data.length.factorial : ℝ) / (data.length : ℝ) ^ data.length) ^ k + (k * data.length : Nat) * (1 / 2 ^ 63 + 1 / 2 ^ (n + 1)) := by
  have h1 := times_ideal data hd hN k n T
  have h2 := times_near data.length k (List.length_pos_iff.mpr hd) (fun π => T (List.ofFn fun i => data.get (π i)))
  rw [permShare_data] at h2
  have h3 := abs_le.mp h1
  have h4 := abs_le.mp h2
  rw [abs_le]
  constructor <;> linarith [h3.1, h3.2, h4.1, h4.2]

/-- C117: and a given order of distinct elements has the probability `waysTo / (N^N)^k`, up to the error of the draws. -/
theorem C117_ways {α : Type} (data : List α) (hd : data ≠ []) (hN : data.length < 2 ^ 63) (hdis : data.Nodup) (k n : Nat) (π : Equiv.Perm (Fin data.length)) :
    |prob (k * data.length * (n + 1)) (fun w => ∃ rest, shuffleTimes tape n k data w = .ok (permuted data π, rest)) -
        (waysTo data.length k π : ℝ) / ((data.length : ℝ) ^ data.length) ^ k| ≤ (k * data.length : Nat) * (1 / 2 ^ 63 + 1 / 2 ^ (n + 1)) := by
  classical
  have h1 := times_ideal data hd hN k n (fun out => out = permuted data π)
  have hiff : ∀ ρ : Equiv.Perm (Fin data.length), (List.ofFn fun i => data.get (ρ i)) = permuted data π ↔ ρ = π := fun ρ => by
    constructor
    · intro h
      have := List.ofFn_injective h
      exact Equiv.ext fun i => hdis.injective_get (congrFun this i)
    · rintro rfl; rfl
  have hw : timesShare data.length k (fun ρ => (List.ofFn fun i => data.get (ρ i)) = permuted data π) =
      (waysTo data.length k π : ℝ) / ((data.length : ℝ) ^ data.length) ^ k := by
    unfold timesShare waysTo
    rw [Nat.card_eq_fintype_card, Fintype.card_subtype, Finset.card_filter]
    push_cast
    refine congrArg (· / ((data.length : ℝ) ^ data.length) ^ k) (Finset.sum_congr rfl fun js _ => ?_)
    by_cases h : timesPerm js = π
    · rw [if_pos ((hiff _).mpr h)]; exact (if_pos h).symm
    · rw [if_neg (mt (hiff _).mp h)]; exact (if_neg h).symm
  rw [hw] at h1
  refine le_trans (le_of_eq ?_) h1
  refine congrArg (fun x => |x - _|) (prob_congr fun w _ => ?_)
  constructor
  · rintro ⟨rest, h⟩; exact ⟨_, rest, h, rfl⟩
  · rintro ⟨out, rest, h, rfl⟩; exact ⟨rest, h⟩

theorem times_over {σ α : Type} {next : σ → Go (U64 × σ)} {src : Source σ} {s : σ} {N D : Nat} (h : CallsOver next src s N D) (hD : D < 2 ^ 46) (data : List α)
    (hd : data ≠ []) (k : Nat) (hk : 0 < k) (hkD : k * data.length ≤ D) (T : List α → Prop) :
    |shareOf next s (2 ^ N - 1) (ReturnsSome (fun retries => shuffleTimes src retries k data) T) - fairShare data T| ≤
      (1 - (data.length.factorial : ℝ) / (data.length : ℝ) ^ data.length) ^ k + (k * data.length : Nat) * (data.length + 2) / 2 ^ 64 := by
  have hpos : 0 < data.length := List.length_pos_iff.mpr hd
  have hle : data.length ≤ k * data.length := Nat.le_mul_of_pos_left _ hk
  have hof : (BitVec.ofNat 64 data.length).toNat = data.length := by rw [BitVec.toNat_ofNat]; omega
  have hne : BitVec.ofNat 64 data.length ≠ 0#64 := fun h => by
    have := congrArg BitVec.toNat h
    rw [hof] at this
    have : data.length = 0 := this
    omega
  have h1 := h.uintn (BitVec.ofNat 64 data.length) hne (k * data.length) (by omega) hkD (fun l => ∃ js : Fin k → Fin data.length → Fin data.length,
    l = (choiceList js).map Fin.val ∧ (fun π => T (List.ofFn fun i => data.get (π i))) (timesPerm js))
  have h0 := uniformShare_times data.length k (fun π => T (List.ofFn fun i => data.get (π i)))
  beta_reduce at h0 h1
  rw [hof, h0] at h1
  have h2 := times_near data.length k hpos (fun π => T (List.ofFn fun i => data.get (π i)))
  rw [permShare_data] at h2
  have he : ∀ n t, (∃ out rest, shuffleTimes src n k data t = .ok (out, rest) ∧ T out) ↔
      ∃ xs rest, draws (RNG.uintn src n (BitVec.ofNat 64 data.length)) (k * data.length) t = .ok (xs, rest) ∧
        ∃ js : Fin k → Fin data.length → Fin data.length, xs.map BitVec.toNat = (choiceList js).map Fin.val ∧ T (List.ofFn fun i => data.get (timesPerm js i)) := fun n t => by
    have := times_event src n data.length (by omega) k data.get T t
    rw [List.ofFn_get] at this
    exact this
  rw [shareOf_congr next s _ (returnsSome_iff he)]
  have h3 := abs_le.mp h1
  have h4 := abs_le.mp h2
  rw [abs_le]
  constructor <;> linarith [h3.1, h3.2, h4.1, h4.2]

/-- C117 for MT64: over the states of a period. -/
theorem C117_MT64 {α : Type} (g : MT64) (hg : g.Alive) (hi : g.Begun) (data : List α) (hd : data ≠ []) (k : Nat) (hk : 0 < k)
    (hkD : k * data.length ≤ 311) (T : List α → Prop) :
    |shareOf MT64.uint64 g (2 ^ 19937 - 1) (ReturnsSome (fun retries => shuffleTimes MT64.source retries k data) T) - fairShare data T| ≤
      (1 - (data.length.factorial : ℝ) / (data.length : ℝ) ^ data.length) ^ k + (k * data.length : Nat) * (data.length + 2) / 2 ^ 64 :=
  times_over (C112_MT64 g hg hi) (by decide) data hd k hk hkD T

/-- C117: but of three or more elements no number of shuffles, even with ideal words, makes all orders equally probable. -/
theorem C117_never_fair (n k : Nat) (hn : 3 ≤ n) : ∃ π π' : Equiv.Perm (Fin n), waysTo n k π ≠ waysTo n k π' := by
  classical
  by_contra hall
  simp only [not_exists, not_not] at hall
  have hsum : ∑ π : Equiv.Perm (Fin n), waysTo n k π = (n ^ n) ^ k := by
    have h1 : ∀ π : Equiv.Perm (Fin n), waysTo n k π = ((Finset.univ : Finset (Fin k → Fin n → Fin n)).filter fun js => timesPerm js = π).card := fun π => by
      unfold waysTo
      rw [Nat.card_eq_fintype_card, Fintype.card_subtype]
      rfl
    rw [Finset.sum_congr rfl fun π _ => h1 π, ← Finset.card_eq_sum_card_fiberwise (f := timesPerm) (t := Finset.univ) fun _ _ => Finset.mem_coe.2 (Finset.mem_univ _)]
    simp
  rw [Finset.sum_congr rfl fun π _ => hall π 1, Finset.sum_const, Finset.card_univ, Fintype.card_perm, Fintype.card_fin, smul_eq_mul] at hsum
  obtain ⟨p, hp, hpd⟩ := Nat.exists_prime_and_dvd (show n - 1 ≠ 1 by omega)
  have h2 : p ∣ n.factorial := hpd.trans (Nat.dvd_factorial (by omega) (by omega))
  have h3 : p ∣ (n ^ n) ^ k := hsum ▸ h2.mul_right _
  have h4 : p ∣ n := hp.dvd_of_dvd_pow (hp.dvd_of_dvd_pow h3)
  have h5 : p ∣ n - (n - 1) := (Nat.dvd_sub h4 hpd)
  rw [show n - (n - 1) = 1 by omega] at h5
  exact hp.one_lt.ne' (Nat.dvd_one.mp h5)

/-- Non-vacuity: three elements shuffled fifty times on MT64; the probability that the first stays in place. -/
example (x : U64) (g : MT64) : ∃ s, g.seed x = .ok s ∧ |shareOf MT64.uint64 s (2 ^ 19937 - 1)
    (ReturnsSome (fun retries => shuffleTimes MT64.source retries 50 ['a', 'b', 'c']) fun out => out.head? = some 'a') -
      fairShare ['a', 'b', 'c'] (fun out => out.head? = some 'a')| ≤ 1 / 2 ^ 18 := by
  obtain ⟨s, h1, h2, h3⟩ := C61_MT64_Seed_alive x g
  refine ⟨s, h1, (C117_MT64 s h2 h3 ['a', 'b', 'c'] (by decide) 50 (by decide) (by decide) _).trans ?_⟩
  simp only [List.length_cons, List.length_nil, Nat.factorial]
  norm_num

end Crazy
