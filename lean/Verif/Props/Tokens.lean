/-
C119: random strings as tokens: guesses and collisions.
-/
import Verif.Proofs.Sample
import Verif.Props.IdealUintn
import Mathlib.Tactic.DefEqTransformations
namespace Crazy

/-! ### What comes out of a call with a probability of at most `β` -/

/-- If whatever a call returns the words it leaves are in a set with probability at most `β`, so they are altogether. -/
theorem Reads.bound {α : Type} (m k : Nat) (f : List U64 → Go (α × List U64)) (hf : Reads m f) (Q : α → List U64 → Prop)
    (hQ : ∀ r w v, w.length = k → (Q r (w ++ v) ↔ Q r w)) (β : ℝ) (h0 : 0 ≤ β) (hβ : ∀ r, prob k (Q r) ≤ β) :
    prob (m + k) (fun w => ∃ r rest, f w = .ok (r, rest) ∧ Q r rest) ≤ β := by
  induction m generalizing f with
  | zero =>
    rw [Nat.zero_add]
    cases e : f [] with
    | ok q =>
      obtain ⟨r, rest⟩ := q
      obtain ⟨p, h1, h2, h3⟩ := hf.cut _ _ _ e
      have hall : ∀ w, f w = .ok (r, w) := fun w => by
        have := hf.ext p r h3 w
        rwa [List.length_eq_zero_iff.mp (Nat.le_zero.mp h1)] at this
      refine (prob_mono fun w _ => ?_).trans (hβ r)
      rintro ⟨r', rest', h, hq⟩
      rw [hall w, Except.ok.injEq, Prod.mk.injEq] at h
      rwa [h.1, h.2]
    | error x =>
      rw [prob_congr (Q := fun _ => False) fun t _ => ⟨?_, False.elim⟩, prob_false]
      · exact h0
      · rintro ⟨r, rest, h, -⟩
        obtain ⟨p, h1, h2, h3⟩ := hf.cut _ _ _ h
        rw [List.length_eq_zero_iff.mp (Nat.le_zero.mp h1), e] at h3
        cases h3
  | succ m ih =>
    cases e : f [] with
    | ok q =>
      obtain ⟨r, rest⟩ := q
      obtain ⟨p, h1, h2, h3⟩ := hf.cut _ _ _ e
      have hp : p = [] := by
        have := congrArg List.length h2
        rw [List.length_append, List.length_nil] at this
        exact List.length_eq_zero_iff.mp (by omega)
      have hall : ∀ w, f w = .ok (r, w) := fun w => by
        have := hf.ext p r h3 w
        rwa [hp] at this
      refine (prob_mono (Q := Q r) fun w _ => ?_).trans ?_
      · rintro ⟨r', rest', h, hq⟩
        rw [hall w, Except.ok.injEq, Prod.mk.injEq] at h
        rwa [h.1, h.2]
      · rw [Nat.add_comm, prob_append k (m + 1) _ (hQ r)]
        exact hβ r
    | error x =>
      rw [Nat.add_right_comm, prob_succ]
      rw [← avg_const (N := 2 ^ 64) (by decide) β]
      refine avg_mono fun y _ => ih (fun t => f (BitVec.ofNat 64 y :: t)) ⟨fun p r h v => hf.ext _ r h v, fun w r rest h => ?_⟩
      obtain ⟨p, h1, h2, h3⟩ := hf.cut _ _ _ h
      cases p with
      | nil => rw [e] at h3; cases h3
      | cons z p =>
        rw [List.cons_append, List.cons.injEq] at h2
        exact ⟨p, by rw [List.length_cons] at h1; omega, h2.2, by rw [h2.1]; exact h3⟩

section
variable {α : Type} {m : Nat} {next : List U64 → Go (α × List U64)} (h : Reads m next) (β : ℝ) (h0 : 0 ≤ β)

theorem results_succ_ok (N : Nat) (w : List U64) (P : List α → Prop) : (∃ l rest, results next (N + 1) w = .ok (l, rest) ∧ P l) ↔
    ∃ r rest, next w = .ok (r, rest) ∧ ∃ l rest', results next N rest = .ok (l, rest') ∧ P (r :: l) := by
  have hst : results next (N + 1) w = (next w >>= fun p => results next N p.2 >>= fun q => .ok (p.1 :: q.1, q.2)) := rfl
  rw [hst]
  constructor
  · rintro ⟨l, rest, h, hP⟩
    cases e : next w with
    | error x => rw [e] at h; cases h
    | ok p =>
      rw [e] at h
      simp only [bind, Except.bind] at h
      cases e' : results next N p.2 with
      | error x => rw [e'] at h; cases h
      | ok q =>
        rw [e'] at h
        simp only [Except.ok.injEq, Prod.mk.injEq] at h
        exact ⟨p.1, p.2, rfl, q.1, q.2, e', by rw [h.1]; exact hP⟩
  · rintro ⟨r, rest, h1, l, rest', h2, hP⟩
    refine ⟨r :: l, rest', ?_, hP⟩
    rw [h1]
    simp only [bind, Except.bind]
    rw [h2]

include h h0 in
/-- A result that a call gives with probability at most `β` is among `N` results with probability at most `N β`. -/
theorem results_contain {γ : Type} (key : α → γ) (hβ : ∀ x, prob m (fun w => ∃ r rest, next w = .ok (r, rest) ∧ key r = x) ≤ β) (N : Nat) (x : γ) :
    prob (N * m) (fun w => ∃ l rest, results next N w = .ok (l, rest) ∧ x ∈ l.map key) ≤ N * β := by
  induction N with
  | zero =>
    rw [Nat.zero_mul, prob_congr (Q := fun _ => False) fun t _ => ⟨?_, False.elim⟩, prob_false]
    · simp
    · rintro ⟨l, rest, h, hx⟩
      simp only [results, Except.ok.injEq, Prod.mk.injEq] at h
      rw [← h.1] at hx
      simp at hx
  | succ N ih =>
    rw [Nat.succ_mul, Nat.add_comm]
    have hsub : prob (m + N * m) (fun w => ∃ l rest, results next (N + 1) w = .ok (l, rest) ∧ x ∈ l.map key) ≤
        prob (m + N * m) (fun w => (∃ r rest, next w = .ok (r, rest) ∧ key r = x) ∨
          ∃ r rest, next w = .ok (r, rest) ∧ ∃ l rest', results next N rest = .ok (l, rest') ∧ x ∈ l.map key) := prob_mono fun w _ => by
      rw [results_succ_ok]
      rintro ⟨r, rest, h1, l, rest', h2, hx⟩
      rw [List.map_cons, List.mem_cons] at hx
      rcases hx with hx | hx
      · exact Or.inl ⟨r, rest, h1, hx.symm⟩
      · exact Or.inr ⟨r, rest, h1, l, rest', h2, hx⟩
    refine hsub.trans ((prob_union _ _ _).trans ?_)
    have e1 : prob (m + N * m) (fun w => ∃ r rest, next w = .ok (r, rest) ∧ key r = x) = prob m (fun w => ∃ r rest, next w = .ok (r, rest) ∧ key r = x) :=
      prob_append m _ _ fun w v hw => h.returns_iff _ w v hw
    have e2 := Reads.bound m (N * m) next h (fun _ rest => ∃ l rest', results next N rest = .ok (l, rest') ∧ x ∈ l.map key)
      (fun _ w v hw => (reads_results h N).returns_iff (fun l => x ∈ l.map key) w v hw) (N * β) (by positivity) fun _ => ih
    rw [e1]
    push_cast
    linarith [hβ x]

include h h0 in
/-- Two of `N` results are equal with probability at most `N (N - 1) / 2 β`. -/
theorem results_collide {γ : Type} (key : α → γ) (hβ : ∀ x, prob m (fun w => ∃ r rest, next w = .ok (r, rest) ∧ key r = x) ≤ β) (N : Nat) :
    prob (N * m) (fun w => ∃ l rest, results next N w = .ok (l, rest) ∧ ¬ (l.map key).Nodup) ≤ N * (N - 1) / 2 * β := by
  induction N with
  | zero =>
    rw [Nat.zero_mul, prob_congr (Q := fun _ => False) fun t _ => ⟨?_, False.elim⟩, prob_false]
    · simp
    · rintro ⟨l, rest, h, hx⟩
      simp only [results, Except.ok.injEq, Prod.mk.injEq] at h
      rw [← h.1] at hx
      simp at hx
  | succ N ih =>
    rw [Nat.succ_mul, Nat.add_comm]
    have hsub : prob (m + N * m) (fun w => ∃ l rest, results next (N + 1) w = .ok (l, rest) ∧ ¬ (l.map key).Nodup) ≤
        prob (m + N * m) (fun w => (∃ r rest, next w = .ok (r, rest) ∧ ∃ l rest', results next N rest = .ok (l, rest') ∧ key r ∈ l.map key) ∨
          ∃ r rest, next w = .ok (r, rest) ∧ ∃ l rest', results next N rest = .ok (l, rest') ∧ ¬ (l.map key).Nodup) := prob_mono fun w _ => by
      rw [results_succ_ok]
      rintro ⟨r, rest, h1, l, rest', h2, hx⟩
      rw [List.map_cons, List.nodup_cons, not_and_or, not_not] at hx
      rcases hx with hx | hx
      · exact Or.inl ⟨r, rest, h1, l, rest', h2, hx⟩
      · exact Or.inr ⟨r, rest, h1, l, rest', h2, hx⟩
    refine hsub.trans ((prob_union _ _ _).trans ?_)
    have hN1 : (0 : ℝ) ≤ N * (N - 1) / 2 * β := (prob_nonneg _ _).trans ih
    have e1 := Reads.bound m (N * m) next h (fun r rest => ∃ l rest', results next N rest = .ok (l, rest') ∧ key r ∈ l.map key)
      (fun r w v hw => (reads_results h N).returns_iff (fun l => key r ∈ l.map key) w v hw) (N * β) (by positivity)
      fun r => results_contain h β h0 key hβ N (key r)
    have e2 := Reads.bound m (N * m) next h (fun _ rest => ∃ l rest', results next N rest = .ok (l, rest') ∧ ¬ (l.map key).Nodup)
      (fun r w v hw => (reads_results h N).returns_iff (fun l => ¬ (l.map key).Nodup) w v hw) _ hN1 fun _ => ih
    push_cast
    linarith

end

/-! ### One string -/

theorem filter_count (a : List Nat) (t : Nat) : ((Finset.range a.length).filter fun r => a[r]? = some t).card = a.count t := by
  induction a using List.reverseRecOn with
  | nil => rfl
  | append_singleton a b ih =>
    rw [List.length_append, List.length_singleton, Finset.range_add_one, Finset.filter_insert, List.count_append, ← ih]
    have e1 : (Finset.range a.length).filter (fun r => (a ++ [b])[r]? = some t) = (Finset.range a.length).filter fun r => a[r]? = some t :=
      Finset.filter_congr fun r hr => by rw [List.getElem?_append_left (Finset.mem_range.mp hr)]
    have e2 : (a ++ [b])[a.length]? = some b := by simp
    rw [e1, e2]
    by_cases h : b = t
    · rw [if_pos (by rw [h]), Finset.card_insert_of_notMem (by simp), h]
      simp
    · rw [if_neg (by simpa using h), List.count_singleton]
      simp [h]

/-- `Uintn` gives a number in a set of `c` with probability at most `c / max`, but for a factor of `1 + max / 2^63`. -/
theorem law_le (n : Nat) (max : U64) (h0 : max ≠ 0#64) (g : Nat → Prop) [DecidablePred g] :
    law n max g ≤ ((Finset.range max.toNat).filter g).card / max.toNat * (1 + max.toNat / 2 ^ 63) := by
  obtain ⟨B, hB⟩ := C10_B_exists max h0
  have hm : 0 < max.toNat := by
    rcases Nat.eq_zero_or_pos max.toNat with h | h
    · exact absurd (BitVec.eq_of_toNat_eq (by simpa using h)) h0
    · exact h
  have hBig : (2 : ℝ) ^ 63 ≤ B + 1 := by
    have hBeq := (largestMultiple_iff _ _ hm).mp hB
    have hlt := max.isLt
    have : 2 ^ 63 ≤ B + 1 := by
      by_cases hc : max.toNat ≤ 2 ^ 63
      · have hm' : (2 ^ 64 - 1) % max.toNat < max.toNat := Nat.mod_lt _ hm
        have hd := Nat.div_add_mod (2 ^ 64 - 1) max.toNat
        omega
      · have := hB.2.2 max.toNat (Nat.dvd_refl _) (by omega)
        omega
    exact_mod_cast this
  have hBle : (B : ℝ) + 1 ≤ 2 ^ 64 := by
    have : B + 1 ≤ 2 ^ 64 := hB.2.1
    exact_mod_cast this
  rw [law_eq n max h0 B hB g]
  obtain ⟨q, hq⟩ := hB.1
  have hacc := accepted_eq max.toNat q g
  rw [← hq] at hacc
  have hBr : (B : ℝ) = max.toNat * q := by rw [hq, Nat.cast_mul]
  have hzero : (if g 0 then (1 : ℝ) else 0) ≤ ((Finset.range max.toNat).filter g).card := by
    split
    · next hg =>
      have : 0 < ((Finset.range max.toNat).filter g).card := Finset.card_pos.mpr ⟨0, Finset.mem_filter.mpr ⟨Finset.mem_range.mpr hm, hg⟩⟩
      exact_mod_cast this
    · exact Nat.cast_nonneg _
  have hz0 : (0 : ℝ) ≤ if g 0 then (1 : ℝ) else 0 := by split <;> norm_num
  have hpow : (0 : ℝ) ≤ (1 - (B + 1) / 2 ^ 64) ^ (n + 1) := by
    refine pow_nonneg ?_ _
    rw [sub_nonneg, div_le_one (by positivity)]
    exact hBle
  generalize accepted max.toNat B g = A at *
  generalize (if g 0 then (1 : ℝ) else 0) = z at *
  have hS0 : (0 : ℝ) ≤ ((Finset.range max.toNat).filter g).card := Nat.cast_nonneg _
  generalize (((Finset.range max.toNat).filter g).card : ℝ) = S at *
  have hM : (0 : ℝ) < max.toNat := Nat.cast_pos.mpr hm
  generalize (max.toNat : ℝ) = M at *
  generalize (1 - ((B : ℝ) + 1) / 2 ^ 64) ^ (n + 1) = ρ at *
  have hq0 : (0 : ℝ) ≤ q := Nat.cast_nonneg _
  generalize (q : ℝ) = q' at *
  generalize (B : ℝ) = b at *
  have hb : 0 < b + 1 := lt_of_lt_of_le (by positivity) hBig
  have hA : A / (b + 1) ≤ S / M * (1 + M / 2 ^ 63) := by
    rw [div_le_iff₀ hb, hacc]
    have e : S / M * (1 + M / 2 ^ 63) * (b + 1) = S / M * (b + 1) + S * ((b + 1) / 2 ^ 63) := by field_simp
    have e1 : S / M * (b + 1) = S * q' + S / M := by rw [hBr]; field_simp
    have e2 : 1 ≤ (b + 1) / 2 ^ 63 := (one_le_div (by positivity)).mpr hBig
    have e3 : 0 ≤ S / M := div_nonneg hS0 hM.le
    rw [e, e1]
    nlinarith
  have hA0 : 0 ≤ A / (b + 1) := by
    refine div_nonneg ?_ hb.le
    rw [hacc]
    positivity
  nlinarith

theorem lawDraws_letters (n : Nat) (max : U64) (h0 : max ≠ 0#64) (a : List Nat) (ha : a.length = max.toNat) (ts : List Nat) :
    lawDraws n max ts.length (fun l => l.map (fun x => a[x]?) = ts.map some) ≤
      (ts.map fun t => (a.count t : ℝ) / a.length).prod * (1 + a.length / 2 ^ 63) ^ ts.length := by
  classical
  induction ts with
  | nil =>
    rw [List.length_nil, lawDraws_zero]
    simp
  | cons t ts ih =>
    rw [List.length_cons, lawDraws_succ]
    have e : ∀ r ∈ Finset.range max.toNat, law n max (· = r) * lawDraws n max ts.length (fun l => (r :: l).map (fun x => a[x]?) = (t :: ts).map some) =
        if a[r]? = some t then law n max (· = r) * lawDraws n max ts.length (fun l => l.map (fun x => a[x]?) = ts.map some) else 0 := by
      intro r _
      split
      · next h =>
        refine congrArg _ (congrArg _ (funext fun l => ?_))
        rw [List.map_cons, List.map_cons, List.cons.injEq, h]
        simp
      · next h =>
        have : (fun l : List Nat => (r :: l).map (fun x => a[x]?) = (t :: ts).map some) = fun _ => False := by
          funext l
          rw [List.map_cons, List.map_cons, List.cons.injEq]
          simp [h]
        rw [this]
        unfold lawDraws
        rw [prob_congr (Q := fun _ => False) fun w _ => ⟨fun ⟨_, _, _, h⟩ => h, False.elim⟩, prob_false, mul_zero]
    rw [Finset.sum_congr rfl e, ← Finset.sum_filter, ← Finset.sum_mul, ← law_sum]
    have h1 := law_le n max h0 fun r => a[r]? = some t
    rw [← ha, filter_count] at h1
    have h2 : 0 ≤ lawDraws n max ts.length (fun l => l.map (fun x => a[x]?) = ts.map some) := prob_nonneg _ _
    have h3 : (0 : ℝ) ≤ (a.count t : ℝ) / a.length * (1 + a.length / 2 ^ 63) := by positivity
    refine (mul_le_mul h1 ih h2 h3).trans (le_of_eq ?_)
    rw [List.map_cons, List.prod_cons, pow_succ]
    ring

/-- C119: `RandString` gives a text with at most the probability it should have, the product of the shares of its letters in the alphabet, but for
a factor that exceeds 1 by very little. -/
theorem C119_text (n : Nat) (alphabet : List Byte) (h0 : alphabet ≠ []) (halpha : alphabet.length < 2 ^ 63) (ts : List Nat) (hl : ts.length ≤ 2 ^ 46) :
    prob (ts.length * (n + 1)) (fun w => ∃ out rest, randString tape n alphabet ts.length w = .ok (out, rest) ∧ runes out = ts) ≤
      (ts.map fun t => ((runes alphabet).count t : ℝ) / (runes alphabet).length).prod * (1 + (runes alphabet).length / 2 ^ 63) ^ ts.length := by
  have hle := runes_length_le alphabet
  have hpos : 0 < (runes alphabet).length := List.length_pos_iff.mpr (mt (runes_eq_nil alphabet).mp h0)
  have hof : (BitVec.ofNat 64 (runes alphabet).length).toNat = (runes alphabet).length := by rw [BitVec.toNat_ofNat]; omega
  have hne : BitVec.ofNat 64 (runes alphabet).length ≠ 0#64 := fun h => by
    have := congrArg BitVec.toNat h
    rw [hof] at this
    have : (runes alphabet).length = 0 := this
    omega
  have h := lawDraws_letters n (BitVec.ofNat 64 (runes alphabet).length) hne (runes alphabet) hof.symm ts
  exact le_trans (le_of_eq (prob_congr fun w _ => randString_event tape n alphabet halpha ts hl w)) h

theorem C119_any (n : Nat) (alphabet : List Byte) (h0 : alphabet ≠ []) (halpha : alphabet.length < 2 ^ 63) (m : Nat) (hl : m ≤ 2 ^ 46)
    (c : Nat) (hc : ∀ t, (runes alphabet).count t ≤ c) (x : List Nat) :
    prob (m * (n + 1)) (fun w => ∃ out rest, randString tape n alphabet m w = .ok (out, rest) ∧ runes out = x) ≤ tokenBound (runes alphabet).length c m := by
  unfold tokenBound
  by_cases hx : x.length = m
  · subst hx
    refine (C119_text n alphabet h0 halpha x hl).trans ?_
    rw [mul_pow]
    refine mul_le_mul_of_nonneg_right ?_ (by positivity)
    clear hl
    induction x with
    | nil => simp
    | cons t ts ih =>
      rw [List.map_cons, List.prod_cons, List.length_cons, pow_succ']
      refine mul_le_mul (div_le_div_of_nonneg_right (Nat.cast_le.mpr (hc t)) (Nat.cast_nonneg _)) ih ?_ (by positivity)
      exact List.prod_nonneg fun y hy => by
        obtain ⟨t', -, rfl⟩ := List.mem_map.mp hy
        positivity
  · rw [prob_congr (Q := fun _ => False) fun w _ => ⟨?_, False.elim⟩, prob_false]
    · positivity
    · rintro ⟨out, rest, h1, h2⟩
      have hcc := C28_randString tape n alphabet halpha m hl w
      cases hd : draws (RNG.uintn tape n (BitVec.ofNat 64 (runes alphabet).length)) m w with
      | error e => rw [hcc.2 e hd] at h1; cases h1
      | ok q =>
        obtain ⟨str, h3, h4, -⟩ := hcc.1 q.1 q.2 hd
        rw [h3, Except.ok.injEq, Prod.mk.injEq] at h1
        rw [h1.1, h2] at h4
        exact hx h4

/-- C119: `K` guesses, whatever they are, hit a token with probability at most `K` times that bound. -/
theorem C119_guess (n : Nat) (alphabet : List Byte) (h0 : alphabet ≠ []) (halpha : alphabet.length < 2 ^ 63) (m : Nat) (hl : m ≤ 2 ^ 46)
    (c : Nat) (hc : ∀ t, (runes alphabet).count t ≤ c) (guesses : List (List Nat)) :
    prob (m * (n + 1)) (fun w => ∃ out rest, randString tape n alphabet m w = .ok (out, rest) ∧ runes out ∈ guesses) ≤
      guesses.length * tokenBound (runes alphabet).length c m := by
  induction guesses with
  | nil =>
    rw [prob_congr (Q := fun _ => False) fun w _ => ⟨?_, False.elim⟩, prob_false]
    · simp
    · rintro ⟨out, rest, -, h⟩
      cases h
  | cons x xs ih =>
    have h1 := C119_any n alphabet h0 halpha m hl c hc x
    have h2 : prob (m * (n + 1)) (fun w => ∃ out rest, randString tape n alphabet m w = .ok (out, rest) ∧ runes out ∈ x :: xs) ≤
        prob (m * (n + 1)) (fun w => (∃ out rest, randString tape n alphabet m w = .ok (out, rest) ∧ runes out = x) ∨
          ∃ out rest, randString tape n alphabet m w = .ok (out, rest) ∧ runes out ∈ xs) := prob_mono fun w _ => by
      rintro ⟨out, rest, h, hx⟩
      rcases List.mem_cons.mp hx with hx | hx
      · exact Or.inl ⟨out, rest, h, hx⟩
      · exact Or.inr ⟨out, rest, h, hx⟩
    refine h2.trans ((prob_union _ _ _).trans ?_)
    rw [List.length_cons]
    push_cast
    linarith

/-- C119: among `N` tokens made one after the other two are equal with probability at most `N(N-1)/2` times that bound. -/
theorem C119_collision (n : Nat) (alphabet : List Byte) (h0 : alphabet ≠ []) (halpha : alphabet.length < 2 ^ 63) (m : Nat) (hl : m ≤ 2 ^ 46)
    (c : Nat) (hc : ∀ t, (runes alphabet).count t ≤ c) (N : Nat) :
    prob (N * (m * (n + 1))) (fun w => ∃ l rest, results (randString tape n alphabet m) N w = .ok (l, rest) ∧ ¬ (l.map runes).Nodup) ≤
      N * (N - 1) / 2 * tokenBound (runes alphabet).length c m := by
  have hr : Reads (m * (n + 1)) (randString tape n alphabet m) := reads_randString n alphabet m
  refine results_collide hr _ ?_ runes (C119_any n alphabet h0 halpha m hl c hc) N
  unfold tokenBound
  positivity

/-! ### Non-vacuity -/

/-- The alphabet `0123456789abcdef`. -/
def hexDigits : List Byte := [0x30, 0x31, 0x32, 0x33, 0x34, 0x35, 0x36, 0x37, 0x38, 0x39, 0x61, 0x62, 0x63, 0x64, 0x65, 0x66]

/-- 32 hexadecimal digits, each letter of the alphabet once: no billion guesses hit, and no million tokens collide, with more than a tiny probability. -/
example : (∀ guesses : List (List Nat), guesses.length = 10 ^ 9 → prob (32 * (63 + 1))
      (fun w => ∃ out rest, randString tape 63 hexDigits 32 w = .ok (out, rest) ∧ runes out ∈ guesses) ≤ 1 / 10 ^ 29) ∧
    prob (10 ^ 6 * (32 * (63 + 1))) (fun w => ∃ l rest, results (randString tape 63 hexDigits 32) (10 ^ 6) w = .ok (l, rest) ∧
      ¬ (l.map runes).Nodup) ≤ 1 / 10 ^ 26 := by
  have e : runes hexDigits = [48, 49, 50, 51, 52, 53, 54, 55, 56, 57, 97, 98, 99, 100, 101, 102] := by decide +kernel
  have hc : ∀ t, (runes hexDigits).count t ≤ 1 := by
    rw [e]
    exact List.nodup_iff_count_le_one.mp (by decide)
  constructor
  · intro g hg
    refine (C119_guess 63 hexDigits (by decide +kernel) (by decide +kernel) 32 (by decide) 1 hc g).trans ?_
    rw [hg, e]
    unfold tokenBound
    norm_num
  · refine (C119_collision 63 hexDigits (by decide +kernel) (by decide +kernel) 32 (by decide) 1 hc (10 ^ 6)).trans ?_
    rw [e]
    unfold tokenBound
    norm_num

end Crazy
