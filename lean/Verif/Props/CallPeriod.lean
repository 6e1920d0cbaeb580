/-
C95: the results of every method of the bundled generators, and every bit of them, have the full period.
-/
import Verif.Spec.CallPeriod
import Verif.Props.ApiPeriod
import Verif.Props.DeadState
import Mathlib.Algebra.Order.Floor.Semiring
set_option exponentiation.threshold 2200
namespace Crazy

theorem count_mul_period (p : Nat → Prop) [DecidablePred p] (d : Nat) (h : ∀ n, p (n + d) ↔ p n) (k : Nat) : Nat.count p (d * k) = k * Nat.count p d := by
  induction k with
  | zero => simp
  | succ k ih =>
    rw [Nat.mul_succ, Nat.add_comm, Nat.count_add, Nat.succ_mul, Nat.add_comm (k * _), ← ih]
    refine congrArg _ ?_
    congr 1
    funext n
    rw [Nat.add_comm]
    exact propext (h n)

theorem count_card (p : Nat → Prop) [DecidablePred p] (P : Nat) : Nat.count p P = Nat.card {n : Nat // n < P ∧ p n} := by
  rw [Nat.count_eq_card_filter_range]
  rw [Nat.subtype_card]
  intro n
  rw [Finset.mem_filter, Finset.mem_range]

/-- The least period divides. -/
theorem per_gcd {α : Type} (v : Nat → α) (P q : Nat) (hP : 0 < P) (hp : ∀ n, v (n + P) = v n) (hq : ∀ n, v (n + q) = v n) (n : Nat) :
    v (n + Nat.gcd P q) = v n := by
  have mul : ∀ a, (∀ n, v (n + a) = v n) → ∀ k n, v (n + a * k) = v n := fun a h k => by
    induction k with
    | zero => intro n; rfl
    | succ k ih => intro n; rw [Nat.mul_succ, ← Nat.add_assoc, h, ih]
  rcases Nat.lt_or_ge (Nat.gcd P q) P with h | h
  · obtain ⟨m, -, hm⟩ := Nat.exists_mul_mod_eq_gcd (k := P) (n := q) (by rw [Nat.gcd_comm]; exact h)
    rw [Nat.gcd_comm q P] at hm
    rw [← mul P hp (q * m / P) (n + Nat.gcd P q), Nat.add_assoc, ← hm, Nat.mod_add_div, mul q hq]
  · rw [Nat.le_antisymm (Nat.gcd_le_left _ hP) h, hp]

theorem quot_dvd {α : Type} (v : Nat → α) (P q : Nat) (hP : 0 < P) (hp : ∀ n, v (n + P) = v n) (hq : ∀ n, v (n + q) = v n) (A : α → Prop) :
    P / Nat.gcd P q ∣ Nat.card {n : Nat // n < P ∧ A (v n)} := by
  classical
  rw [← count_card (fun n => A (v n))]
  have e := Nat.mul_div_cancel' (Nat.gcd_dvd_left P q)
  have := count_mul_period (fun n => A (v n)) (Nat.gcd P q) (fun n => by rw [per_gcd v P q hP hp hq]) (P / Nat.gcd P q)
  rw [e] at this
  rw [this]
  exact Nat.dvd_mul_right _ _

theorem period_of_count {α : Type} (v : Nat → α) (P : Nat) (hP : Odd P) (hp : ∀ n, v (n + P) = v n) (A : α → Prop) (j : Nat)
    (hc : Nat.card {n : Nat // n < P ∧ A (v n)} = 2 ^ j) (q : Nat) : (∀ n, v (n + q) = v n) ↔ P ∣ q := by
  constructor
  · intro hq
    have h := quot_dvd v P q hP.pos hp hq A
    rw [hc] at h
    have e := Nat.mul_div_cancel' (Nat.gcd_dvd_left P q)
    have ho : Odd (P / Nat.gcd P q) := by
      rw [← e] at hP
      exact (Nat.odd_mul.mp hP).2
    have h1 : P / Nat.gcd P q = 1 := by
      have hcop : Nat.Coprime (P / Nat.gcd P q) (2 ^ j) := Nat.Coprime.pow_right j (Nat.coprime_two_right.mpr ho)
      exact Nat.Coprime.eq_one_of_dvd hcop h
    rw [h1, Nat.mul_one] at e
    rw [← e]
    exact Nat.gcd_dvd_right P q
  · rintro ⟨k, rfl⟩
    induction k with
    | zero => intro n; rfl
    | succ k ih => intro n; rw [Nat.mul_succ, ← Nat.add_assoc, hp, ih]

section
variable {σ : Type}

theorem callPeriod_pure {α : Type} {call : σ → Go (α × σ)} {val : σ → α} {step : σ → σ} (h : ∀ s, call s = .ok (val s, step s)) (s : σ) (k : Nat) :
    CallPeriod call s k ↔ ∀ n, val (step^[n + k] s) = val (step^[n] s) := by
  unfold CallPeriod
  simp only [nth_pure h]
  exact ⟨fun h n => (h n _).mp rfl, fun h n v => by rw [h]⟩

theorem callPeriod_of {α : Type} {call : σ → Go (α × σ)} {val : σ → α} {step : σ → σ} (h : ∀ s, call s = .ok (val s, step s)) (s : σ) (P : Nat)
    (hP : Odd P) (hp : ∀ n, val (step^[n + P] s) = val (step^[n] s)) (A : α → Prop) (j : Nat) (hc : timesReturned call s P A = 2 ^ j) (k : Nat) :
    CallPeriod call s k ↔ P ∣ k := by
  rw [callPeriod_pure h]
  rw [times_pure h] at hc
  exact period_of_count (fun n => val (step^[n] s)) P hP hp A j hc k

theorem fnPeriod_pure {α : Type} {src : Source σ} {val : σ → U64} {step : σ → σ} (h : ∀ s, RNG.uint64 src s = .ok (val s, step s)) (f : U64 → α)
    (s : σ) (k : Nat) : FnPeriod src f s k ↔ ∀ n, f (val (step^[n + k] s)) = f (val (step^[n] s)) := by
  unfold FnPeriod
  simp only [nth_pure h]
  constructor
  · intro h n
    exact (h n _ _ rfl rfl).symm
  · rintro h n v w rfl rfl
    exact (h n).symm

/-- From the counts of words those of sets of words. -/
theorem card_seq_set (o : Nat → U64) (P C : Nat) (A : U64 → Prop) (h0 : ¬ A 0#64)
    (h : ∀ w, Nat.card {n : Nat // n < P ∧ o n = w} = if w = 0#64 then C - 1 else C) :
    Nat.card {n : Nat // n < P ∧ A (o n)} = Nat.card {w : U64 // A w} * C := by
  classical
  have e : {n : Nat // n < P ∧ A (o n)} ≃ (Σ w : {w : U64 // A w}, {n : Nat // n < P ∧ o n = w.1}) :=
    ⟨fun n => ⟨⟨o n.1, n.2.2⟩, ⟨n.1, n.2.1, rfl⟩⟩, fun q => ⟨q.2.1, q.2.2.1, by rw [q.2.2.2]; exact q.1.2⟩, fun n => rfl,
      by
        rintro ⟨⟨w, hw⟩, ⟨n, hn, e⟩⟩
        have e' : w = o n := e.symm
        subst e'
        rfl⟩
  have hf : ∀ w, Finite {n : Nat // n < P ∧ o n = w} := fun w => Set.Finite.subset (Set.finite_lt_nat P) fun n hn => hn.1
  have : Fintype {w : U64 // A w} := Fintype.ofFinite _
  rw [Nat.card_congr e, Nat.card_sigma]
  simp only [h]
  rw [Finset.sum_congr rfl (g := fun _ => C) (fun w _ => if_neg fun e => h0 (by have := w.2; rw [e] at this; exact this)), Finset.sum_const, Finset.card_univ, smul_eq_mul,
    Nat.card_eq_fintype_card]

theorem card_bit (b : Nat) (hb : b < 64) : Nat.card {w : U64 // w.getLsbD b = true} = 2 ^ 63 := by
  classical
  have : Fintype U64 := Fintype.ofFinite _
  have hU : Nat.card U64 = 2 ^ 64 := card_U64
  have e : {w : U64 // w.getLsbD b = true} ≃ {w : U64 // ¬ w.getLsbD b = true} :=
    ⟨fun w => ⟨w.1 ^^^ BitVec.twoPow 64 b, by rw [BitVec.getLsbD_xor, w.2, BitVec.getLsbD_twoPow]; simp [hb]⟩,
      fun w => ⟨w.1 ^^^ BitVec.twoPow 64 b, by
        have := w.2
        rw [Bool.not_eq_true] at this
        rw [BitVec.getLsbD_xor, this, BitVec.getLsbD_twoPow]; simp [hb]⟩,
      fun w => Subtype.ext (by simp only [BitVec.xor_assoc, BitVec.xor_self, BitVec.xor_zero]),
      fun w => Subtype.ext (by simp only [BitVec.xor_assoc, BitVec.xor_self, BitVec.xor_zero])⟩
  have h1 := Nat.card_congr e
  have h2 := Nat.card_congr (Equiv.sumCompl fun w : U64 => w.getLsbD b = true)
  rw [Nat.card_sum, hU, ← h1] at h2
  omega

theorem fullPeriod_of (src : Source σ) (s : σ) (N : Nat) (hN : 64 ≤ N) (out : σ → U64) (step1 step2 : σ → σ)
    (h8 : ReadsOut src out step2 8) (h7 : ReadsOut src out step1 7) (h4 : ReadsOut src out step1 4) (h2 : ReadsOut src out step1 2)
    (p1 : ∀ n, out (step1^[n + (2 ^ N - 1)] s) = out (step1^[n] s)) (p2 : ∀ n, out (step2^[n + (2 ^ N - 1)] s) = out (step2^[n] s))
    (ev : EvenOverPeriod src s N) : FullPeriod src s (2 ^ N - 1) := by
  have hodd : Odd (2 ^ N - 1) := Nat.Even.sub_odd Nat.one_le_two_pow ((Nat.even_pow.mpr ⟨even_two, by omega⟩)) odd_one
  have c64 : ∀ s, RNG.uint64 src s = .ok (out s, step2 s) := fun s => by
    rw [RNG.uint64_eq, h8 s]
    simp only [Except.map]
    rw [leNat_take_le64 _ _ (by decide), Nat.mod_eq_of_lt (out s).isLt, BitVec.ofNat_toNat, BitVec.setWidth_eq]
  have cnt := ev.uint64
  simp only [times_pure c64] at cnt
  refine ⟨fun k => ?_, fun k => ?_, fun k => ?_, fun k => ?_, fun k => ?_, fun b hb k => ?_, fun f v w hv hw k hk hf => ?_⟩
  · exact callPeriod_of c64 s _ hodd p2 (· = 1#64) (N - 64) ((ev.uint64 1#64).trans (if_neg (by decide))) k
  · refine callPeriod_of (val := fun s => BitVec.ofNat 32 (leNat ((le64 (out s)).take 4))) (step := step1)
      (fun s => by rw [RNG.uint32_eq, h4 s]; rfl) s _ hodd
      (fun n => by rw [p1]) (· = 1#32) (N - 32) ((ev.uint32 1#32).trans (if_neg (by decide))) k
  · refine callPeriod_of (val := fun s => BitVec.ofNat 16 (leNat ((le64 (out s)).take 2))) (step := step1)
      (fun s => by rw [RNG.uint16_eq, h2 s]; rfl) s _ hodd
      (fun n => by rw [p1]) (· = 1#16) (N - 16) ((ev.uint16 1#16).trans (if_neg (by decide))) k
  · exact callPeriod_of (fun s => uniform12_eq src s _ _ (h7 s)) s _ hodd
      (fun n => by rw [p1]) _ (N - 52) ((ev.uniform1_2 1 (by decide)).trans (if_neg (by decide))) k
  · exact callPeriod_of (fun s => uniform01_eq src s _ _ (h8 s)) s _ hodd
      (fun n => by rw [p2]) _ (N - 53) ((ev.uniform0_1 1 (by decide)).trans (if_neg (by decide))) k
  · rw [fnPeriod_pure c64]
    refine period_of_count (fun n => (out (step2^[n] s)).getLsbD b) _ hodd (fun n => by rw [p2]) (· = true) (63 + (N - 64)) ?_ k
    rw [card_seq_set (fun n => out (step2^[n] s)) _ (2 ^ (N - 64)) (fun w => w.getLsbD b = true) (by simp) cnt, card_bit b hb, ← pow_add]
  · rw [fnPeriod_pure c64] at hf
    -- the set on which `f` differs from its value at 0
    have hne : ∃ u, f u ≠ f 0#64 := by
      by_contra hc
      have hc : ∀ u, f u = f 0#64 := fun u => by
        by_contra h
        exact hc ⟨u, h⟩
      exact hw (by rw [hc w, ← hc v]; exact hv)
    have hd := quot_dvd (fun n => f (out (step2^[n] s))) (2 ^ N - 1) k hodd.pos (fun n => by rw [p2]) hf (fun x => x ≠ f 0#64)
    rw [card_seq_set (fun n => out (step2^[n] s)) _ (2 ^ (N - 64)) (fun w => f w ≠ f 0#64) (by simp) cnt] at hd
    have e := Nat.mul_div_cancel' (Nat.gcd_dvd_left (2 ^ N - 1) k)
    have ho : Odd ((2 ^ N - 1) / Nat.gcd (2 ^ N - 1) k) := by
      have h := hodd
      rw [← e] at h
      exact (Nat.odd_mul.mp h).2
    have hd := (Nat.Coprime.pow_right (N - 64) (Nat.coprime_two_right.mpr ho)).dvd_of_dvd_mul_right hd
    have hlt : Nat.card {w : U64 // f w ≠ f 0#64} < 2 ^ 64 := by
      have : Fintype U64 := Fintype.ofFinite _
      classical
      rw [← card_U64, Nat.card_eq_fintype_card, Nat.card_eq_fintype_card]
      exact Fintype.card_subtype_lt (x := 0#64) (by simp)
    have hpos : 0 < Nat.card {w : U64 // f w ≠ f 0#64} := by
      have : Nonempty {w : U64 // f w ≠ f 0#64} := ⟨⟨hne.choose, hne.choose_spec⟩⟩
      exact Nat.card_pos
    have h1 := Nat.le_of_dvd hpos hd
    have h2 : Nat.gcd (2 ^ N - 1) k ≤ k := Nat.gcd_le_right _ hk
    calc 2 ^ N - 1 = Nat.gcd (2 ^ N - 1) k * ((2 ^ N - 1) / Nat.gcd (2 ^ N - 1) k) := e.symm
      _ ≤ k * Nat.card {w : U64 // f w ≠ f 0#64} := Nat.mul_le_mul h2 h1
      _ < k * 2 ^ 64 := Nat.mul_lt_mul_of_pos_left hlt hk

end

/-- C95: Xoshiro. -/
theorem C95_Xoshiro (g : Xoshiro) (hg : g ≠ ⟨0#64, 0#64, 0#64, 0#64⟩) : FullPeriod Xoshiro.source g (2 ^ 256 - 1) := by
  have p := (outputPeriod_pure Xoshiro.uint64_pure g _).mp ((C44_Xoshiro_output_period g hg _).mpr (Nat.dvd_refl _))
  exact fullPeriod_of _ _ 256 (by decide) Xoshiro.out Xoshiro.step Xoshiro.step (Xoshiro.readsOut 8 (by decide))
    (Xoshiro.readsOut 7 (by decide)) (Xoshiro.readsOut 4 (by decide)) (Xoshiro.readsOut 2 (by decide)) p p (C80_Xoshiro g hg)

/-- C95: Xoroshiro, although `Uint64` and `Uniform0_1` see every second output only. -/
theorem C95_Xoroshiro (g : Xoroshiro) (hg : g ≠ ⟨0#64, 0#64⟩) : FullPeriod Xoroshiro.source g (2 ^ 128 - 1) := by
  have p := (Xoroshiro.output_period g hg (2 ^ 128 - 1)).mpr (Nat.dvd_refl _)
  refine fullPeriod_of _ _ 128 (by decide) Xoroshiro.out Xoroshiro.step (fun g => g.step.step) Xoroshiro.readsOut8
    (Xoroshiro.readsOut 7 (by decide)) (Xoroshiro.readsOut 4 (by decide)) (Xoroshiro.readsOut 2 (by decide)) p (fun n => ?_) (C80_Xoroshiro g hg)
  have e : ∀ n, (fun s : Xoroshiro => s.step.step)^[n] g = Xoroshiro.step^[2 * n] g := fun n => by
    rw [Function.iterate_mul]
    rfl
  generalize 2 ^ 128 - 1 = P at *
  rw [e, e, show 2 * (n + P) = 2 * n + P + P by omega, p, p]

/-- C95: Rexoroshiro. -/
theorem C95_Rexoroshiro (g : Rexoroshiro) (hg : g ≠ ⟨⟨0#64, 0#64⟩⟩) : FullPeriod Rexoroshiro.source g (2 ^ 128 - 1) := by
  have p := (outputPeriod_pure Rexoroshiro.uint64_pure g _).mp ((C48_Rexoroshiro_output_period g hg _).mpr (Nat.dvd_refl _))
  exact fullPeriod_of _ _ 128 (by decide) _ _ _ (Rexoroshiro.readsOut 8 (by decide)) (Rexoroshiro.readsOut 7 (by decide))
    (Rexoroshiro.readsOut 4 (by decide)) (Rexoroshiro.readsOut 2 (by decide)) p p (C80_Rexoroshiro g hg)

/-- C95: MT64, in the states of C61. -/
theorem C95_MT64 (g : MT64) (hg : g.Alive) (hi : g.Begun) : FullPeriod MT64.source g (2 ^ 19937 - 1) := by
  have p := (outputPeriod_pure MT64.uint64_eq g _).mp ((C61_MT64_period g hg hi _).mpr (Nat.dvd_refl _))
  exact fullPeriod_of _ _ 19937 (by decide) _ _ _ (MT64.readsOut 8 (by decide)) (MT64.readsOut 7 (by decide))
    (MT64.readsOut 4 (by decide)) (MT64.readsOut 2 (by decide)) p p (C80_MT64 g hg hi)

/-- Seeded generators meet the hypotheses. -/
example (x : U64) (g : Xoroshiro) : ∃ s, g.seed x = .ok s ∧ FullPeriod Xoroshiro.source s (2 ^ 128 - 1) := by
  obtain ⟨s, h1, h2⟩ := C51_Xoroshiro_Seed_alive x g
  exact ⟨s, h1, C95_Xoroshiro s h2⟩

example (x : U64) (g : MT64) : ∃ s, g.seed x = .ok s ∧ FullPeriod MT64.source s (2 ^ 19937 - 1) := by
  obtain ⟨s, h1, h2, h3⟩ := C61_MT64_Seed_alive x g
  exact ⟨s, h1, C95_MT64 s h2 h3⟩

end Crazy
