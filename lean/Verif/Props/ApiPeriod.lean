/-
C80: the integers and the uniform floats over a whole period.
-/
import Verif.Spec.Calls
import Verif.Props.RngInts
import Verif.Props.Uniform
import Verif.Props.Period
import Verif.Props.Period2
import Verif.Props.MtEqui
set_option exponentiation.threshold 2200
namespace Crazy

section
variable {σ : Type}

theorem nth_pure {α : Type} {call : σ → Go (α × σ)} {val : σ → α} {step : σ → σ} (h : ∀ s, call s = .ok (val s, step s))
    (n : Nat) (s : σ) (v : α) : Nth call n s v ↔ val (step^[n] s) = v := by
  induction n generalizing s with
  | zero =>
    constructor
    · rintro ⟨t, ht⟩
      rw [h, Except.ok.injEq, Prod.mk.injEq] at ht
      exact ht.1
    · rintro rfl
      exact ⟨_, h s⟩
  | succ n ih =>
    rw [Function.iterate_succ_apply, ← ih]
    constructor
    · rintro ⟨w, t, h1, h2⟩
      rw [h, Except.ok.injEq, Prod.mk.injEq] at h1
      rw [h1.2]
      exact h2
    · intro h1
      exact ⟨_, _, h s, h1⟩

theorem times_pure {α : Type} {call : σ → Go (α × σ)} {val : σ → α} {step : σ → σ} (h : ∀ s, call s = .ok (val s, step s))
    (s : σ) (P : Nat) (A : α → Prop) : timesReturned call s P A = Nat.card {n : Nat // n < P ∧ A (val (step^[n] s))} := by
  unfold timesReturned
  simp only [nth_pure h, exists_eq_left']

/-- How many words have the given low bits. -/
theorem card_low (k m : Nat) (hk : k ≤ 64) (hm : m < 2 ^ k) : Nat.card {w : U64 // w.toNat % 2 ^ k = m} = 2 ^ (64 - k) := by
  obtain ⟨N, hN⟩ : ∃ N, N = 2 ^ 64 := ⟨_, rfl⟩
  have := countWords_eq N hN (fun w => w % 2 ^ k = m)
  unfold countWords at this
  rw [this, hN, show 2 ^ 64 = 2 ^ k * 2 ^ (64 - k) by rw [← pow_add]; congr 1; omega, count_mod _ _ _ hm]

/-- From the counts of words those of their low bits. -/
theorem card_seq_low (o : Nat → U64) (P C : Nat) (hC : 0 < C)
    (h : ∀ w, Nat.card {n : Nat // n < P ∧ o n = w} = if w = 0#64 then C - 1 else C) (k m : Nat) (hk : k ≤ 64) (hm : m < 2 ^ k) :
    Nat.card {n : Nat // n < P ∧ (o n).toNat % 2 ^ k = m} = if m = 0 then 2 ^ (64 - k) * C - 1 else 2 ^ (64 - k) * C := by
  classical
  have e : {n : Nat // n < P ∧ (o n).toNat % 2 ^ k = m} ≃ (Σ w : {w : U64 // w.toNat % 2 ^ k = m}, {n : Nat // n < P ∧ o n = w.1}) :=
    ⟨fun n => ⟨⟨o n.1, n.2.2⟩, ⟨n.1, n.2.1, rfl⟩⟩, fun q => ⟨q.2.1, q.2.2.1, by rw [q.2.2.2]; exact q.1.2⟩, fun n => rfl,
      by
        rintro ⟨⟨w, hw⟩, ⟨n, hn, e⟩⟩
        have e' : w = o n := e.symm
        subst e'
        rfl⟩
  have hf : ∀ w, Finite {n : Nat // n < P ∧ o n = w} := fun w => Set.Finite.subset (Set.finite_lt_nat P) fun n hn => hn.1
  have : Fintype {w : U64 // w.toNat % 2 ^ k = m} := Fintype.ofFinite _
  rw [Nat.card_congr e, Nat.card_sigma]
  have h2 := card_low k m hk hm
  rw [Nat.card_eq_fintype_card] at h2
  simp only [h]
  by_cases h0 : m = 0
  · subst h0
    rw [if_pos rfl]
    have hz : (0#64).toNat % 2 ^ k = 0 := by rw [BitVec.toNat_ofNat, Nat.zero_mod]
    rw [← Finset.add_sum_erase _ _ (Finset.mem_univ (⟨0#64, hz⟩ : {w : U64 // w.toNat % 2 ^ k = 0})), if_pos rfl,
      Finset.sum_congr rfl (g := fun _ => C) (fun w hw => if_neg fun e => (Finset.mem_erase.1 hw).1 (Subtype.ext e)),
      Finset.sum_const, Finset.card_erase_of_mem (Finset.mem_univ _), Finset.card_univ, h2, smul_eq_mul, Nat.sub_mul, Nat.one_mul]
    have : C ≤ 2 ^ (64 - k) * C := Nat.le_mul_of_pos_left _ (Nat.two_pow_pos _)
    omega
  · rw [if_neg h0, Finset.sum_congr rfl (g := fun _ => C) (fun w _ => if_neg fun e => h0 (by
      have := w.2
      rw [e, BitVec.toNat_ofNat, Nat.zero_mod] at this
      exact this.symm)), Finset.sum_const, Finset.card_univ, h2, smul_eq_mul]

/-- `Read` of `k` bytes gives the low bytes of the next output. -/
def ReadsOut (src : Source σ) (out : σ → U64) (step : σ → σ) (k : Nat) : Prop :=
  ∀ s, src.read (zeros k) s = .ok (⟨(le64 (out s)).take k, k, none⟩, step s)

/-- Words whose counts over `2^N - 1` steps are even. -/
def EvenWords (out : σ → U64) (step : σ → σ) (s : σ) (N : Nat) : Prop :=
  ∀ w, Nat.card {n : Nat // n < 2 ^ N - 1 ∧ out (step^[n] s) = w} = if w = 0#64 then 2 ^ (N - 64) - 1 else 2 ^ (N - 64)

theorem EvenWords.low {out : σ → U64} {step : σ → σ} {s : σ} {N : Nat} (h : EvenWords out step s N) (hN : 64 ≤ N) (k m : Nat)
    (hk : k ≤ 64) (hm : m < 2 ^ k) : Nat.card {n : Nat // n < 2 ^ N - 1 ∧ (out (step^[n] s)).toNat % 2 ^ k = m} =
      if m = 0 then 2 ^ (N - k) - 1 else 2 ^ (N - k) := by
  have e : 2 ^ (64 - k) * 2 ^ (N - 64) = 2 ^ (N - k) := by rw [← pow_add]; congr 1; omega
  rw [card_seq_low (fun n => out (step^[n] s)) _ (2 ^ (N - 64)) (Nat.two_pow_pos _) h k m hk hm, e]

theorem evenOverPeriod_of (src : Source σ) (s : σ) (N : Nat) (hN : 64 ≤ N) (out : σ → U64) (step1 step2 : σ → σ)
    (h8 : ReadsOut src out step2 8) (h7 : ReadsOut src out step1 7) (h4 : ReadsOut src out step1 4) (h2 : ReadsOut src out step1 2)
    (e1 : EvenWords out step1 s N) (e2 : EvenWords out step2 s N) : EvenOverPeriod src s N := by
  have le : ∀ (x : U64) k, k ≤ 8 → leNat ((le64 x).take k) = x.toNat % 2 ^ (8 * k) := fun x k hk => by
    rw [leNat_take_le64 _ _ hk, Nat.pow_mul]
  have c64 : ∀ s, RNG.uint64 src s = .ok (out s, step2 s) := fun s => by
    rw [RNG.uint64_eq, h8 s]
    simp only [Except.map]
    rw [le _ 8 (by decide), Nat.mod_eq_of_lt (out s).isLt, BitVec.ofNat_toNat, BitVec.setWidth_eq]
  have c32 : ∀ s, RNG.uint32 src s = .ok (BitVec.ofNat 32 ((out s).toNat % 2 ^ 32), step1 s) := fun s => by
    rw [RNG.uint32_eq, h4 s]
    simp only [Except.map]
    rw [le _ 4 (by decide)]
  have c16 : ∀ s, RNG.uint16 src s = .ok (BitVec.ofNat 16 ((out s).toNat % 2 ^ 16), step1 s) := fun s => by
    rw [RNG.uint16_eq, h2 s]
    simp only [Except.map]
    rw [le _ 2 (by decide)]
  have c12 : ∀ s, uniform12 src s = .ok (.fin false ((2 ^ 52 + (out s).toNat % 2 ^ 52) * 2 ^ 1022), step1 s) := fun s => by
    rw [uniform12_eq src s _ _ (h7 s), le _ 7 (by decide), Nat.mod_mod_of_dvd _ (pow_dvd_pow 2 (by decide))]
  have c01 : ∀ s, uniform01 src s = .ok (.fin false ((out s).toNat % 2 ^ 53 * 2 ^ 1021), step2 s) := fun s => by
    rw [uniform01_eq src s _ _ (h8 s), le _ 8 (by decide), Nat.mod_eq_of_lt (b := 2 ^ (8 * 8)) (out s).isLt]
  refine ⟨fun v => ?_, fun v => ?_, fun v => ?_, fun m hm => ?_, fun m hm => ?_⟩
  · rw [times_pure c64]
    exact e2 v
  · rw [times_pure c32]
    have e : ∀ x : U64, (BitVec.ofNat 32 (x.toNat % 2 ^ 32) = v) ↔ x.toNat % 2 ^ 32 = v.toNat := fun x => by
      rw [← BitVec.toNat_inj, BitVec.toNat_ofNat, Nat.mod_mod]
    simp only [e]
    rw [e1.low hN 32 v.toNat (by decide) v.isLt]
    exact if_congr (by rw [← BitVec.toNat_inj]; rfl) rfl rfl
  · rw [times_pure c16]
    have e : ∀ x : U64, (BitVec.ofNat 16 (x.toNat % 2 ^ 16) = v) ↔ x.toNat % 2 ^ 16 = v.toNat := fun x => by
      rw [← BitVec.toNat_inj, BitVec.toNat_ofNat, Nat.mod_mod]
    simp only [e]
    rw [e1.low hN 16 v.toNat (by decide) v.isLt]
    exact if_congr (by rw [← BitVec.toNat_inj]; rfl) rfl rfl
  · rw [times_pure c12]
    have e : ∀ x : U64, ((F64.fin false ((2 ^ 52 + x.toNat % 2 ^ 52) * 2 ^ 1022)).IsFin ∧
        (F64.fin false ((2 ^ 52 + x.toNat % 2 ^ 52) * 2 ^ 1022)).val = 1 + (m : ℚ) / 2 ^ 52) ↔ x.toNat % 2 ^ 52 = m := fun x => by
      rw [val_scaled _ 1022 52 rfl, Nat.cast_add, add_div, Nat.cast_pow, Nat.cast_ofNat, div_self (by positivity), add_right_inj,
        div_left_inj' (by positivity), Nat.cast_inj]
      exact ⟨fun h => h.2, fun h => ⟨trivial, h⟩⟩
    simp only [e]
    exact e1.low hN 52 m (by decide) hm
  · rw [times_pure c01]
    have e : ∀ x : U64, ((F64.fin false (x.toNat % 2 ^ 53 * 2 ^ 1021)).IsFin ∧
        (F64.fin false (x.toNat % 2 ^ 53 * 2 ^ 1021)).val = (m : ℚ) / 2 ^ 53) ↔ x.toNat % 2 ^ 53 = m := fun x => by
      rw [val_scaled _ 1021 53 rfl, div_left_inj' (by positivity), Nat.cast_inj]
      exact ⟨fun h => h.2, fun h => ⟨trivial, h⟩⟩
    simp only [e]
    exact e2.low hN 53 m (by decide) hm

end

/-- Two steps at a time are one cycle too, if it is odd. -/
theorem FullCycle.twice {σ : Type} {step : σ → σ} {z : σ} {N : Nat} (h : FullCycle step z N) (ho : Odd N) :
    FullCycle (fun s => step (step s)) z N where
  finite := h.finite
  pos := h.pos
  card := h.card
  nz s hs := h.nz _ (h.nz s hs)
  period s hs n := by
    have e : (fun s => step (step s)) = step^[2] := rfl
    rw [e, ← Function.iterate_mul, h.period s hs, Nat.Coprime.dvd_mul_left]
    exact Nat.coprime_two_right.2 ho


/-- The elements other than `z` with a given first component. -/
theorem card_first {σ τ : Type} [Finite τ] (e : σ ≃ U64 × τ) (z : σ) (z' : τ) (hz : e z = (0#64, z')) (v : U64) :
    Nat.card {t : σ // t ≠ z ∧ (e t).1 = v} = if v = 0#64 then Nat.card τ - 1 else Nat.card τ := by
  classical
  have e1 : {t : σ // t ≠ z ∧ (e t).1 = v} ≃ {q : τ // (v, q) ≠ (0#64, z')} := by
    refine (e.subtypeEquiv (q := fun r => r ≠ (0#64, z') ∧ r.1 = v) fun t => ?_).trans
      ⟨fun r => ⟨r.1.2, fun h => r.2.1 ((Prod.ext r.2.2 rfl : r.1 = (v, r.1.2)).trans h)⟩, fun q => ⟨(v, q.1), q.2, rfl⟩, ?_, fun q => rfl⟩
    · refine and_congr (not_congr ?_) Iff.rfl
      rw [← hz, e.apply_eq_iff_eq]
    · rintro ⟨⟨a, q⟩, h1, rfl⟩
      rfl
  rw [Nat.card_congr e1]
  split
  · rename_i h
    subst h
    have e2 : {q : τ // (0#64, q) ≠ (0#64, z')} ≃ {q : τ // q ≠ z'} :=
      Equiv.subtypeEquivRight fun q => not_congr ⟨fun h => (Prod.mk.inj h).2, fun h => by rw [h]⟩
    have h1 := Nat.card_congr (Equiv.optionSubtypeNe z')
    rw [Finite.card_option] at h1
    rw [Nat.card_congr e2]
    omega
  · rename_i h
    exact Nat.card_congr (Equiv.subtypeUnivEquiv fun q hq => h (Prod.mk.inj hq).1)

namespace Xoshiro

theorem card_out (v : U64) : Nat.card {t : Xoshiro // t ≠ ⟨0#64, 0#64, 0#64, 0#64⟩ ∧ t.out = v} =
    if v = 0#64 then 2 ^ 192 - 1 else 2 ^ 192 := by
  have hc : Nat.card (U64 × U64 × U64) = 2 ^ 192 := by
    rw [Nat.card_prod, Nat.card_prod, card_U64, ← Nat.pow_add, ← Nat.pow_add]
  rw [← hc]
  exact card_first (Equiv.ofBijective outs outs_bij) _ _ outs_zero v

theorem readsOut (k : Nat) (hk : k ≤ 8) : ReadsOut source out step k := fun s => by
  have : source.read (zeros k) s = (do let (q, g) ← readGt uint64 (zeros k) s; return (⟨q, (zeros k).length, none⟩, g)) := rfl
  rw [this, readGt_small _ k hk, uint64_pure, zeros_length]
  rfl

end Xoshiro

namespace Rexoroshiro

theorem readsOut (k : Nat) (hk : k ≤ 8) :
    ReadsOut source (fun g => reverseBytes64 g.xoro.out) (fun g => ⟨g.xoro.step⟩) k := fun s => by
  have : source.read (zeros k) s = (do let (q, g) ← readGt uint64 (zeros k) s; return (⟨q, (zeros k).length, none⟩, g)) := rfl
  rw [this, readGt_small _ k hk, uint64_pure, zeros_length]
  rfl

end Rexoroshiro

namespace Xoroshiro

theorem readsOut (k : Nat) (hk : k < 8) : ReadsOut source out step k := fun s => by
  have h := draws_pure uint64_pure 1 s
  show Xoroshiro.read (zeros k) s = _
  rw [Xoroshiro.read, xoroReadBytes_eq, zeros_length, show k / 8 + 1 = 1 by omega, h]
  show Except.ok (ReadRes.mk ((bytesOf [s.out]).take k) k none, s.step) = _
  rw [bytesOf_one]

theorem readsOut8 : ReadsOut source out (fun g => g.step.step) 8 := fun s => by
  have h := draws_pure uint64_pure 2 s
  show Xoroshiro.read (zeros 8) s = _
  rw [Xoroshiro.read, xoroReadBytes_eq, zeros_length, show 8 / 8 + 1 = 2 by decide, h]
  show Except.ok (ReadRes.mk ((bytesOf ([s.out] ++ [s.step.out])).take 8) 8 none, s.step.step) = _
  rw [bytesOf_append, bytesOf_one, List.take_append_of_le_length (by rw [le64_length])]
  rfl

theorem odd_period : Odd (2 ^ 128 - 1) := by decide

end Xoroshiro

/-- C80: Xoshiro. -/
theorem C80_Xoshiro (g : Xoshiro) (hg : g ≠ ⟨0#64, 0#64, 0#64, 0#64⟩) : EvenOverPeriod Xoshiro.source g 256 := by
  have h : EvenWords Xoshiro.out Xoshiro.step g 256 := fun w => by
    rw [Xoshiro.cycle.card_visits hg (fun s => s.out = w), Xoshiro.card_out]
  exact evenOverPeriod_of _ _ _ (by decide) Xoshiro.out Xoshiro.step Xoshiro.step (Xoshiro.readsOut 8 (by decide))
    (Xoshiro.readsOut 7 (by decide)) (Xoshiro.readsOut 4 (by decide)) (Xoshiro.readsOut 2 (by decide)) h h

/-- C80: Xoroshiro, although eight-byte reads take two outputs: the period is odd. -/
theorem C80_Xoroshiro (g : Xoroshiro) (hg : g ≠ ⟨0#64, 0#64⟩) : EvenOverPeriod Xoroshiro.source g 128 := by
  refine evenOverPeriod_of _ _ _ (by decide) Xoroshiro.out Xoroshiro.step (fun g => g.step.step) Xoroshiro.readsOut8
    (Xoroshiro.readsOut 7 (by decide)) (Xoroshiro.readsOut 4 (by decide)) (Xoroshiro.readsOut 2 (by decide)) (fun w => ?_) (fun w => ?_)
  · rw [Xoroshiro.cycle.card_visits hg (fun s => s.out = w), Xoroshiro.card_out_nz]
  · rw [(Xoroshiro.cycle.twice Xoroshiro.odd_period).card_visits hg (fun s => s.out = w), Xoroshiro.card_out_nz]

/-- C80: Rexoroshiro. -/
theorem C80_Rexoroshiro (g : Rexoroshiro) (hg : g ≠ ⟨⟨0#64, 0#64⟩⟩) : EvenOverPeriod Rexoroshiro.source g 128 := by
  have h : EvenWords (fun g : Rexoroshiro => reverseBytes64 g.xoro.out) (fun g => ⟨g.xoro.step⟩) g 128 := fun w => by
    have := C49_Rexoroshiro_equidistributed g hg w
    simp only [emits_one Rexoroshiro.uint64_pure] at this
    exact this
  exact evenOverPeriod_of _ _ _ (by decide) _ _ _ (Rexoroshiro.readsOut 8 (by decide)) (Rexoroshiro.readsOut 7 (by decide))
    (Rexoroshiro.readsOut 4 (by decide)) (Rexoroshiro.readsOut 2 (by decide)) h h

namespace MT64

theorem readsOut (k : Nat) (hk : k ≤ 8) : ReadsOut source (fun g => temper (seq g.s g.pos)) next k := fun s => by
  have : source.read (zeros k) s = (do let (q, g) ← readGt uint64 (zeros k) s; return (⟨q, (zeros k).length, none⟩, g)) := rfl
  rw [this, readGt_small _ k hk, zeros_length, uint64_eq]
  rfl

/-- The first word of the live part, and the rest. -/
def split (e : Eff) : U64 × (BitVec 33 × (Fin 310 → U64)) := (e.2 0, (e.1, fun i => e.2 i.succ))

def splitEquiv : Eff ≃ U64 × (BitVec 33 × (Fin 310 → U64)) where
  toFun := split
  invFun q := (q.2.1, Fin.cons q.1 q.2.2)
  left_inv e := Prod.ext rfl (funext fun i => by
    cases i using Fin.cases <;> rfl)
  right_inv q := rfl

theorem card_rest : Nat.card (BitVec 33 × (Fin 310 → U64)) = 2 ^ (19937 - 64) := by
  rw [Nat.card_prod, Nat.card_fun, card_U64, card_33, Nat.card_fin, ← Nat.pow_mul, ← Nat.pow_add]

theorem evenWords (g : MT64) (hg : g.Alive) (hi : g.Begun) : EvenWords (fun g => temper (seq g.s g.pos)) next g 19937 := fun w => by
  obtain ⟨p, hp⟩ : ∃ p, p + 1 = 2 ^ 19937 := ⟨2 ^ 19937 - 1, Nat.sub_add_cancel Nat.one_le_two_pow⟩
  have hpos := pos_of_begun hi
  have h1 : ∀ n, temper (seq (next^[n] g).s (next^[n] g).pos) = temper ((estep^[n] (effOf g.s (g.pos - 1))).2 0) := fun n => by
    refine ((Crazy.emits_one uint64_eq g n _).1 ((MT64.emits_one g n _).2 ?_))
    rw [iter_effOf]
    show temper (seq g.s (g.pos + n)) = temper (seq g.s (g.pos - 1 + n + 1 + 0))
    rw [show g.pos - 1 + n + 1 + 0 = g.pos + n by omega]
  obtain ⟨u, rfl⟩ := temper_surj w
  have h2 : ∀ x, temper x = temper u ↔ x = u := fun x => ⟨fun h => temper_inj h, fun h => by rw [h]⟩
  have h3 : temper u = 0#64 ↔ u = 0#64 := ⟨fun h => temper_inj (h.trans temper_zero.symm), fun h => by rw [h, temper_zero]⟩
  rw [pred_eq 19937 p hp]
  simp only [h1, h2, h3]
  rw [(eff_cycle p hp).card_visits (eff_ne_zero g hg p _ hp) (fun t => t.2 0 = u), ← card_rest]
  exact card_first splitEquiv 0 (0, 0) rfl u

end MT64

/-- C80: MT64, in the states of C61. -/
theorem C80_MT64 (g : MT64) (hg : g.Alive) (hi : g.Begun) : EvenOverPeriod MT64.source g 19937 :=
  have h := MT64.evenWords g hg hi
  evenOverPeriod_of _ _ _ (by decide) _ _ _ (MT64.readsOut 8 (by decide)) (MT64.readsOut 7 (by decide))
    (MT64.readsOut 4 (by decide)) (MT64.readsOut 2 (by decide)) h h

/-- Non-vacuity: there are such states, for instance after any `Seed`. -/
example : EvenOverPeriod Xoshiro.source ⟨1, 2, 3, 4⟩ 256 := C80_Xoshiro _ (by decide)
example (x : U64) (g : MT64) : ∃ s, g.seed x = .ok s ∧ EvenOverPeriod MT64.source s 19937 := by
  obtain ⟨s, h1, h2, h3⟩ := C61_MT64_Seed_alive x g
  exact ⟨s, h1, C80_MT64 s h2 h3⟩

end Crazy
