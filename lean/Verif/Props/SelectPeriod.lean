/-
C102: the period of every method and every bit of three generators composed with SelectCompose.
-/
import Verif.Spec.Select
import Verif.Props.XorMethods
set_option exponentiation.threshold 2200
namespace Crazy

/-! ### Periods of a selected sequence -/

/-- A switch whose period has no factor in common with those of the two sequences it selects from. -/
theorem select_period (c a b : Nat → Bool) (N P Q R : Nat) (hm : Merge P Q R) (hN : Nat.Coprime N (P * Q)) (hN1 : N ≠ 1) (hPQ : P ≠ Q)
    (hc : ∀ k, (∀ n, c (n + k) = c n) ↔ N ∣ k) (ha : ∀ k, (∀ n, a (n + k) = a n) ↔ P ∣ k) (hb : ∀ k, (∀ n, b (n + k) = b n) ↔ Q ∣ k) (k : Nat) :
    (∀ n, (if c (n + k) then b (n + k) else a (n + k)) = if c n then b n else a n) ↔ N * R ∣ k := by
  have crt : ∀ (M : Nat) (_ : Nat.Coprime N M) (i j : Nat), ∃ m, m ≡ i [MOD N] ∧ m ≡ j [MOD M] := fun M h i j =>
    ⟨(Nat.chineseRemainder h i j).1, (Nat.chineseRemainder h i j).2⟩
  have md : ∀ (f : Nat → Bool) (M : Nat), (∀ n, f (n + M) = f n) → ∀ i j, i ≡ j [MOD M] → f i = f j := by
    intro f M h i j hij
    have : ∀ n, f (n % M) = f n := fun n => by
      have := per_mul h (n / M) (n % M)
      rw [Nat.mod_add_div] at this
      exact this.symm
    rw [← this i, ← this j, show i % M = j % M from hij]
  have mc := md c N ((hc _).mpr (Nat.dvd_refl _))
  have ma := md a P ((ha _).mpr (Nat.dvd_refl _))
  have mb := md b Q ((hb _).mpr (Nat.dvd_refl _))
  constructor
  · intro h
    have hk : ∀ T, k ∣ T → ∀ n, (if c (n + T) then b (n + T) else a (n + T)) = if c n then b n else a n := fun T hT n =>
      per_dvd (a := fun n => if c n then b n else a n) h hT n
    -- somewhere the two sequences differ
    have hd : ∃ n0, a n0 ≠ b n0 := by
      by_contra hn
      have e : a = b := funext fun n => by
        by_contra h
        exact hn ⟨n, h⟩
      exact hPQ (Nat.dvd_antisymm ((ha _).mp (e ▸ (hb _).mpr (Nat.dvd_refl _))) ((hb _).mp (e ▸ (ha _).mpr (Nat.dvd_refl _))))
    -- the switch takes both values
    have hs : ∀ v, ∃ n1, c n1 = v := by
      intro v
      by_contra hn
      have e : ∀ n, c n = !v := fun n => by
        cases h : c n <;> cases v <;> first | rfl | exact absurd ⟨n, h⟩ hn
      exact hN1 (Nat.dvd_one.mp ((hc 1).mp fun n => by rw [e, e]))
    have hNk : N ∣ k := by
      obtain ⟨n0, h0⟩ := hd
      refine hN.dvd_of_dvd_mul_right ((hc (k * (P * Q))).mp fun n => ?_)
      obtain ⟨m, m1, m2⟩ := crt (P * Q) hN n n0
      have e1 := hk _ (Nat.dvd_mul_right k (P * Q)) m
      rw [(ha _).mpr ((Nat.dvd_mul_right P Q).trans (Nat.dvd_mul_left _ k)) m, (hb _).mpr ((Nat.dvd_mul_left Q P).trans (Nat.dvd_mul_left _ k)) m,
        ma m n0 (m2.of_mul_right Q), mb m n0 (m2.of_mul_left P), mc m n m1, mc (m + _) (n + _) (m1.add_right _)] at e1
      revert e1 h0
      cases a n0 <;> cases b n0 <;> cases c n <;> cases c (n + k * (P * Q)) <;> simp
    have hP : P ∣ Nat.lcm k Q := (ha _).mp fun n => by
      obtain ⟨n1, h1⟩ := hs false
      obtain ⟨m, m1, m2⟩ := crt P (Nat.Coprime.coprime_mul_right_right hN) n1 n
      have e1 := hk _ (Nat.dvd_lcm_left k Q) m
      rw [(hc _).mpr (hNk.trans (Nat.dvd_lcm_left k Q)) m, mc m n1 m1, h1, ma m n m2, ma (m + _) (n + _) (m2.add_right _)] at e1
      simpa using e1
    have hQ : Q ∣ Nat.lcm k P := (hb _).mp fun n => by
      obtain ⟨n1, h1⟩ := hs true
      obtain ⟨m, m1, m2⟩ := crt Q (Nat.Coprime.coprime_mul_left_right hN) n1 n
      have e1 := hk _ (Nat.dvd_lcm_left k P) m
      rw [(hc _).mpr (hNk.trans (Nat.dvd_lcm_left k P)) m, mc m n1 m1, h1, mb m n m2, mb (m + _) (n + _) (m2.add_right _)] at e1
      simpa using e1
    have hR : R ∣ P * Q := hm.least _ ((Nat.dvd_mul_right P Q).trans (Nat.dvd_lcm_left _ _)) ((Nat.dvd_mul_left Q P).trans (Nat.dvd_lcm_left _ _))
    exact (hN.coprime_dvd_right hR).mul_dvd_of_dvd_of_dvd hNk (hm.least k hP hQ)
  · intro h n
    have hR : R ∣ k := (Nat.dvd_mul_left R N).trans h
    rw [(hc k).mpr ((Nat.dvd_mul_right N R).trans h), (ha k).mpr (hm.left.trans hR), (hb k).mpr (hm.right.trans hR)]

/-! ### The bits of the reads -/

theorem leNat_testBit (l : List Byte) (i : Nat) : (leNat l).testBit i = (l[i / 8]?.getD 0#8).getLsbD (i % 8) := by
  induction l generalizing i with
  | nil => simp [leNat]
  | cons x l ih =>
    show (x.toNat + 256 * leNat l).testBit i = _
    rw [Nat.add_comm, show (256 : Nat) = 2 ^ 8 from rfl, Nat.testBit_two_pow_mul_add _ x.isLt]
    by_cases h : i < 8
    · rw [if_pos h, Nat.div_eq_of_lt h, Nat.mod_eq_of_lt h, List.getElem?_cons_zero]
      rfl
    · rw [if_neg h, ih, show i / 8 = (i - 8) / 8 + 1 by omega, List.getElem?_cons_succ, show i % 8 = (i - 8) % 8 by omega]

section
variable {σ τ υ : Type}

theorem RunOf.select {k : Nat} {S : Source σ} {A : Source τ} {B : Source υ} {r : σ} {s : τ} {t : υ} {c a b : Nat → List Byte}
    (hc : RunOf k S r c) (ha : RunOf k A s a) (hb : RunOf k B t b) : ∃ o, RunOf k (S.select A B) (r, s, t) o ∧
      ∀ n, ∀ i < 8 * k, (leNat (o n)).testBit i = if (leNat (c n)).testBit i then (leNat (b n)).testBit i else (leNat (a n)).testBit i := by
  obtain ⟨sc, rfl, hc⟩ := hc
  obtain ⟨sa, rfl, ha⟩ := ha
  obtain ⟨sb, rfl, hb⟩ := hb
  have key : ∀ n, ∃ o, (S.select A B).read (zeros k) (sc n, sa n, sb n) = .ok (⟨o, k, none⟩, (sc (n + 1), sa (n + 1), sb (n + 1))) ∧
      ∀ i < 8 * k, (leNat o).testBit i = if (leNat (c n)).testBit i then (leNat (b n)).testBit i else (leNat (a n)).testBit i := by
    intro n
    have e1 : (S.left (τ := τ × υ)).read (List.replicate (zeros k).length 0#8) (sc n, sa n, sb n) = .ok (⟨c n, k, none⟩, (sc (n + 1), sa n, sb n)) := by
      rw [zeros_length]
      show ((S.read (zeros k) (sc n)).map _) = _
      rw [hc]; rfl
    have e2 : ((A.left (τ := υ)).right (σ := σ)).read (zeros k) (sc (n + 1), sa n, sb n) = .ok (⟨a n, k, none⟩, (sc (n + 1), sa (n + 1), sb n)) := by
      simp only [Source.left, Source.right, ha, Except.map]
    have e3 : ((B.right (σ := τ)).right (σ := σ)).read (List.replicate (zeros k).length 0#8) (sc (n + 1), sa (n + 1), sb n) =
        .ok (⟨b n, k, none⟩, (sc (n + 1), sa (n + 1), sb (n + 1))) := by
      rw [zeros_length]
      have : List.replicate k 0#8 = zeros k := rfl
      rw [this]
      simp only [Source.right, hb, Except.map]
    obtain ⟨q, h1, h2, h3⟩ := (C20_selectCompose _ _ _ (zeros k) (sc n, sa n, sb n)).1 _ _ _ _ _ _ e1 e2 e3
    rw [zeros_length] at h1 h3
    refine ⟨q, h1, fun i hi => ?_⟩
    obtain ⟨x, y, z, w, g1, g2, g3, g4, g5⟩ := h3 (i / 8) (by omega)
    simp only [leNat_testBit]
    dsimp only at g1 g2 g3
    rw [g1, g2, g3, g4]
    exact g5 (i % 8) (Nat.mod_lt _ (by decide))
  choose o h1 h2 using key
  exact ⟨o, ⟨fun n => (sc n, sa n, sb n), rfl, h1⟩, h2⟩

theorem BitRun.select {S : Source σ} {A : Source τ} {B : Source υ} {r : σ} {s : τ} {t : υ} {N P Q R : Nat → Nat} (hc : BitRun S r N)
    (ha : BitRun A s P) (hb : BitRun B t Q) (hm : ∀ i < 64, Merge (P i) (Q i) (R i)) (hN : ∀ i < 64, Nat.Coprime (N i) (P i * Q i))
    (hN1 : ∀ i < 64, N i ≠ 1) (hPQ : ∀ i < 64, P i ≠ Q i) : BitRun (S.select A B) (r, s, t) fun i => N i * R i := by
  intro k hk
  obtain ⟨c, rc, hc⟩ := hc k hk
  obtain ⟨a, ra, ha⟩ := ha k hk
  obtain ⟨b, rb, hb⟩ := hb k hk
  obtain ⟨o, ro, ho⟩ := rc.select ra rb
  refine ⟨o, ro, fun i hi T => ?_⟩
  have h64 : i < 64 := by omega
  rw [← select_period (fun n => (leNat (c n)).testBit i) (fun n => (leNat (a n)).testBit i) (fun n => (leNat (b n)).testBit i) _ _ _ _
    (hm i h64) (hN i h64) (hN1 i h64) (hPQ i h64) (hc i hi) (ha i hi) (hb i hi) T]
  exact forall_congr' fun n => by rw [ho _ i hi, ho _ i hi]

/-- A method that reads `k` bytes and keeps the `m` lowest bits of them. -/
theorem BitRun.call {α : Type} {src : Source σ} {s : σ} {P : Nat → Nat} (h : BitRun src s P) (k m : Nat) (hk : k ≤ 8) (hm0 : 0 < m) (hm : m ≤ 8 * k)
    (hP : ∀ i < m, P i ∣ P (m - 1)) (F : Nat → α) (hF : ∀ x y, x < 256 ^ k → y < 256 ^ k → (F x = F y ↔ x % 2 ^ m = y % 2 ^ m))
    (call : σ → Go (α × σ)) (hc : ∀ s r s', src.read (zeros k) s = .ok (r, s') → call s = .ok (F (leNat r.buf), s')) (T : Nat) :
    CallPeriod call s T ↔ P (m - 1) ∣ T := by
  obtain ⟨a, ra, ha⟩ := h k hk
  have la : ∀ n, leNat (a n) < 256 ^ k := fun n => (ra.length n) ▸ leNat_lt (a n)
  rw [ra.callPeriod call F hc]
  constructor
  · intro h
    refine (ha (m - 1) (by omega) T).mp fun n => ?_
    have := congrArg (fun x => x.testBit (m - 1)) ((hF _ _ (la _) (la _)).mp (h n))
    simp only [Nat.testBit_mod_two_pow] at this
    simpa [show m - 1 < m by omega] using this
  · intro h n
    refine (hF _ _ (la _) (la _)).mpr (Nat.eq_of_testBit_eq fun i => ?_)
    rw [Nat.testBit_mod_two_pow, Nat.testBit_mod_two_pow]
    by_cases hi : i < m
    · rw [(ha i (by omega) T).mpr ((hP i hi).trans h) n]
    · simp [hi]

theorem BitRun.periods {src : Source σ} {s : σ} {P : Nat → Nat} (h : BitRun src s P) (hP : ∀ i j, i ≤ j → P i ∣ P j) : Periods src s P := by
  have F12 : ∀ x y : Nat, x < 256 ^ 7 → y < 256 ^ 7 →
      ((F64.fin false ((2 ^ 52 + x % 2 ^ 52) * 2 ^ 1022) = F64.fin false ((2 ^ 52 + y % 2 ^ 52) * 2 ^ 1022)) ↔ x % 2 ^ 52 = y % 2 ^ 52) := by
    intro x y _ _
    rw [F64.fin.injEq, eq_self, true_and]
    obtain ⟨c, hc⟩ : ∃ c, 1022 = c := ⟨_, rfl⟩
    rw [hc, Nat.mul_left_inj (Nat.two_pow_pos c).ne', Nat.add_left_cancel_iff]
  have F01 : ∀ x y : Nat, x < 256 ^ 8 → y < 256 ^ 8 →
      ((F64.fin false (x % 2 ^ 53 * 2 ^ 1021) = F64.fin false (y % 2 ^ 53 * 2 ^ 1021)) ↔ x % 2 ^ 53 = y % 2 ^ 53) := by
    intro x y _ _
    rw [F64.fin.injEq, eq_self, true_and]
    obtain ⟨c, hc⟩ : ∃ c, 1021 = c := ⟨_, rfl⟩
    rw [hc, Nat.mul_left_inj (Nat.two_pow_pos c).ne']
  refine
  { bit := fun i hi T => ?_
    uint64 := h.call 8 64 (by decide) (by decide) (by decide) (fun i hi => hP _ _ (by omega)) (BitVec.ofNat 64)
      (fun x y _ _ => by rw [← BitVec.toNat_inj, BitVec.toNat_ofNat, BitVec.toNat_ofNat]) _ (fun s r s' hr => by rw [RNG.uint64_eq, hr]; rfl)
    uint32 := h.call 4 32 (by decide) (by decide) (by decide) (fun i hi => hP _ _ (by omega)) (BitVec.ofNat 32)
      (fun x y _ _ => by rw [← BitVec.toNat_inj, BitVec.toNat_ofNat, BitVec.toNat_ofNat]) _ (fun s r s' hr => by rw [RNG.uint32_eq, hr]; rfl)
    uint16 := h.call 2 16 (by decide) (by decide) (by decide) (fun i hi => hP _ _ (by omega)) (BitVec.ofNat 16)
      (fun x y _ _ => by rw [← BitVec.toNat_inj, BitVec.toNat_ofNat, BitVec.toNat_ofNat]) _ (fun s r s' hr => by rw [RNG.uint16_eq, hr]; rfl)
    uniform1_2 := h.call 7 52 (by decide) (by decide) (by decide) (fun i hi => hP _ _ (by omega))
      (fun x => F64.fin false ((2 ^ 52 + x % 2 ^ 52) * 2 ^ 1022)) F12 _ (fun s r s' hr => uniform12_eq src s s' r hr)
    uniform0_1 := h.call 8 53 (by decide) (by decide) (by decide) (fun i hi => hP _ _ (by omega))
      (fun x => F64.fin false (x % 2 ^ 53 * 2 ^ 1021)) F01 _ (fun s r s' hr => uniform01_eq src s s' r hr) }
  obtain ⟨a, ra, ha⟩ := h 8 (by decide)
  rw [ra.fnPeriod, ← ha i hi T]
  have tb : ∀ x : Nat, (BitVec.ofNat 64 x).getLsbD i = x.testBit i := fun x => by
    rw [BitVec.getLsbD_ofNat, decide_eq_true hi, Bool.true_and]
  exact forall_congr' fun n => by rw [tb, tb]

/-- The reads of a generator that spends one word on each read. -/
theorem bitRun_words {src : Source σ} {s : σ} (w : Nat → U64) (hw : ∀ k ≤ 8, RunOf k src s fun n => (le64 (w n)).take k) {P : Nat → Nat}
    (hp : ∀ b < 64, ∀ k, FnPeriod src (fun w => w.getLsbD b) s k ↔ P b ∣ k) : BitRun src s P := by
  refine fun k hk => ⟨_, hw k hk, fun i hi T => ?_⟩
  have h64 : i < 64 := by omega
  have tb : ∀ (x : U64) (j : Nat), j ≤ 8 → i < 8 * j → (leNat ((le64 x).take j)).testBit i = x.getLsbD i := fun x j hj hij => by
    rw [leNat_take_le64 x j hj, show (256 : Nat) ^ j = 2 ^ (8 * j) by rw [Nat.pow_mul], Nat.testBit_mod_two_pow]
    simp [hij, BitVec.getLsbD]
  rw [← hp i h64, (hw 8 (by decide)).fnPeriod]
  refine forall_congr' fun n => ?_
  rw [tb _ k hk hi, tb _ k hk hi]
  have t2 : ∀ x : U64, (BitVec.ofNat 64 (leNat ((le64 x).take 8))).getLsbD i = x.getLsbD i := fun x => by
    rw [BitVec.getLsbD_ofNat, decide_eq_true h64, Bool.true_and, tb x 8 (by decide) h64]
  rw [t2, t2]

end

theorem bitRun_of {σ : Type} {src : Source σ} {s : σ} {out : σ → U64} {step : σ → σ} (h : ∀ k ≤ 8, ReadsOut src out step k) {P : Nat → Nat}
    (hp : ∀ b < 64, ∀ k, FnPeriod src (fun w => w.getLsbD b) s k ↔ P b ∣ k) : BitRun src s P :=
  bitRun_words (fun n => out (step^[n] s)) (fun k hk => ⟨fun n => step^[n] s, rfl, fun n => by
    beta_reduce
    rw [h k hk, Function.iterate_succ_apply']⟩) hp

theorem MT64.bitRun (g : MT64) (hg : g.Alive) (hi : g.Begun) : BitRun MT64.source g fun _ => 2 ^ 19937 - 1 :=
  bitRun_of MT64.readsOut (C95_MT64 g hg hi).bit

theorem Xoshiro.bitRun (g : Xoshiro) (hg : g ≠ ⟨0#64, 0#64, 0#64, 0#64⟩) : BitRun Xoshiro.source g fun _ => 2 ^ 256 - 1 :=
  bitRun_of Xoshiro.readsOut (C95_Xoshiro g hg).bit

theorem Rexoroshiro.bitRun (g : Rexoroshiro) (hg : g ≠ ⟨⟨0#64, 0#64⟩⟩) : BitRun Rexoroshiro.source g fun _ => 2 ^ 128 - 1 :=
  bitRun_of Rexoroshiro.readsOut (C95_Rexoroshiro g hg).bit

theorem LFG.bitRun (l s : LFG) (iv : List Byte) (hl : iv.length ≤ 273) (h : l.seedIV iv = .ok s) :
    BitRun LFG.source s fun b => (2 ^ 108 - 1) / 65 * (2 ^ 187 - 1) * 2 ^ b :=
  bitRun_words (fun n => (LFG.next^[n] s).seq 607) (fun k hk => ⟨fun n => LFG.next^[n] s, rfl, fun n => by
    have : ∀ n, LFG.Inv (LFG.next^[n] s) := fun n => by
      induction n with
      | zero => exact LFG.inv_of_seedIV h
      | succ n ih => rw [Function.iterate_succ_apply']; exact LFG.inv_next _ ih
    beta_reduce
    rw [LFG.readsOut k hk _ (this n), Function.iterate_succ_apply']⟩) (C96_LFG_seeded l s iv hl h).bit

/-- Xoroshiro spends two words on a read of eight bytes and one on a shorter one. -/
theorem Xoroshiro.bitRun (g : Xoroshiro) (hg : g ≠ ⟨0#64, 0#64⟩) : BitRun Xoroshiro.source g fun _ => 2 ^ 128 - 1 := by
  have tb : ∀ (x : U64) (j i : Nat), j ≤ 8 → i < 8 * j → (leNat ((le64 x).take j)).testBit i = x.getLsbD i := fun x j i hj hij => by
    rw [leNat_take_le64 x j hj, show (256 : Nat) ^ j = 2 ^ (8 * j) by rw [Nat.pow_mul], Nat.testBit_mod_two_pow]
    simp [hij, BitVec.getLsbD]
  have e2 : ∀ n, (fun s : Xoroshiro => s.step.step)^[n] g = Xoroshiro.step^[2 * n] g := fun n => by
    rw [Function.iterate_mul]
    rfl
  have r8 : RunOf 8 Xoroshiro.source g fun n => (le64 (Xoroshiro.step^[2 * n] g).out).take 8 :=
    ⟨fun n => Xoroshiro.step^[2 * n] g, rfl, fun n => by
      beta_reduce
      rw [Xoroshiro.readsOut8, ← e2, ← e2, Function.iterate_succ_apply']⟩
  have h8 : ∀ i < 64, ∀ T, (∀ n, (Xoroshiro.step^[2 * (n + T)] g).out.getLsbD i = (Xoroshiro.step^[2 * n] g).out.getLsbD i) ↔ 2 ^ 128 - 1 ∣ T := by
    intro i hi T
    have t2 : ∀ x : U64, (BitVec.ofNat 64 (leNat ((le64 x).take 8))).getLsbD i = x.getLsbD i := fun x => by
      rw [BitVec.getLsbD_ofNat, decide_eq_true hi, Bool.true_and, tb x 8 i (by decide) hi]
    have := (C95_Xoroshiro g hg).bit i hi T
    rw [r8.fnPeriod] at this
    simpa only [t2] using this
  intro k hk
  by_cases h : k < 8
  · refine ⟨fun n => (le64 (Xoroshiro.step^[n] g).out).take k, ⟨fun n => Xoroshiro.step^[n] g, rfl, fun n => ?_⟩, fun i hi T => ?_⟩
    · beta_reduce
      rw [Xoroshiro.readsOut k h, Function.iterate_succ_apply']
    · have h64 : i < 64 := by omega
      simp only [tb _ k i hk hi]
      constructor
      · intro h
        refine (h8 i h64 T).mp fun n => ?_
        have := per_mul (a := fun n => (Xoroshiro.step^[n] g).out.getLsbD i) h 2 (2 * n)
        rwa [show 2 * n + T * 2 = 2 * (n + T) by omega] at this
      · intro h n
        rw [(Xoroshiro.output_period g hg T).mpr h n]
  · obtain rfl : k = 8 := by omega
    refine ⟨_, r8, fun i hi T => ?_⟩
    rw [← h8 i hi T]
    simp only [tb _ 8 i hk hi]

/-! ### C102 -/

/-- C102: whatever three sources are composed, if they never fail and the period of each bit of the switch `S` has no factor in common with
those of the same bit of `A` and `B`, each bit, and so each method, of the composition has the product of the period of `S` with the least
common multiple of those of `A` and `B`, provided these have no factor in common either and are not equal. -/
theorem C102_coprime {σ τ υ : Type} (S : Source σ) (A : Source τ) (B : Source υ) (r : σ) (s : τ) (t : υ) (N P Q : Nat → Nat) (hS : BitRun S r N)
    (hA : BitRun A s P) (hB : BitRun B t Q) (hm : ∀ i < 64, Nat.Coprime (P i) (Q i)) (hN : ∀ i < 64, Nat.Coprime (N i) (P i * Q i))
    (hN1 : ∀ i < 64, N i ≠ 1) (hPQ : ∀ i < 64, P i ≠ Q i) (mono : ∀ i j, i ≤ j → N i * (P i * Q i) ∣ N j * (P j * Q j)) :
    Periods (S.select A B) (r, s, t) fun i => N i * (P i * Q i) :=
  (hS.select hA hB (fun i hi => merge_coprime (hm i hi)) hN hN1 hPQ).periods mono

theorem Merge.symm {P Q R : Nat} (h : Merge P Q R) : Merge Q P R := ⟨h.right, h.left, fun T h1 h2 => h.least T h2 h1⟩

theorem mt_ne_one : 2 ^ 19937 - 1 ≠ 1 := by
  obtain ⟨e, he⟩ : ∃ e, 19937 = e := ⟨_, rfl⟩
  have h : 2 ^ 2 ≤ 2 ^ e := Nat.pow_le_pow_right (by decide) (by rw [← he]; decide)
  rw [he]
  generalize 2 ^ e = X at h
  omega

theorem mt_lfg_coprime (b : Nat) : Nat.Coprime (2 ^ 19937 - 1) ((2 ^ 108 - 1) / 65 * (2 ^ 187 - 1) * 2 ^ b) := by
  refine (Nat.Coprime.mul_left (Nat.Coprime.coprime_dvd_left (Nat.dvd_mul_right _ (2 ^ 63)) lfg_coprime) (Nat.Coprime.pow_left b ?_)).symm
  exact Nat.Coprime.coprime_dvd_left ((dvd_pow_self 2 (by decide)).trans (Nat.dvd_mul_left (2 ^ 63) _)) lfg_coprime

theorem lfgM_ne (b q : Nat) (h : ¬ 9 ∣ q) : (2 ^ 108 - 1) / 65 * (2 ^ 187 - 1) * 2 ^ b ≠ q := fun e =>
  h (e ▸ lfgM_nine.trans (Nat.dvd_mul_right _ (2 ^ b)))

theorem select_mt {σ τ : Type} (A : Source σ) (B : Source τ) (s : σ) (t : τ) (g : MT64) (hg : g.Alive) (hi : g.Begun) (q p M : Nat)
    (hA : BitRun A s fun b => M * 2 ^ b) (hB : BitRun B t fun _ => p) (hm : ∀ b, Merge (M * 2 ^ b) p (M * 2 ^ b * q))
    (hc : ∀ b, Nat.Coprime (2 ^ 19937 - 1) (M * 2 ^ b)) (hp : Nat.Coprime (2 ^ 19937 - 1) p) (hne : ∀ b, M * 2 ^ b ≠ p) :
    Periods (MT64.source.select A B) (g, s, t) (fun b => (2 ^ 19937 - 1) * (M * 2 ^ b * q)) ∧
      Periods (MT64.source.select B A) (g, t, s) (fun b => (2 ^ 19937 - 1) * (M * 2 ^ b * q)) := by
  have mono : ∀ i j : Nat, i ≤ j → (2 ^ 19937 - 1) * (M * 2 ^ i * q) ∣ (2 ^ 19937 - 1) * (M * 2 ^ j * q) := fun i j hij =>
    Nat.mul_dvd_mul_left _ (Nat.mul_dvd_mul_right (Nat.mul_dvd_mul_left M (Nat.pow_dvd_pow 2 hij)) q)
  exact ⟨((MT64.bitRun g hg hi).select hA hB (fun b _ => hm b) (fun b _ => (hc b).mul_right hp) (fun _ _ => mt_ne_one) (fun b _ => hne b)).periods mono,
    ((MT64.bitRun g hg hi).select hB hA (fun b _ => (hm b).symm) (fun b _ => hp.mul_right (hc b)) (fun _ _ => mt_ne_one)
      (fun b _ => (hne b).symm)).periods mono⟩

/-- C102: MT64 selecting between LFG, seeded by an iv of at most 273 bytes, and Xoroshiro, in either order: every bit and every method has the
least common multiple of the three periods. -/
theorem C102_MT64_LFG_Xoroshiro (g : MT64) (hg : g.Alive) (hi : g.Begun) (l s : LFG) (iv : List Byte) (hl : iv.length ≤ 273)
    (h : l.seedIV iv = .ok s) (x : Xoroshiro) (hx : x ≠ ⟨0#64, 0#64⟩) :
    Periods (MT64.source.select LFG.source Xoroshiro.source) (g, s, x)
      (fun b => (2 ^ 19937 - 1) * ((2 ^ 108 - 1) / 65 * (2 ^ 187 - 1) * 2 ^ b * ((2 ^ 128 - 1) / 3))) ∧
    Periods (MT64.source.select Xoroshiro.source LFG.source) (g, x, s)
      (fun b => (2 ^ 19937 - 1) * ((2 ^ 108 - 1) / 65 * (2 ^ 187 - 1) * 2 ^ b * ((2 ^ 128 - 1) / 3))) :=
  select_mt _ _ s x g hg hi _ _ _ (LFG.bitRun l s iv hl h) (Xoroshiro.bitRun x hx) merge128 mt_lfg_coprime
    (coprime_mersenne 128 19937 (by decide)).symm fun b => lfgM_ne b _ (by decide +kernel)

/-- C102: the same with Rexoroshiro. -/
theorem C102_MT64_LFG_Rexoroshiro (g : MT64) (hg : g.Alive) (hi : g.Begun) (l s : LFG) (iv : List Byte) (hl : iv.length ≤ 273)
    (h : l.seedIV iv = .ok s) (x : Rexoroshiro) (hx : x ≠ ⟨⟨0#64, 0#64⟩⟩) :
    Periods (MT64.source.select LFG.source Rexoroshiro.source) (g, s, x)
      (fun b => (2 ^ 19937 - 1) * ((2 ^ 108 - 1) / 65 * (2 ^ 187 - 1) * 2 ^ b * ((2 ^ 128 - 1) / 3))) ∧
    Periods (MT64.source.select Rexoroshiro.source LFG.source) (g, x, s)
      (fun b => (2 ^ 19937 - 1) * ((2 ^ 108 - 1) / 65 * (2 ^ 187 - 1) * 2 ^ b * ((2 ^ 128 - 1) / 3))) :=
  select_mt _ _ s x g hg hi _ _ _ (LFG.bitRun l s iv hl h) (Rexoroshiro.bitRun x hx) merge128 mt_lfg_coprime
    (coprime_mersenne 128 19937 (by decide)).symm fun b => lfgM_ne b _ (by decide +kernel)

/-- C102: the same with Xoshiro. -/
theorem C102_MT64_LFG_Xoshiro (g : MT64) (hg : g.Alive) (hi : g.Begun) (l s : LFG) (iv : List Byte) (hl : iv.length ≤ 273)
    (h : l.seedIV iv = .ok s) (x : Xoshiro) (hx : x ≠ ⟨0#64, 0#64, 0#64, 0#64⟩) :
    Periods (MT64.source.select LFG.source Xoshiro.source) (g, s, x)
      (fun b => (2 ^ 19937 - 1) * ((2 ^ 108 - 1) / 65 * (2 ^ 187 - 1) * 2 ^ b * ((2 ^ 256 - 1) / 3))) ∧
    Periods (MT64.source.select Xoshiro.source LFG.source) (g, x, s)
      (fun b => (2 ^ 19937 - 1) * ((2 ^ 108 - 1) / 65 * (2 ^ 187 - 1) * 2 ^ b * ((2 ^ 256 - 1) / 3))) :=
  select_mt _ _ s x g hg hi _ _ _ (LFG.bitRun l s iv hl h) (Xoshiro.bitRun x hx) merge256 mt_lfg_coprime
    (coprime_mersenne 256 19937 (by decide)).symm fun b => lfgM_ne b _ (by decide +kernel)

/-- Seeded generators meet the hypotheses; `10^6` calls are not a period of the lowest bit. -/
example (a b c : U64) (l : LFG) (x : Xoroshiro) (g : MT64) : ∃ l' x' g', l.seed a = .ok l' ∧ x.seed b = .ok x' ∧ g.seed c = .ok g' ∧
    Periods (MT64.source.select LFG.source Xoroshiro.source) (g', l', x')
      (fun b => (2 ^ 19937 - 1) * ((2 ^ 108 - 1) / 65 * (2 ^ 187 - 1) * 2 ^ b * ((2 ^ 128 - 1) / 3))) ∧
    ¬ FnPeriod (MT64.source.select LFG.source Xoroshiro.source) (fun w => w.getLsbD 0) (g', l', x') 1000000 := by
  have e : l.seed a = .ok _ := LFG.seedIV_eq (le64 a) l
  obtain ⟨x', h1, h2⟩ := C51_Xoroshiro_Seed_alive b x
  obtain ⟨g', h3, h4, h5⟩ := C61_MT64_Seed_alive c g
  have p := (C102_MT64_LFG_Xoroshiro g' h4 h5 l _ (le64 a) (by rw [le64_length]; decide) e x' h2).1
  refine ⟨_, x', g', e, h1, h3, p, fun h => ?_⟩
  have h6 : (2 ^ 128 - 1) / 3 ∣ 1000000 := (Nat.dvd_mul_left _ _).trans ((Nat.dvd_mul_left _ _).trans ((p.bit 0 (by decide) _).mp h))
  exact absurd h6 (by decide +kernel)

end Crazy
