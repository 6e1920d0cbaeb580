/-
C98: the period of every method and every bit of two generators composed with XorCompose, LFG with the others included.
-/
import Verif.Props.XorPeriod
import Verif.Props.CallPeriod
import Verif.Props.LfgBits
set_option exponentiation.threshold 2200
namespace Crazy

/-! ### Periods of mixed sequences -/

/-- What the periods `P` and `Q` of two sequences must be for the mixture to have the period `R`. -/
structure Merge (P Q R : Nat) : Prop where
  left : P ∣ R
  right : Q ∣ R
  least : ∀ T, P ∣ Nat.lcm T Q → Q ∣ Nat.lcm T P → R ∣ T

theorem merge_coprime {P Q : Nat} (h : Nat.Coprime P Q) : Merge P Q (P * Q) where
  left := Nat.dvd_mul_right P Q
  right := Nat.dvd_mul_left Q P
  least _ h1 h2 := h.mul_dvd_of_dvd_of_dvd (h.dvd_of_dvd_mul_right (h1.trans (Nat.lcm_dvd_mul _ _)))
      (h.symm.dvd_of_dvd_mul_right (h2.trans (Nat.lcm_dvd_mul _ _)))

/-- The periods of LFG and of the xoroshiro and xoshiro families have the factor 3 in common, but LFG's has it twice. -/
theorem merge_three {P q : Nat} (h9 : 9 ∣ P) (h : Nat.Coprime P q) : Merge P (3 * q) (P * q) := by
  have h3 : 3 ∣ P := (by decide : 3 ∣ 9).trans h9
  refine ⟨Nat.dvd_mul_right P q, Nat.mul_dvd_mul_right h3 q, fun T h1 h2 => ?_⟩
  have hq : q ∣ T := h.symm.dvd_of_dvd_mul_right ((Nat.dvd_mul_left q 3).trans (h2.trans (Nat.lcm_dvd_mul _ _)))
  have hP : P ∣ 3 * T := h1.trans (Nat.lcm_dvd (Nat.dvd_mul_left T 3) (Nat.mul_dvd_mul_left 3 hq))
  have hT : 3 ∣ T := by
    have : 3 * 3 ∣ 3 * T := h9.trans hP
    exact Nat.dvd_of_mul_dvd_mul_left (by decide) this
  have h3q : 3 * q ∣ T := (Nat.Coprime.coprime_dvd_left h3 h).mul_dvd_of_dvd_of_dvd hT hq
  exact h.mul_dvd_of_dvd_of_dvd (h1.trans (Nat.lcm_dvd (Nat.dvd_refl T) h3q)) hq

theorem per_dvd {α : Type} {a : Nat → α} {p q : Nat} (h : ∀ n, a (n + p) = a n) (hd : p ∣ q) (n : Nat) : a (n + q) = a n := by
  obtain ⟨k, rfl⟩ := hd
  exact per_mul h k n

theorem mix_period {α : Type} (op : α → α → α) (hl : ∀ a b c d, op a b = op c d → b = d → a = c)
    (hr : ∀ a b c d, op a b = op c d → a = c → b = d) (a b : Nat → α) (P Q R : Nat) (hm : Merge P Q R)
    (ha : ∀ k, (∀ n, a (n + k) = a n) ↔ P ∣ k) (hb : ∀ k, (∀ n, b (n + k) = b n) ↔ Q ∣ k) (k : Nat) :
    (∀ n, op (a (n + k)) (b (n + k)) = op (a n) (b n)) ↔ R ∣ k := by
  constructor
  · intro h
    refine hm.least k ((ha _).mp fun n => ?_) ((hb _).mp fun n => ?_)
    · exact hl _ _ _ _ (per_dvd (a := fun n => op (a n) (b n)) h (Nat.dvd_lcm_left k Q) n) ((hb _).mpr (Nat.dvd_lcm_right _ _) n)
    · exact hr _ _ _ _ (per_dvd (a := fun n => op (a n) (b n)) h (Nat.dvd_lcm_left k P) n) ((ha _).mpr (Nat.dvd_lcm_right _ _) n)
  · intro h n
    rw [(ha k).mpr (hm.left.trans h), (hb k).mpr (hm.right.trans h)]

/-! ### The reads of a run -/

section
variable {σ τ : Type}

theorem RunOf.length {k : Nat} {src : Source σ} {s : σ} {a : Nat → List Byte} (h : RunOf k src s a) (n : Nat) : (a n).length = k := by
  obtain ⟨st, -, h⟩ := h
  have := src.len_buf _ _ _ _ (h n)
  rwa [zeros_length] at this

theorem RunOf.xor {k : Nat} {A : Source σ} {B : Source τ} {s : σ} {t : τ} {a b : Nat → List Byte} (ha : RunOf k A s a) (hb : RunOf k B t b) :
    RunOf k (A.xor B) (s, t) fun n => List.zipWith (· ^^^ ·) (a n) (b n) := by
  obtain ⟨sa, rfl, ha⟩ := ha
  obtain ⟨sb, rfl, hb⟩ := hb
  refine ⟨fun n => (sa n, sb n), rfl, fun n => ?_⟩
  have e1 : (A.left (τ := τ)).read (zeros k) (sa n, sb n) = .ok (⟨a n, k, none⟩, (sa (n + 1), sb n)) := by
    simp only [Source.left, ha, Except.map]
  have e2 : (B.right (σ := σ)).read (zeros (zeros k).length) (sa (n + 1), sb n) = .ok (⟨b n, k, none⟩, (sa (n + 1), sb (n + 1))) := by
    rw [zeros_length]
    simp only [Source.right, hb, Except.map]
  have e3 : (A.xor B).read (zeros k) (sa n, sb n) = _ := xorCompose_ok e1 e2
  rw [e3, zeros_length]

theorem RunOf.nth {α : Type} {k : Nat} {src : Source σ} {s : σ} {a : Nat → List Byte} (h : RunOf k src s a) (call : σ → Go (α × σ)) (F : Nat → α)
    (hc : ∀ s r s', src.read (zeros k) s = .ok (r, s') → call s = .ok (F (leNat r.buf), s')) (n : Nat) (v : α) :
    Nth call n s v ↔ F (leNat (a n)) = v := by
  obtain ⟨st, rfl, h⟩ := h
  have : ∀ m, Nth call n (st m) v ↔ F (leNat (a (m + n))) = v := by
    induction n with
    | zero =>
      intro m
      have := hc _ _ _ (h m)
      constructor
      · rintro ⟨t, ht⟩
        rw [this, Except.ok.injEq, Prod.mk.injEq] at ht
        exact ht.1
      · rintro rfl
        exact ⟨_, this⟩
    | succ n ih =>
      intro m
      have := hc _ _ _ (h m)
      rw [show m + (n + 1) = (m + 1) + n by omega, ← ih (m + 1)]
      constructor
      · rintro ⟨w, t, h1, h2⟩
        rw [this, Except.ok.injEq, Prod.mk.injEq] at h1
        rwa [h1.2]
      · intro h2
        exact ⟨_, _, this, h2⟩
  have := this 0
  rwa [Nat.zero_add] at this

theorem RunOf.callPeriod {α : Type} {k : Nat} {src : Source σ} {s : σ} {a : Nat → List Byte} (h : RunOf k src s a) (call : σ → Go (α × σ))
    (F : Nat → α) (hc : ∀ s r s', src.read (zeros k) s = .ok (r, s') → call s = .ok (F (leNat r.buf), s')) (T : Nat) :
    CallPeriod call s T ↔ ∀ n, F (leNat (a (n + T))) = F (leNat (a n)) := by
  unfold CallPeriod
  simp only [h.nth call F hc]
  exact ⟨fun h n => (h n _).mp rfl, fun h n v => by rw [h]⟩

theorem nat_xor_cancel_right {a b c d : Nat} (h : a ^^^ b = c ^^^ d) (e : b = d) : a = c := by
  subst e
  rw [← Nat.xor_zero a, ← Nat.xor_self b, ← Nat.xor_assoc, h, Nat.xor_assoc, Nat.xor_self, Nat.xor_zero]

theorem nat_xor_cancel_left {a b c d : Nat} (h : a ^^^ b = c ^^^ d) (e : a = c) : b = d := by
  rw [Nat.xor_comm a, Nat.xor_comm c] at h
  exact nat_xor_cancel_right h e

/-- A method that reads `k` bytes and keeps the `m` lowest bits of them. -/
theorem xor_call {α : Type} (k m : Nat) (F : Nat → α) (hF : ∀ x y, x < 256 ^ k → y < 256 ^ k → (F x = F y ↔ x % 2 ^ m = y % 2 ^ m))
    (callA : σ → Go (α × σ)) (callB : τ → Go (α × τ)) (callC : σ × τ → Go (α × (σ × τ))) (A : Source σ) (B : Source τ)
    (hA : ∀ s r s', A.read (zeros k) s = .ok (r, s') → callA s = .ok (F (leNat r.buf), s'))
    (hB : ∀ s r s', B.read (zeros k) s = .ok (r, s') → callB s = .ok (F (leNat r.buf), s'))
    (hC : ∀ s r s', (A.xor B).read (zeros k) s = .ok (r, s') → callC s = .ok (F (leNat r.buf), s'))
    (s : σ) (t : τ) (a b : Nat → List Byte) (ra : RunOf k A s a) (rb : RunOf k B t b) (P Q R : Nat) (hm : Merge P Q R)
    (pa : ∀ T, CallPeriod callA s T ↔ P ∣ T) (pb : ∀ T, CallPeriod callB t T ↔ Q ∣ T) (T : Nat) :
    CallPeriod callC (s, t) T ↔ R ∣ T := by
  have lt : ∀ l : List Byte, l.length = k → leNat l < 256 ^ k := fun l h => h ▸ leNat_lt l
  have la : ∀ n, leNat (a n) < 256 ^ k := fun n => lt _ (ra.length n)
  have lb : ∀ n, leNat (b n) < 256 ^ k := fun n => lt _ (rb.length n)
  have lc : ∀ n, leNat (List.zipWith (· ^^^ ·) (a n) (b n)) < 256 ^ k := fun n => lt _ ((ra.xor rb).length n)
  have ex : ∀ n, leNat (List.zipWith (· ^^^ ·) (a n) (b n)) % 2 ^ m = leNat (a n) % 2 ^ m ^^^ leNat (b n) % 2 ^ m := fun n => by
    rw [leNat_xor _ _ ((ra.length n).trans (rb.length n).symm), Nat.xor_mod_two_pow]
  rw [(ra.xor rb).callPeriod callC F hC,
    ← mix_period (· ^^^ ·) (fun _ _ _ _ => nat_xor_cancel_right) (fun _ _ _ _ => nat_xor_cancel_left)
      (fun n => leNat (a n) % 2 ^ m) (fun n => leNat (b n) % 2 ^ m) P Q R hm
      (fun T => by
        rw [← pa, ra.callPeriod callA F hA]
        exact forall_congr' fun n => (hF _ _ (la _) (la _)).symm)
      (fun T => by
        rw [← pb, rb.callPeriod callB F hB]
        exact forall_congr' fun n => (hF _ _ (lb _) (lb _)).symm) T]
  refine forall_congr' fun n => ?_
  rw [hF _ _ (lc _) (lc _), ex, ex]

theorem RunOf.fnPeriod {α : Type} {src : Source σ} {s : σ} {a : Nat → List Byte} (h : RunOf 8 src s a) (f : U64 → α) (T : Nat) :
    FnPeriod src f s T ↔ ∀ n, f (BitVec.ofNat 64 (leNat (a (n + T)))) = f (BitVec.ofNat 64 (leNat (a n))) := by
  unfold FnPeriod
  simp only [h.nth (RNG.uint64 src) (BitVec.ofNat 64) (fun s r s' hr => by rw [RNG.uint64_eq, hr]; rfl)]
  constructor
  · intro h n
    exact (h n _ _ rfl rfl).symm
  · rintro h n v w rfl rfl
    exact (h n).symm

theorem xor_bit (A : Source σ) (B : Source τ) (s : σ) (t : τ) (a b : Nat → List Byte) (ra : RunOf 8 A s a) (rb : RunOf 8 B t b) (P Q R : Nat)
    (hm : Merge P Q R) (i : Nat) (pa : ∀ T, FnPeriod A (fun w => w.getLsbD i) s T ↔ P ∣ T)
    (pb : ∀ T, FnPeriod B (fun w => w.getLsbD i) t T ↔ Q ∣ T) (T : Nat) :
    FnPeriod (A.xor B) (fun w => w.getLsbD i) (s, t) T ↔ R ∣ T := by
  rw [(ra.xor rb).fnPeriod, ← mix_period Bool.xor (fun a b c d => by cases a <;> cases b <;> cases c <;> cases d <;> simp)
    (fun a b c d => by cases a <;> cases b <;> cases c <;> cases d <;> simp)
    (fun n => (BitVec.ofNat 64 (leNat (a n))).getLsbD i) (fun n => (BitVec.ofNat 64 (leNat (b n))).getLsbD i) P Q R hm
    (fun T => by rw [← pa, ra.fnPeriod]) (fun T => by rw [← pb, rb.fnPeriod]) T]
  refine forall_congr' fun n => ?_
  simp only [leNat_xor _ _ ((ra.length _).trans (rb.length _).symm), BitVec.ofNat_xor, BitVec.getLsbD_xor]

/-- From the periods of the bits and methods of two sources those of the composition, whatever the sources are. -/
theorem xor_periods (A : Source σ) (B : Source τ) (s : σ) (t : τ) (ra : Runs A s) (rb : Runs B t) (P Q R : Nat → Nat)
    (hm : ∀ b < 64, Merge (P b) (Q b) (R b)) (pa : Periods A s P) (pb : Periods B t Q) : Periods (A.xor B) (s, t) R := by
  have e8 : (256 : Nat) ^ 8 = 2 ^ 64 := rfl
  have e4 : (256 : Nat) ^ 4 = 2 ^ 32 := rfl
  have e2 : (256 : Nat) ^ 2 = 2 ^ 16 := rfl
  obtain ⟨a8, ra8⟩ := ra 8 (by decide)
  obtain ⟨b8, rb8⟩ := rb 8 (by decide)
  obtain ⟨a7, ra7⟩ := ra 7 (by decide)
  obtain ⟨b7, rb7⟩ := rb 7 (by decide)
  obtain ⟨a4, ra4⟩ := ra 4 (by decide)
  obtain ⟨b4, rb4⟩ := rb 4 (by decide)
  obtain ⟨a2, ra2⟩ := ra 2 (by decide)
  obtain ⟨b2, rb2⟩ := rb 2 (by decide)
  have F12 : ∀ x y : Nat, x < 256 ^ 7 → y < 256 ^ 7 →
      ((F64.fin false ((2 ^ 52 + x % 2 ^ 52) * 2 ^ 1022) = F64.fin false ((2 ^ 52 + y % 2 ^ 52) * 2 ^ 1022)) ↔ x % 2 ^ 52 = y % 2 ^ 52) := by
    intro x y _ _
    rw [F64.fin.injEq, eq_self, true_and]
    obtain ⟨c, hc⟩ : ∃ c, 1022 = c := ⟨_, rfl⟩
    rw [hc, Nat.mul_left_inj (Nat.two_pow_pos c).ne', Nat.add_left_cancel_iff]
  have F01 : ∀ x y : Nat, x < 256 ^ 8 → y < 256 ^ 8 →
      ((F64.fin false (x % 2 ^ 53 * 2 ^ 1021) = F64.fin false (y % 2 ^ 53 * 2 ^ 1021)) ↔ x % 2 ^ 53 = y % 2 ^ 53) := by
    intro x y _ _
    rw [F64.fin.injEq, eq_self, true_and]
    obtain ⟨c, hc⟩ : ∃ c, 1021 = c := ⟨_, rfl⟩
    rw [hc, Nat.mul_left_inj (Nat.two_pow_pos c).ne']
  exact
  { bit := fun i hi => xor_bit A B s t a8 b8 ra8 rb8 _ _ _ (hm i hi) i (pa.bit i hi) (pb.bit i hi)
    uint64 := xor_call 8 64 (BitVec.ofNat 64) (fun x y _ _ => by rw [← BitVec.toNat_inj, BitVec.toNat_ofNat, BitVec.toNat_ofNat])
      _ _ _ A B (fun s r s' hr => by rw [RNG.uint64_eq, hr]; rfl) (fun s r s' hr => by rw [RNG.uint64_eq, hr]; rfl)
      (fun s r s' hr => by rw [RNG.uint64_eq, hr]; rfl) s t a8 b8 ra8 rb8 _ _ _ (hm 63 (by decide)) pa.uint64 pb.uint64
    uint32 := xor_call 4 32 (BitVec.ofNat 32) (fun x y _ _ => by rw [← BitVec.toNat_inj, BitVec.toNat_ofNat, BitVec.toNat_ofNat])
      _ _ _ A B (fun s r s' hr => by rw [RNG.uint32_eq, hr]; rfl) (fun s r s' hr => by rw [RNG.uint32_eq, hr]; rfl)
      (fun s r s' hr => by rw [RNG.uint32_eq, hr]; rfl) s t a4 b4 ra4 rb4 _ _ _ (hm 31 (by decide)) pa.uint32 pb.uint32
    uint16 := xor_call 2 16 (BitVec.ofNat 16) (fun x y _ _ => by rw [← BitVec.toNat_inj, BitVec.toNat_ofNat, BitVec.toNat_ofNat])
      _ _ _ A B (fun s r s' hr => by rw [RNG.uint16_eq, hr]; rfl) (fun s r s' hr => by rw [RNG.uint16_eq, hr]; rfl)
      (fun s r s' hr => by rw [RNG.uint16_eq, hr]; rfl) s t a2 b2 ra2 rb2 _ _ _ (hm 15 (by decide)) pa.uint16 pb.uint16
    uniform1_2 := xor_call 7 52 (fun x => F64.fin false ((2 ^ 52 + x % 2 ^ 52) * 2 ^ 1022)) F12
      _ _ _ A B (fun s r s' hr => uniform12_eq A s s' r hr) (fun s r s' hr => uniform12_eq B s s' r hr)
      (fun s r s' hr => uniform12_eq _ s s' r hr) s t a7 b7 ra7 rb7 _ _ _ (hm 51 (by decide)) pa.uniform1_2 pb.uniform1_2
    uniform0_1 := xor_call 8 53 (fun x => F64.fin false (x % 2 ^ 53 * 2 ^ 1021)) F01
      _ _ _ A B (fun s r s' hr => uniform01_eq A s s' r hr) (fun s r s' hr => uniform01_eq B s s' r hr)
      (fun s r s' hr => uniform01_eq _ s s' r hr) s t a8 b8 ra8 rb8 _ _ _ (hm 52 (by decide)) pa.uniform0_1 pb.uniform0_1 }

theorem FullPeriod.periods {src : Source σ} {s : σ} {P : Nat} (h : FullPeriod src s P) : Periods src s fun _ => P :=
  ⟨h.bit, h.uint64, h.uint32, h.uint16, h.uniform1_2, h.uniform0_1⟩

theorem BitPeriods.periods {src : Source σ} {s : σ} {M : Nat} (h : BitPeriods src s M) : Periods src s fun b => M * 2 ^ b :=
  ⟨h.bit, h.uint64, h.uint32, h.uint16, h.uniform1_2, h.uniform0_1⟩

theorem runs_of {src : Source σ} {s : σ} {out : σ → U64} {step : Nat → σ → σ} (h : ∀ k ≤ 8, ReadsOut src out (step k) k) : Runs src s := fun k hk =>
  ⟨fun n => (le64 (out ((step k)^[n] s))).take k, fun n => (step k)^[n] s, rfl, fun n => by
    beta_reduce
    rw [h k hk, Function.iterate_succ_apply']⟩

theorem Xoshiro.runs (s : Xoshiro) : Runs Xoshiro.source s := runs_of (step := fun _ => _) Xoshiro.readsOut
theorem Rexoroshiro.runs (s : Rexoroshiro) : Runs Rexoroshiro.source s := runs_of (step := fun _ => _) Rexoroshiro.readsOut
theorem MT64.runs (s : MT64) : Runs MT64.source s := runs_of (step := fun _ => _) MT64.readsOut
theorem Xoroshiro.runs (s : Xoroshiro) : Runs Xoroshiro.source s :=
  runs_of (out := Xoroshiro.out) (step := fun k => if k < 8 then Xoroshiro.step else fun g => g.step.step) fun k hk => by
    by_cases h : k < 8
    · rw [if_pos h]
      exact Xoroshiro.readsOut k h
    · rw [if_neg h, show k = 8 by omega]
      exact Xoroshiro.readsOut8

theorem LFG.runs (s : LFG) (hs : LFG.Inv s) : Runs LFG.source s := fun k hk =>
  ⟨fun n => (le64 ((LFG.next^[n] s).seq 607)).take k, fun n => LFG.next^[n] s, rfl, fun n => by
    have : ∀ n, LFG.Inv (LFG.next^[n] s) := fun n => by
      induction n with
      | zero => exact hs
      | succ n ih => rw [Function.iterate_succ_apply']; exact LFG.inv_next _ ih
    beta_reduce
    rw [LFG.readsOut k hk _ (this n), Function.iterate_succ_apply']⟩

end

/-! ### C98 -/

theorem LFG.inv_of_seedIV {l s : LFG} {iv : List Byte} (h : l.seedIV iv = .ok s) : LFG.Inv s := by
  rw [LFG.seedIV_eq] at h
  injection h with h
  exact h ▸ LFG.inv_nexts _ _ (LFG.inv_seedStart iv)

theorem lfgM_nine : 9 ∣ (2 ^ 108 - 1) / 65 * (2 ^ 187 - 1) := by decide +kernel
theorem lfgM_coprime128 (b : Nat) : Nat.Coprime ((2 ^ 108 - 1) / 65 * (2 ^ 187 - 1) * 2 ^ b) ((2 ^ 128 - 1) / 3) :=
  Nat.Coprime.mul_left (by decide +kernel) (Nat.Coprime.pow_left b (by decide +kernel))
theorem lfgM_coprime256 (b : Nat) : Nat.Coprime ((2 ^ 108 - 1) / 65 * (2 ^ 187 - 1) * 2 ^ b) ((2 ^ 256 - 1) / 3) :=
  Nat.Coprime.mul_left (by decide +kernel) (Nat.Coprime.pow_left b (by decide +kernel))

theorem merge128 (b : Nat) : Merge ((2 ^ 108 - 1) / 65 * (2 ^ 187 - 1) * 2 ^ b) (2 ^ 128 - 1)
    ((2 ^ 108 - 1) / 65 * (2 ^ 187 - 1) * 2 ^ b * ((2 ^ 128 - 1) / 3)) := by
  have e : 2 ^ 128 - 1 = 3 * ((2 ^ 128 - 1) / 3) := by decide +kernel
  have := merge_three (lfgM_nine.trans (Nat.dvd_mul_right _ (2 ^ b))) (lfgM_coprime128 b)
  rwa [← e] at this

theorem merge256 (b : Nat) : Merge ((2 ^ 108 - 1) / 65 * (2 ^ 187 - 1) * 2 ^ b) (2 ^ 256 - 1)
    ((2 ^ 108 - 1) / 65 * (2 ^ 187 - 1) * 2 ^ b * ((2 ^ 256 - 1) / 3)) := by
  have e : 2 ^ 256 - 1 = 3 * ((2 ^ 256 - 1) / 3) := by decide +kernel
  have := merge_three (lfgM_nine.trans (Nat.dvd_mul_right _ (2 ^ b))) (lfgM_coprime256 b)
  rwa [← e] at this

theorem mergeMT (b : Nat) : Merge ((2 ^ 108 - 1) / 65 * (2 ^ 187 - 1) * 2 ^ b) (2 ^ 19937 - 1)
    ((2 ^ 108 - 1) / 65 * (2 ^ 187 - 1) * 2 ^ b * (2 ^ 19937 - 1)) := by
  refine merge_coprime (Nat.Coprime.mul_left (Nat.Coprime.coprime_dvd_left (Nat.dvd_mul_right _ (2 ^ 63)) lfg_coprime) (Nat.Coprime.pow_left b ?_))
  exact Nat.Coprime.coprime_dvd_left ((dvd_pow_self 2 (by decide)).trans (Nat.dvd_mul_left (2 ^ 63) _)) lfg_coprime

/-- C98: LFG, seeded by an iv of at most 273 bytes, composed with Xoroshiro: every bit and every method has the least common multiple of the
two periods. (It is the product divided by 3.) -/
theorem C98_LFG_Xoroshiro (l s : LFG) (iv : List Byte) (hl : iv.length ≤ 273) (h : l.seedIV iv = .ok s) (x : Xoroshiro)
    (hx : x ≠ ⟨0#64, 0#64⟩) : Periods (LFG.source.xor Xoroshiro.source) (s, x)
      fun b => (2 ^ 108 - 1) / 65 * (2 ^ 187 - 1) * 2 ^ b * ((2 ^ 128 - 1) / 3) :=
  xor_periods _ _ s x (LFG.runs s (LFG.inv_of_seedIV h)) (Xoroshiro.runs x) _ _ _ (fun b _ => merge128 b)
    (C96_LFG_seeded l s iv hl h).periods (C95_Xoroshiro x hx).periods

/-- C98: the same with Rexoroshiro. -/
theorem C98_LFG_Rexoroshiro (l s : LFG) (iv : List Byte) (hl : iv.length ≤ 273) (h : l.seedIV iv = .ok s) (x : Rexoroshiro)
    (hx : x ≠ ⟨⟨0#64, 0#64⟩⟩) : Periods (LFG.source.xor Rexoroshiro.source) (s, x)
      fun b => (2 ^ 108 - 1) / 65 * (2 ^ 187 - 1) * 2 ^ b * ((2 ^ 128 - 1) / 3) :=
  xor_periods _ _ s x (LFG.runs s (LFG.inv_of_seedIV h)) (Rexoroshiro.runs x) _ _ _ (fun b _ => merge128 b)
    (C96_LFG_seeded l s iv hl h).periods (C95_Rexoroshiro x hx).periods

/-- C98: the same with Xoshiro. -/
theorem C98_LFG_Xoshiro (l s : LFG) (iv : List Byte) (hl : iv.length ≤ 273) (h : l.seedIV iv = .ok s) (x : Xoshiro)
    (hx : x ≠ ⟨0#64, 0#64, 0#64, 0#64⟩) : Periods (LFG.source.xor Xoshiro.source) (s, x)
      fun b => (2 ^ 108 - 1) / 65 * (2 ^ 187 - 1) * 2 ^ b * ((2 ^ 256 - 1) / 3) :=
  xor_periods _ _ s x (LFG.runs s (LFG.inv_of_seedIV h)) (Xoshiro.runs x) _ _ _ (fun b _ => merge256 b)
    (C96_LFG_seeded l s iv hl h).periods (C95_Xoshiro x hx).periods

/-- C98: with MT64 it is the product. -/
theorem C98_LFG_MT64 (l s : LFG) (iv : List Byte) (hl : iv.length ≤ 273) (h : l.seedIV iv = .ok s) (g : MT64) (hg : g.Alive) (hi : g.Begun) :
    Periods (LFG.source.xor MT64.source) (s, g) fun b => (2 ^ 108 - 1) / 65 * (2 ^ 187 - 1) * 2 ^ b * (2 ^ 19937 - 1) :=
  xor_periods _ _ s g (LFG.runs s (LFG.inv_of_seedIV h)) (MT64.runs g) _ _ _ (fun b _ => mergeMT b)
    (C96_LFG_seeded l s iv hl h).periods (C95_MT64 g hg hi).periods

/-- C98: Xoroshiro with MT64: every bit and every method has the product of the periods. -/
theorem C98_Xoroshiro_MT64 (x : Xoroshiro) (hx : x ≠ ⟨0#64, 0#64⟩) (g : MT64) (hg : g.Alive) (hi : g.Begun) :
    Periods (Xoroshiro.source.xor MT64.source) (x, g) fun _ => (2 ^ 128 - 1) * (2 ^ 19937 - 1) :=
  xor_periods _ _ x g (Xoroshiro.runs x) (MT64.runs g) _ _ _ (fun _ _ => merge_coprime (coprime_mersenne 128 19937 (by decide)))
    (C95_Xoroshiro x hx).periods (C95_MT64 g hg hi).periods

theorem C98_Rexoroshiro_MT64 (x : Rexoroshiro) (hx : x ≠ ⟨⟨0#64, 0#64⟩⟩) (g : MT64) (hg : g.Alive) (hi : g.Begun) :
    Periods (Rexoroshiro.source.xor MT64.source) (x, g) fun _ => (2 ^ 128 - 1) * (2 ^ 19937 - 1) :=
  xor_periods _ _ x g (Rexoroshiro.runs x) (MT64.runs g) _ _ _ (fun _ _ => merge_coprime (coprime_mersenne 128 19937 (by decide)))
    (C95_Rexoroshiro x hx).periods (C95_MT64 g hg hi).periods

theorem C98_Xoshiro_MT64 (x : Xoshiro) (hx : x ≠ ⟨0#64, 0#64, 0#64, 0#64⟩) (g : MT64) (hg : g.Alive) (hi : g.Begun) :
    Periods (Xoshiro.source.xor MT64.source) (x, g) fun _ => (2 ^ 256 - 1) * (2 ^ 19937 - 1) :=
  xor_periods _ _ x g (Xoshiro.runs x) (MT64.runs g) _ _ _ (fun _ _ => merge_coprime (coprime_mersenne 256 19937 (by decide)))
    (C95_Xoshiro x hx).periods (C95_MT64 g hg hi).periods

/-- C98: whatever two sources are composed, if both never fail and the periods of their bits and methods have no factor in common, those of the
composition are the products. -/
theorem C98_coprime {σ τ : Type} (A : Source σ) (B : Source τ) (s : σ) (t : τ) (ra : Runs A s) (rb : Runs B t) (P Q : Nat → Nat)
    (hc : ∀ b < 64, Nat.Coprime (P b) (Q b)) (pa : Periods A s P) (pb : Periods B t Q) :
    Periods (A.xor B) (s, t) fun b => P b * Q b :=
  xor_periods A B s t ra rb P Q _ (fun b hb => merge_coprime (hc b hb)) pa pb

/-! ### Xoroshiro with Xoshiro: the period of the one divides that of the other -/

theorem xor_bit_any {σ τ : Type} (A : Source σ) (B : Source τ) (s : σ) (t : τ) (ra : Runs A s) (rb : Runs B t) (P q : Nat) (hP : 0 < P) (i : Nat)
    (pa : ∀ T, FnPeriod A (fun w => w.getLsbD i) s T ↔ P ∣ T) (pb : ∀ T, FnPeriod B (fun w => w.getLsbD i) t T ↔ P * q ∣ T) :
    FnPeriod (A.xor B) (fun w => w.getLsbD i) (s, t) (P * q) ∧
      ∀ T, FnPeriod (A.xor B) (fun w => w.getLsbD i) (s, t) T → q ∣ T := by
  obtain ⟨a, ra⟩ := ra 8 (by decide)
  obtain ⟨b, rb⟩ := rb 8 (by decide)
  have ex : ∀ n, (BitVec.ofNat 64 (leNat (List.zipWith (· ^^^ ·) (a n) (b n)))).getLsbD i =
      ((BitVec.ofNat 64 (leNat (a n))).getLsbD i ^^ (BitVec.ofNat 64 (leNat (b n))).getLsbD i) := fun n => by
    rw [leNat_xor _ _ ((ra.length _).trans (rb.length _).symm), BitVec.ofNat_xor, BitVec.getLsbD_xor]
  simp only [ra.fnPeriod] at pa
  simp only [rb.fnPeriod] at pb
  simp only [(ra.xor rb).fnPeriod, ex]
  refine ⟨fun n => ?_, fun T h => ?_⟩
  · rw [(pa _).mpr (Nat.dvd_mul_right P q), (pb _).mpr (Nat.dvd_refl _)]
  · have h1 : P * q ∣ P * T := (pb _).mp fun n => by
      have k1 := per_dvd (a := fun n => ((BitVec.ofNat 64 (leNat (a n))).getLsbD i ^^ (BitVec.ofNat 64 (leNat (b n))).getLsbD i)) h
        (Nat.dvd_mul_left T P) n
      have k2 := (pa (P * T)).mpr (Nat.dvd_mul_right P T) n
      beta_reduce at k1
      rw [k2] at k1
      exact Bool.xor_right_inj.mp k1
    exact Nat.dvd_of_mul_dvd_mul_left hP h1

/-- C98: every bit of Xoroshiro composed with Xoshiro repeats after `2^256 - 1` calls, and after multiples of `2^128 + 1` calls only. -/
theorem C98_Xoroshiro_Xoshiro (x : Xoroshiro) (hx : x ≠ ⟨0#64, 0#64⟩) (y : Xoshiro) (hy : y ≠ ⟨0#64, 0#64, 0#64, 0#64⟩) (b : Nat) (hb : b < 64) :
    FnPeriod (Xoroshiro.source.xor Xoshiro.source) (fun w => w.getLsbD b) (x, y) (2 ^ 256 - 1) ∧
      ∀ T, FnPeriod (Xoroshiro.source.xor Xoshiro.source) (fun w => w.getLsbD b) (x, y) T → 2 ^ 128 + 1 ∣ T := by
  have e : 2 ^ 256 - 1 = (2 ^ 128 - 1) * (2 ^ 128 + 1) := by decide +kernel
  rw [e]
  exact xor_bit_any _ _ x y (Xoroshiro.runs x) (Xoshiro.runs y) _ _ (by decide) b ((C95_Xoroshiro x hx).bit b hb)
    (by rw [← e]; exact (C95_Xoshiro y hy).bit b hb)

/-- C98: with Rexoroshiro likewise. -/
theorem C98_Rexoroshiro_Xoshiro (x : Rexoroshiro) (hx : x ≠ ⟨⟨0#64, 0#64⟩⟩) (y : Xoshiro) (hy : y ≠ ⟨0#64, 0#64, 0#64, 0#64⟩) (b : Nat)
    (hb : b < 64) : FnPeriod (Rexoroshiro.source.xor Xoshiro.source) (fun w => w.getLsbD b) (x, y) (2 ^ 256 - 1) ∧
      ∀ T, FnPeriod (Rexoroshiro.source.xor Xoshiro.source) (fun w => w.getLsbD b) (x, y) T → 2 ^ 128 + 1 ∣ T := by
  have e : 2 ^ 256 - 1 = (2 ^ 128 - 1) * (2 ^ 128 + 1) := by decide +kernel
  rw [e]
  exact xor_bit_any _ _ x y (Rexoroshiro.runs x) (Xoshiro.runs y) _ _ (by decide) b ((C95_Rexoroshiro x hx).bit b hb)
    (by rw [← e]; exact (C95_Xoshiro y hy).bit b hb)

/-- Seeded generators meet the hypotheses; `16` calls are not a period of the lowest bit. -/
example (a b : U64) (l : LFG) (x : Xoroshiro) : ∃ l' x', l.seed a = .ok l' ∧ x.seed b = .ok x' ∧
    Periods (LFG.source.xor Xoroshiro.source) (l', x') (fun b => (2 ^ 108 - 1) / 65 * (2 ^ 187 - 1) * 2 ^ b * ((2 ^ 128 - 1) / 3)) ∧
    ¬ FnPeriod (LFG.source.xor Xoroshiro.source) (fun w => w.getLsbD 0) (l', x') 16 := by
  have e : l.seed a = .ok _ := LFG.seedIV_eq (le64 a) l
  obtain ⟨x', h1, h2⟩ := C51_Xoroshiro_Seed_alive b x
  have p := C98_LFG_Xoroshiro l _ (le64 a) (by rw [le64_length]; decide) e x' h2
  exact ⟨_, x', e, h1, p, fun h => absurd ((p.bit 0 (by decide) 16).mp h) (by decide +kernel)⟩

end Crazy
