/-
C15-C18: Big and Bign.
-/
import Verif.Proofs.Big
namespace Crazy

variable {σ : Type}

theorem big_maxAlloc (src : Source σ) (nbits : Nat) (hn : nbits < 2 ^ 63) (hm : RNG.maxAlloc < (nbits + 7) / 8) (s : σ) :
    RNG.big src nbits s = .error .makeslice := by
  have e1 : RNG.toUint (nbits : Int) = nbits := by unfold RNG.toUint; omega
  have e2 : ((RNG.toUint (nbits : Int) + 7) % 2 ^ 64) >>> 3 = (nbits + 7) / 8 := by
    rw [e1, Nat.mod_eq_of_lt (by omega), Nat.shiftRight_eq_div_pow]
  unfold RNG.big RNG.makeBytes
  rw [e2, if_pos hm]
  rfl

/-- C15: for `nbits > 0` (any Go `int`) and any source, a value returned by `Big(nbits)` is a non-negative integer of
bit length at most `nbits`. -/
theorem C15_range (src : Source σ) (nbits : Nat) (h0 : 0 < nbits) (hn : nbits < 2 ^ 63) (s s' : σ) (v : Int)
    (h : RNG.big src nbits s = .ok (v, s')) : 0 ≤ v ∧ v < 2 ^ nbits := by
  by_cases hm : (nbits + 7) / 8 ≤ RNG.maxAlloc
  · rw [RNG.big_eq src nbits h0 hm] at h
    cases hr : src.read (zeros ((nbits + 7) / 8)) s with
    | error e => rw [hr] at h; simp [Except.map] at h
    | ok r =>
      rw [hr] at h
      simp only [Except.map, Except.ok.injEq, Prod.mk.injEq] at h
      obtain ⟨rfl, -⟩ := h
      have h1 : RNG.setBytes r.1.buf % 2 ^ RNG.bigBits nbits < 2 ^ RNG.bigBits nbits :=
        Nat.mod_lt _ (by positivity)
      have h2 : 2 ^ RNG.bigBits nbits ≤ 2 ^ nbits := Nat.pow_le_pow_right (by decide) (by
        rw [RNG.bigBits_eq nbits h0]; split <;> omega)
      exact ⟨Int.natCast_nonneg _, by exact_mod_cast Nat.lt_of_lt_of_le h1 h2⟩
  · rw [big_maxAlloc src nbits hn (by omega)] at h
    contradiction

/-- C15: `Big(nbits)` panics for every `nbits ≤ 0`, on every source. -/
theorem C15_panics (src : Source σ) (nbits : Int) (h0 : nbits ≤ 0) (hn : -2 ^ 63 ≤ nbits) (s : σ) :
    ∃ p, RNG.big src nbits s = .error p := by
  have hma : RNG.maxAlloc = 2 ^ 48 := rfl
  by_cases h : nbits ≤ -8
  · refine ⟨.makeslice, ?_⟩
    unfold RNG.big RNG.makeBytes
    rw [if_pos]
    · rfl
    · rw [Nat.shiftRight_eq_div_pow, hma]
      unfold RNG.toUint
      omega
  · have e2 : ((RNG.toUint nbits + 7) % 2 ^ 64) >>> 3 = 0 := by
      rw [Nat.shiftRight_eq_div_pow]
      unfold RNG.toUint
      omega
    unfold RNG.big RNG.makeBytes
    rw [e2, if_neg (by omega)]
    simp only [bind, Except.bind, pure, Except.pure]
    cases hr : src.read (zeros 0) s with
    | error e => exact ⟨e, rfl⟩
    | ok r =>
      have hl := src.len_buf _ _ r.1 r.2 hr
      rw [zeros_length] at hl
      simp only [List.eq_nil_of_length_eq_zero hl]
      exact ⟨_, rfl⟩

example : RNG.big byteTape 12 [0xff#8, 0x21#8] = .ok (0xf21, []) := by rfl

/-- `Big(nbits)` returns `v` when the source delivers exactly the bytes `b`. -/
def BigReturns (nbits : Nat) (b : List Byte) (v : Int) : Prop := RNG.big byteTape nbits b = .ok (v, [])

theorem byteTape_read (n : Nat) (b : List Byte) (h : b.length = n) :
    byteTape.read (zeros n) b = .ok (⟨b, n, none⟩, []) := by
  subst h
  show (if (zeros b.length).length ≤ b.length then _ else _) = _
  rw [zeros_length, if_pos (Nat.le_refl _), List.take_length, List.drop_length]

theorem big_tape (nbits : Nat) (h0 : 0 < nbits) (hm : (nbits + 7) / 8 ≤ RNG.maxAlloc) (b : List Byte)
    (hb : b.length = (nbits + 7) / 8) :
    RNG.big byteTape nbits b = .ok (((RNG.setBytes b % 2 ^ RNG.bigBits nbits : Nat) : Int), []) := by
  rw [RNG.big_eq byteTape nbits h0 hm, byteTape_read _ b hb]
  rfl

theorem countBytes_congr (n : Nat) (P Q : List Byte → Prop) (h : ∀ b, b.length = n → (P b ↔ Q b)) :
    countBytes n P = countBytes n Q := by
  unfold countBytes
  refine Nat.card_congr (Equiv.subtypeEquivRight fun b => ?_)
  constructor
  · rintro ⟨h1, h2⟩; exact ⟨h1, (h b h1).mp h2⟩
  · rintro ⟨h1, h2⟩; exact ⟨h1, (h b h1).mpr h2⟩

/-- Counting the numbers below a multiple of `m` in a residue class. -/
theorem count_mod (m q v : Nat) (hv : v < m) : (m * q).count (fun n => n % m = v) = q := by
  have hm : 0 < m := by omega
  have := Nat.count_modEq_card (m * q) hm v
  simp only [Nat.ModEq, Nat.mod_eq_of_lt hv, Nat.mul_div_cancel_left _ hm, Nat.mul_mod_right, Nat.not_lt_zero,
    if_false, Nat.add_zero] at this
  exact this

theorem countBytes_mod (n k v : Nat) (hk : k ≤ 8 * n) (hv : v < 2 ^ k) :
    countBytes n (fun b => RNG.setBytes b % 2 ^ k = v) = 2 ^ (8 * n - k) := by
  have hM : 2 ^ k * 2 ^ (8 * n - k) = 256 ^ n := by
    rw [← Nat.pow_add, Nat.add_sub_cancel' hk, Nat.pow_mul]
  rw [RNG.countBytes_eq n _ hM (fun N => N % 2 ^ k = v), count_mod _ _ _ hv]

/-- C16: if `nbits` is not a multiple of 8, every value of `nbits` bits is returned for the same number of the
`⌈nbits/8⌉`-byte strings the source can deliver. -/
theorem C16_even (nbits : Nat) (h8 : nbits % 8 ≠ 0) (hm : (nbits + 7) / 8 ≤ RNG.maxAlloc) (v : Nat) (hv : v < 2 ^ nbits) :
    countBytes ((nbits + 7) / 8) (fun b => BigReturns nbits b v) = 2 ^ (8 * ((nbits + 7) / 8) - nbits) := by
  have h0 : 0 < nbits := by omega
  have hb : RNG.bigBits nbits = nbits := by rw [RNG.bigBits_eq nbits h0, if_neg h8]
  rw [← countBytes_mod ((nbits + 7) / 8) nbits v (by omega) hv]
  refine countBytes_congr _ _ _ fun b hl => ?_
  unfold BigReturns
  rw [big_tape nbits h0 hm b hl, hb]
  simp only [Except.ok.injEq, Prod.mk.injEq, and_true]
  exact Int.ofNat_inj

/-- C16 is false for multiples of 8: on every source, every result of `Big(nbits)` is below `2^(nbits-8)`: the most
significant byte is always cleared. -/
theorem C16_top_byte_cleared (src : Source σ) (nbits : Nat) (h0 : 0 < nbits) (h8 : nbits % 8 = 0)
    (hm : (nbits + 7) / 8 ≤ RNG.maxAlloc) (s s' : σ) (v : Int) (h : RNG.big src nbits s = .ok (v, s')) :
    v < 2 ^ (nbits - 8) := by
  have hb : RNG.bigBits nbits = nbits - 8 := by rw [RNG.bigBits_eq nbits h0, if_pos h8]
  rw [RNG.big_eq src nbits h0 hm] at h
  cases hr : src.read (zeros ((nbits + 7) / 8)) s with
  | error e => rw [hr] at h; simp [Except.map] at h
  | ok r =>
    rw [hr] at h
    simp only [Except.map, Except.ok.injEq, Prod.mk.injEq, hb] at h
    obtain ⟨rfl, -⟩ := h
    have h1 : RNG.setBytes r.1.buf % 2 ^ (nbits - 8) < 2 ^ (nbits - 8) := Nat.mod_lt _ (by positivity)
    exact_mod_cast h1

/-- C16 for multiples of 8: the values below `2^(nbits-8)` are returned equally often. -/
theorem C16_even_below (nbits : Nat) (h0 : 0 < nbits) (h8 : nbits % 8 = 0) (hm : (nbits + 7) / 8 ≤ RNG.maxAlloc)
    (v : Nat) (hv : v < 2 ^ (nbits - 8)) :
    countBytes (nbits / 8) (fun b => BigReturns nbits b v) = 256 := by
  have hb : RNG.bigBits nbits = nbits - 8 := by rw [RNG.bigBits_eq nbits h0, if_pos h8]
  have hl : (nbits + 7) / 8 = nbits / 8 := by omega
  have := countBytes_mod (nbits / 8) (nbits - 8) v (by omega) hv
  rw [show 8 * (nbits / 8) - (nbits - 8) = 8 by omega] at this
  rw [show 256 = 2 ^ 8 from rfl, ← this]
  refine countBytes_congr _ _ _ fun b hlb => ?_
  unfold BigReturns
  rw [big_tape nbits h0 hm b (hlb.trans hl.symm), hb]
  simp only [Except.ok.injEq, Prod.mk.injEq, and_true]
  exact Int.ofNat_inj

/-- C16: `Big(8)` is always 0. -/
theorem C16_Big8 (src : Source σ) (s s' : σ) (v : Int) (h : RNG.big src 8 s = .ok (v, s')) : v = 0 := by
  have h1 := C15_range src 8 (by decide) (by decide) s s' v h
  have h2 := C16_top_byte_cleared src 8 (by decide) (by decide) (by decide) s s' v h
  simp only [Nat.sub_self, Int.pow_zero] at h2
  omega

example : BigReturns 12 [0x5f#8, 0x21#8] 0xf21 := by unfold BigReturns; rfl
example : BigReturns 16 [0x5f#8, 0x21#8] 0x21 := by unfold BigReturns; rfl

/-! ### C17, C18 -/

theorem bitLen_spec (n : Nat) (h : 0 < n) : 2 ^ (RNG.bitLen n - 1) ≤ n ∧ n < 2 ^ RNG.bitLen n := by
  unfold RNG.bitLen
  rw [if_neg (by omega), Nat.add_sub_cancel]
  exact ⟨Nat.log2_self_le (by omega), Nat.lt_log2_self⟩

theorem big_nonneg (src : Source σ) (nbits : Nat) (s : σ) (v : Int) (s' : σ)
    (h : RNG.big src nbits s = .ok (v, s')) : 0 ≤ v := by
  unfold RNG.big at h
  simp only [bind, Except.bind, pure, Except.pure] at h
  split at h
  · contradiction
  split at h
  · contradiction
  split at h
  · contradiction
  simp only [Except.ok.injEq, Prod.mk.injEq] at h
  rw [← h.1]
  exact Int.natCast_nonneg _

theorem bignLoop_range (src : Source σ) (max k : Int) (hmax : 0 < max) (nbits fuel : Nat) :
    ∀ x s r s', 0 ≤ x → RNG.bignLoop src max k nbits fuel x s = .ok (r, s') → 0 ≤ r ∧ r < max := by
  induction fuel with
  | zero =>
    intro x s r s' hx he
    unfold RNG.bignLoop at he
    split at he
    · contradiction
    · simp only [Except.ok.injEq, Prod.mk.injEq] at he
      rw [← he.1, Int.tmod_eq_emod_of_nonneg hx]
      exact ⟨Int.emod_nonneg _ (by omega), Int.emod_lt_of_pos _ hmax⟩
  | succ n ih =>
    intro x s r s' hx he
    unfold RNG.bignLoop at he
    split at he
    · simp only [bind, Except.bind] at he
      split at he
      · contradiction
      · rename_i v hv
        exact ih _ _ _ _ (big_nonneg src nbits s v.1 v.2 hv) he
    · simp only [Except.ok.injEq, Prod.mk.injEq] at he
      rw [← he.1, Int.tmod_eq_emod_of_nonneg hx]
      exact ⟨Int.emod_nonneg _ (by omega), Int.emod_lt_of_pos _ hmax⟩

/-- C17: a value returned by `Bign(max)` lies in `[0, max)`, for every `max`, source and number of rejected draws. -/
theorem C17_range (src : Source σ) (fuel : Nat) (max : Int) (s s' : σ) (r : Int)
    (h : RNG.bign src fuel max s = .ok (r, s')) : 0 ≤ r ∧ r < max := by
  unfold RNG.bign at h
  by_cases hm : max ≤ 0
  · rw [if_pos hm] at h; simp [bind, Except.bind] at h
  · simp only [if_neg hm, bind, Except.bind] at h
    split at h
    · contradiction
    · rename_i v hv
      exact bignLoop_range src max _ (by omega) _ fuel _ _ _ _ (big_nonneg src _ s v.1 v.2 hv) h

/-- C17: `Bign(max)` panics for every `max ≤ 0`, on every source, also one that panics when read. -/
theorem C17_panics (src : Source σ) (fuel : Nat) (max : Int) (hm : max ≤ 0) (s : σ) :
    RNG.bign src fuel max s = .error (.explicit "maximum zero or below") := by
  unfold RNG.bign
  rw [if_pos hm]; rfl

/-- `Bign(max)` accepts the draw `b` (the bytes of one `Read`) and returns `r`. -/
def BignReturns (max : Nat) (b : List Byte) (r : Int) : Prop := RNG.bign byteTape 0 max b = .ok (r, [])

theorem bignReturns_iff (max : Nat) (hmax : 0 < max) (n : Nat) (hn : n = (RNG.bitLen max + 8) / 8)
    (hm : n ≤ RNG.maxAlloc) (b : List Byte) (hb : b.length = n) (r : Nat) :
    BignReturns max b r ↔
      RNG.setBytes b % 2 ^ RNG.bigBits (RNG.bitLen max + 1) ≤ max * ((2 ^ (RNG.bitLen max + 1) - 1) / max) ∧
      RNG.setBytes b % 2 ^ RNG.bigBits (RNG.bitLen max + 1) % max = r := by
  subst hn
  unfold BignReturns RNG.bign
  simp only [if_neg (show ¬ (max : Int) ≤ 0 by omega), bind, Except.bind, Int.natAbs_natCast]
  have hbig := big_tape (RNG.bitLen max + 1) (by omega) hm b hb
  rw [hbig]
  simp only []
  generalize RNG.setBytes b % 2 ^ RNG.bigBits (RNG.bitLen max + 1) = X
  have hk : ((2 : Int) ^ (RNG.bitLen max + 1) - 1 - ((2 : Int) ^ (RNG.bitLen max + 1) - 1).tmod max) =
      ((max * ((2 ^ (RNG.bitLen max + 1) - 1) / max) : Nat) : Int) := by
    have e : (2 : Int) ^ (RNG.bitLen max + 1) - 1 = ((2 ^ (RNG.bitLen max + 1) - 1 : Nat) : Int) := by
      rw [Int.natCast_sub (Nat.one_le_two_pow)]; push_cast; rfl
    rw [e]
    generalize 2 ^ (RNG.bitLen max + 1) - 1 = Y
    rw [Int.tmod_eq_emod_of_nonneg (Int.natCast_nonneg _)]
    have := Nat.div_add_mod Y max
    push_cast
    have h2 : ((Y : Int) = max * (Y / max) + Y % max) := by
      exact_mod_cast this.symm
    omega
  rw [hk]
  unfold RNG.bignLoop
  generalize max * ((2 ^ (RNG.bitLen max + 1) - 1) / max) = K
  by_cases hc : (K : Int) < (X : Int)
  · rw [if_pos hc]
    constructor
    · intro h; contradiction
    · rintro ⟨h, -⟩; omega
  · rw [if_neg hc]
    simp only [Except.ok.injEq, Prod.mk.injEq, and_true]
    rw [Int.tmod_eq_emod_of_nonneg (Int.natCast_nonneg _)]
    constructor
    · intro h; exact ⟨by omega, by exact_mod_cast h⟩
    · rintro ⟨-, h⟩; exact_mod_cast h

theorem count_le_mod (max q r N : Nat) (hr : r < max) (hN : max * q < N) :
    N.count (fun x => x ≤ max * q ∧ x % max = r) = q + if r = 0 then 1 else 0 := by
  have e : N.count (fun x => x ≤ max * q ∧ x % max = r) = (max * q + 1).count (fun x => x % max = r) := by
    rw [Nat.count_eq_card_filter_range, Nat.count_eq_card_filter_range]
    congr 1
    ext n
    simp only [Finset.mem_filter, Finset.mem_range]
    constructor
    · rintro ⟨h1, h2, h3⟩; exact ⟨by omega, h3⟩
    · rintro ⟨h1, h2⟩; exact ⟨by omega, by omega, h2⟩
  rw [e, Nat.count_succ, count_mod max q r hr, Nat.mul_mod_right]
  by_cases h : r = 0
  · rw [if_pos h, if_pos h.symm]
  · rw [if_neg h, if_neg (fun h' => h h'.symm)]

/-- A count over residues modulo `2^k` of numbers below `2^k * q`. -/
theorem count_mod_pred (m q : Nat) (P : Nat → Prop) [DecidablePred P] :
    (m * q).count (fun N => P (N % m)) = m.count P * q := by
  induction q with
  | zero => simp
  | succ q ih =>
    rw [Nat.mul_succ, Nat.count_add, ih, Nat.mul_succ]
    congr 1
    have : (fun k => P ((m * q + k) % m)) = fun k => P (k % m) := by
      funext k; rw [Nat.mul_add_mod]
    simp only [Nat.count_eq_card_filter_range, Nat.mul_add_mod]
    congr 1
    ext n
    simp only [Finset.mem_filter, Finset.mem_range]
    constructor
    · rintro ⟨h1, h2⟩; rw [Nat.mod_eq_of_lt h1] at h2; exact ⟨h1, h2⟩
    · rintro ⟨h1, h2⟩; rw [Nat.mod_eq_of_lt h1]; exact ⟨h1, h2⟩

/-- The step of `C18_biased`. -/
theorem bign_biased (max : Nat) (hmax : 0 < max) (h7 : RNG.bitLen max % 8 ≠ 7) (n : Nat)
    (hn : n = (RNG.bitLen max + 8) / 8) (hm : n ≤ RNG.maxAlloc) (K : Nat)
    (hK : max ∣ K ∧ K < 2 ^ (RNG.bitLen max + 1) ∧ ∀ M, max ∣ M → M < 2 ^ (RNG.bitLen max + 1) → M ≤ K)
    (r : Nat) (hr : r < max) :
    countBytes n (fun b => BignReturns max b r) =
      (K / max + if r = 0 then 1 else 0) * 2 ^ (8 * n - (RNG.bitLen max + 1)) := by
  have hb : RNG.bigBits (RNG.bitLen max + 1) = RNG.bitLen max + 1 := by
    rw [RNG.bigBits_eq _ (by omega), if_neg (by omega)]
  have hK' : K = max * ((2 ^ (RNG.bitLen max + 1) - 1) / max) := by
    have hd := Nat.div_add_mod (2 ^ (RNG.bitLen max + 1) - 1) max
    have hp : 0 < 2 ^ (RNG.bitLen max + 1) := by positivity
    obtain ⟨⟨q, rfl⟩, h2, h3⟩ := hK
    apply Nat.le_antisymm
    · exact Nat.mul_le_mul_left _ ((Nat.le_div_iff_mul_le hmax).mpr (by rw [Nat.mul_comm]; omega))
    · exact h3 _ ⟨_, rfl⟩ (by omega)
  rw [countBytes_congr n _ (fun b => (fun N => N % 2 ^ (RNG.bitLen max + 1) ≤ K ∧
    N % 2 ^ (RNG.bitLen max + 1) % max = r) (RNG.setBytes b)) (fun b hl => by
      rw [bignReturns_iff max hmax n hn hm b hl r, hb, ← hK'])]
  have hM : 2 ^ (RNG.bitLen max + 1) * 2 ^ (8 * n - (RNG.bitLen max + 1)) = 256 ^ n := by
    rw [← Nat.pow_add, Nat.add_sub_cancel' (by omega), Nat.pow_mul]
  rw [RNG.countBytes_eq n _ hM (fun N => N % 2 ^ (RNG.bitLen max + 1) ≤ K ∧
    N % 2 ^ (RNG.bitLen max + 1) % max = r), count_mod_pred _ _ (fun x => x ≤ K ∧ x % max = r)]
  obtain ⟨⟨q, rfl⟩, h2, -⟩ := hK
  rw [count_le_mod max q r _ hr h2, Nat.mul_div_cancel_left _ hmax]

theorem emod_le (x : Int) (m : Nat) (h : 0 ≤ x) : x % (m : Int) ≤ x := by
  obtain ⟨n, rfl⟩ := Int.eq_ofNat_of_zero_le h
  exact_mod_cast Nat.mod_le n m

/-- The step of `C18_small`. -/
theorem bign_small (src : Source σ) (fuel : Nat) (max : Nat) (hmax : 0 < max) (h7 : RNG.bitLen max % 8 = 7)
    (hm : (RNG.bitLen max + 8) / 8 ≤ RNG.maxAlloc) (s s' : σ) (r : Int)
    (h : RNG.bign src fuel max s = .ok (r, s')) : r < 2 ^ (RNG.bitLen max - 7) := by
  have hbound : ∀ s v s', RNG.big src (RNG.bitLen max + 1 : Nat) s = .ok (v, s') → 0 ≤ v ∧ v < 2 ^ (RNG.bitLen max - 7) := by
    intro s v s' h
    have := C16_top_byte_cleared src (RNG.bitLen max + 1) (by omega) (by omega) (by omega) s s' v h
    rw [show RNG.bitLen max + 1 - 8 = RNG.bitLen max - 7 by omega] at this
    exact ⟨big_nonneg src _ s v s' h, this⟩
  have hloop : ∀ k fuel x s r s', 0 ≤ x → x < 2 ^ (RNG.bitLen max - 7) →
      RNG.bignLoop src max k (RNG.bitLen max + 1) fuel x s = .ok (r, s') → r < 2 ^ (RNG.bitLen max - 7) := by
    intro k fuel
    induction fuel with
    | zero =>
      intro x s r s' h1 h2 h
      unfold RNG.bignLoop at h
      split at h
      · contradiction
      · simp only [Except.ok.injEq, Prod.mk.injEq] at h
        rw [← h.1, Int.tmod_eq_emod_of_nonneg h1]
        exact Int.lt_of_le_of_lt (emod_le x max h1) h2
    | succ n ih =>
      intro x s r s' h1 h2 h
      unfold RNG.bignLoop at h
      split at h
      · simp only [bind, Except.bind] at h
        split at h
        · contradiction
        · rename_i v hv
          obtain ⟨h3, h4⟩ := hbound s v.1 v.2 hv
          exact ih _ _ _ _ h3 h4 h
      · simp only [Except.ok.injEq, Prod.mk.injEq] at h
        rw [← h.1, Int.tmod_eq_emod_of_nonneg h1]
        exact Int.lt_of_le_of_lt (emod_le x max h1) h2
  unfold RNG.bign at h
  simp only [if_neg (show ¬ (max : Int) ≤ 0 by omega), bind, Except.bind, Int.natAbs_natCast] at h
  split at h
  · contradiction
  · rename_i v hv
    obtain ⟨h3, h4⟩ := hbound s v.1 v.2 hv
    exact hloop _ _ _ _ _ _ h3 h4 h

/-- `k` bits are needed to write `max`: this is `max.BitLen()`. -/
def NeedsBits (max k : Nat) : Prop := max < 2 ^ k ∧ ∀ j, max < 2 ^ j → k ≤ j

theorem needsBits_iff (max k : Nat) : NeedsBits max k ↔ RNG.bitLen max = k := by
  have hl : NeedsBits max (RNG.bitLen max) := by
    by_cases h0 : max = 0
    · subst h0
      exact ⟨by decide, fun j _ => Nat.zero_le j⟩
    · refine ⟨?_, fun j hj => ?_⟩
      · unfold RNG.bitLen
        rw [if_neg h0]
        exact Nat.lt_log2_self
      · unfold RNG.bitLen
        rw [if_neg h0]
        exact (Nat.log2_lt h0).mpr hj
  constructor
  · intro h
    exact Nat.le_antisymm (hl.2 _ h.1) (h.2 _ hl.1)
  · rintro rfl
    exact hl

/-- C18: let `k` be the number of bits of `max`, not 7 modulo 8, and `K` the largest multiple of `max` of at most `k + 1` bits. Of the
strings of the `n` bytes that a draw takes, those on which `Bign(max)` returns `r` number `K/max` units, and one unit more for
`r = 0` (a unit being the `2^(8n - k - 1)` strings that differ only in the bits that are masked off). -/
theorem C18_biased (max k : Nat) (hmax : 0 < max) (hk : NeedsBits max k) (h7 : k % 8 ≠ 7) (n : Nat)
    (hn : n = (k + 8) / 8) (hm : n ≤ RNG.maxAlloc) (K : Nat)
    (hK : max ∣ K ∧ K < 2 ^ (k + 1) ∧ ∀ M, max ∣ M → M < 2 ^ (k + 1) → M ≤ K) (r : Nat) (hr : r < max) :
    countBytes n (fun b => BignReturns max b r) = (K / max + if r = 0 then 1 else 0) * 2 ^ (8 * n - (k + 1)) := by
  obtain rfl := (needsBits_iff max k).mp hk
  exact bign_biased max hmax h7 n hn hm K hK r hr

/-- C18: if the number `k` of bits of `max` is 7 modulo 8, on every source every result is below `2^(k-7)`, less than a 63rd of
the range. -/
theorem C18_small (src : Source σ) (fuel : Nat) (max k : Nat) (hmax : 0 < max) (hk : NeedsBits max k) (h7 : k % 8 = 7)
    (hm : (k + 8) / 8 ≤ RNG.maxAlloc) (s s' : σ) (r : Int) (h : RNG.bign src fuel max s = .ok (r, s')) : r < 2 ^ (k - 7) := by
  obtain rfl := (needsBits_iff max k).mp hk
  exact bign_small src fuel max hmax h7 hm s s' r h

/-- C18: if `k` is 7 modulo 8, each of the results below `2^(k-7)` is returned for exactly 256 of the strings of the `(k + 1)/8` bytes that a draw
takes, that is, for all values of the cleared byte. -/
theorem C18_small_even (max k : Nat) (hmax : 0 < max) (hk : NeedsBits max k) (h7 : k % 8 = 7) (hm : (k + 8) / 8 ≤ RNG.maxAlloc) (r : Nat)
    (hr : r < 2 ^ (k - 7)) : countBytes ((k + 1) / 8) (fun b => BignReturns max b r) = 256 := by
  obtain rfl := (needsBits_iff max k).mp hk
  have hb : RNG.bigBits (RNG.bitLen max + 1) = RNG.bitLen max - 7 := by
    rw [RNG.bigBits_eq _ (by omega), if_pos (by omega)]
    omega
  have hl : (RNG.bitLen max + 1) / 8 = (RNG.bitLen max + 8) / 8 := by omega
  have hc := countBytes_mod ((RNG.bitLen max + 1) / 8) (RNG.bitLen max - 7) r (by omega) hr
  rw [show 8 * ((RNG.bitLen max + 1) / 8) - (RNG.bitLen max - 7) = 8 by omega] at hc
  rw [show 256 = 2 ^ 8 from rfl, ← hc]
  refine countBytes_congr _ _ _ fun b hlb => ?_
  rw [bignReturns_iff max hmax _ hl (hl ▸ hm) b hlb r, hb]
  have hx : RNG.setBytes b % 2 ^ (RNG.bitLen max - 7) < 2 ^ (RNG.bitLen max - 7) := Nat.mod_lt _ (Nat.two_pow_pos _)
  have hlo := (bitLen_spec max hmax).1
  have h2 : 2 ^ (RNG.bitLen max - 7) ≤ 2 ^ (RNG.bitLen max - 1) := Nat.pow_le_pow_right (by decide) (by omega)
  have hhi : max < 2 ^ (RNG.bitLen max + 1) - 1 := by
    have h3 := (bitLen_spec max hmax).2
    rw [Nat.pow_succ]
    have := Nat.two_pow_pos (RNG.bitLen max)
    omega
  have h4 : 1 ≤ (2 ^ (RNG.bitLen max + 1) - 1) / max := (Nat.le_div_iff_mul_le hmax).mpr (by omega)
  have h5 : max ≤ max * ((2 ^ (RNG.bitLen max + 1) - 1) / max) := Nat.le_mul_of_pos_right _ h4
  rw [Nat.mod_eq_of_lt (show RNG.setBytes b % 2 ^ (RNG.bitLen max - 7) < max by omega)]
  exact ⟨fun h => h.2, fun h => ⟨by omega, h⟩⟩

/-- C18: for no `max ≥ 2` that needs `k` bits are all results equally likely on uniform bytes. -/
theorem C18_never_uniform (max k : Nat) (hmax : 2 ≤ max) (hk : NeedsBits max k) (hm : (k + 8) / 8 ≤ RNG.maxAlloc) :
    ∃ r < max, countBytes ((k + 8) / 8) (fun b => BignReturns max b r) < countBytes ((k + 8) / 8) (fun b => BignReturns max b 0) := by
  by_cases h7 : k % 8 = 7
  · refine ⟨2 ^ (k - 7), ?_, ?_⟩
    · obtain rfl := (needsBits_iff max k).mp hk
      have hlo := (bitLen_spec max (by omega)).1
      have h2 : 2 ^ (RNG.bitLen max - 7) < 2 ^ (RNG.bitLen max - 1) := Nat.pow_lt_pow_right (by decide) (by omega)
      omega
    · have hl : (k + 8) / 8 = (k + 1) / 8 := by omega
      have h0 := C18_small_even max k (by omega) hk h7 hm 0 (Nat.two_pow_pos _)
      have h1 : countBytes ((k + 8) / 8) (fun b => BignReturns max b (2 ^ (k - 7) : Nat)) = 0 := by
        unfold countBytes
        rw [Nat.card_eq_zero]
        refine Or.inl ⟨fun b => ?_⟩
        have h := C18_small byteTape 0 max k (by omega) hk h7 hm b.1 [] _ b.2.2
        rw [Nat.cast_pow, Nat.cast_ofNat] at h
        exact absurd h (Int.lt_irrefl _)
      rw [← hl] at h0
      have h0' : countBytes ((k + 8) / 8) (fun b => BignReturns max b 0) = 256 := h0
      rw [h1, h0']
      decide
  · obtain ⟨K, hK⟩ : ∃ K, max ∣ K ∧ K < 2 ^ (k + 1) ∧ ∀ M, max ∣ M → M < 2 ^ (k + 1) → M ≤ K := by
      refine ⟨max * ((2 ^ (k + 1) - 1) / max), ⟨_, rfl⟩, ?_, ?_⟩
      · have := Nat.mul_div_le (2 ^ (k + 1) - 1) max
        have := Nat.two_pow_pos (k + 1)
        omega
      · rintro M ⟨q, rfl⟩ hM
        exact Nat.mul_le_mul_left _ ((Nat.le_div_iff_mul_le (by omega)).mpr (by rw [Nat.mul_comm]; omega))
    have h0 := C18_biased max k (by omega) hk h7 _ rfl hm K hK 0 (by omega)
    have h1 := C18_biased max k (by omega) hk h7 _ rfl hm K hK 1 (by omega)
    refine ⟨1, by omega, ?_⟩
    have h0' : countBytes ((k + 8) / 8) (fun b => BignReturns max b 0) = (K / max + 1) * 2 ^ (8 * ((k + 8) / 8) - (k + 1)) := h0
    rw [h0', h1, if_neg (by decide), Nat.add_zero]
    exact Nat.mul_lt_mul_of_pos_right (Nat.lt_succ_self _) (Nat.two_pow_pos _)

/-- Non-vacuity: 1000 needs 10 bits, and the largest multiple of 1000 below `2^11` is 2000; 100 needs 7 bits. -/
example : NeedsBits 1000 10 ∧ NeedsBits 100 7 := by
  rw [needsBits_iff, needsBits_iff]
  decide +kernel

/-- C18: `Bign(max)` is always 0 for `64 ≤ max ≤ 127`. -/
theorem C18_always_zero (src : Source σ) (fuel : Nat) (max : Nat) (h1 : 64 ≤ max) (h2 : max ≤ 127) (s s' : σ) (r : Int)
    (h : RNG.bign src fuel max s = .ok (r, s')) : r = 0 := by
  have hb : RNG.bitLen max = 7 := by
    unfold RNG.bitLen
    rw [if_neg (by omega)]
    have : max.log2 = 6 := by
      rw [Nat.log2_eq_iff (by omega)]; omega
    omega
  have h3 := bign_small src fuel max (by omega) (by rw [hb]) (by rw [hb]; decide) s s' r h
  have h4 := C17_range src fuel max s s' r h
  rw [hb] at h3
  simp at h3
  omega

example : BignReturns 100 [0xff#8] 0 := by unfold BignReturns; rfl
example : BignReturns 1000 [0x03#8, 0xe9#8] 1 := by unfold BignReturns; rfl

end Crazy
