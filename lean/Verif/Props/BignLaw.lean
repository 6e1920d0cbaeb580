/-
C89: the distribution of Bign, with its rejections, on a source of independent, uniform bytes.
-/
import Verif.Spec.ProbBytes
import Verif.Props.BignTerm
import Verif.Proofs.UintnLaw
namespace Crazy

theorem finite_bytes (n : Nat) (P : List Byte → Prop) : Finite {b : List Byte // b.length = n ∧ P b} :=
  have : Finite Byte := Finite.of_injective (fun b : Byte => b.toFin) fun _ _ h => BitVec.eq_of_toFin_eq h
  Set.Finite.subset (List.finite_length_eq Byte n) fun _ h => h.1

/-- Strings whose beginning decides, or leaves it to the rest. -/
theorem countBytes_split (a b : Nat) (P acc rej Q : List Byte → Prop) (hd : ∀ d, ¬ (acc d ∧ rej d))
    (h : ∀ d t, d.length = a → t.length = b → (P (d ++ t) ↔ acc d ∨ rej d ∧ Q t)) :
    countBytes (a + b) P = countBytes a acc * countBytes b (fun _ => True) + countBytes a rej * countBytes b Q := by
  classical
  have f1 := finite_bytes a acc
  have f2 := finite_bytes a rej
  have f3 := finite_bytes b Q
  have f4 := finite_bytes b fun _ => True
  unfold countBytes
  rw [← Nat.card_prod, ← Nat.card_prod, ← Nat.card_sum]
  refine Nat.card_congr {
    toFun := fun l => if ha : acc (l.1.take a) then .inl (⟨l.1.take a, by rw [List.length_take, l.2.1]; omega, ha⟩,
        ⟨l.1.drop a, by rw [List.length_drop, l.2.1]; omega, trivial⟩)
      else .inr (⟨l.1.take a, by rw [List.length_take, l.2.1]; omega, ?_⟩, ⟨l.1.drop a, by rw [List.length_drop, l.2.1]; omega, ?_⟩)
    invFun := fun x => match x with
      | .inl (d, t) => ⟨d.1 ++ t.1, by rw [List.length_append, d.2.1, t.2.1], (h _ _ d.2.1 t.2.1).mpr (Or.inl d.2.2)⟩
      | .inr (d, t) => ⟨d.1 ++ t.1, by rw [List.length_append, d.2.1, t.2.1], (h _ _ d.2.1 t.2.1).mpr (Or.inr ⟨d.2.2, t.2.2⟩)⟩
    left_inv := ?_
    right_inv := ?_ }
  · have hp := l.2.2
    rw [← List.take_append_drop a l.1, h _ _ (by rw [List.length_take, l.2.1]; omega) (by rw [List.length_drop, l.2.1]; omega)] at hp
    exact (hp.resolve_left ha).1
  · have hp := l.2.2
    rw [← List.take_append_drop a l.1, h _ _ (by rw [List.length_take, l.2.1]; omega) (by rw [List.length_drop, l.2.1]; omega)] at hp
    exact (hp.resolve_left ha).2
  · rintro ⟨l, h1, h2⟩
    by_cases ha : acc (l.take a)
    · simp only [dif_pos ha]
      exact Subtype.ext (List.take_append_drop a l)
    · simp only [dif_neg ha]
      exact Subtype.ext (List.take_append_drop a l)
  · rintro (⟨⟨d, h1, h2⟩, ⟨t, h3, h4⟩⟩ | ⟨⟨d, h1, h2⟩, ⟨t, h3, h4⟩⟩)
    · have e1 : (d ++ t).take a = d := by rw [← h1, List.take_left]
      have e2 : (d ++ t).drop a = t := by rw [← h1, List.drop_left]
      simp only [e1, e2]
      exact dif_pos h2
    · have e1 : (d ++ t).take a = d := by rw [← h1, List.take_left]
      have e2 : (d ++ t).drop a = t := by rw [← h1, List.drop_left]
      simp only [e1, e2]
      exact dif_neg fun hx => hd d ⟨hx, h2⟩

theorem countBytes_true (n : Nat) : countBytes n (fun _ => True) = 256 ^ n := by
  have h := RNG.countBytes_eq n _ rfl (fun _ => True)
  rw [h]
  exact Nat.count_true _

theorem byteTape_append (n : Nat) (d t : List Byte) (h : d.length = n) : byteTape.read (zeros n) (d ++ t) = .ok (⟨d, n, none⟩, t) := by
  subst h
  show (if (zeros d.length).length ≤ (d ++ t).length then _ else _) = _
  rw [zeros_length, if_pos (by rw [List.length_append]; omega), List.take_left, List.drop_left]

/-- One draw of `Bign`. -/
theorem bign_append (n max : Nat) (hmax : 0 < max) (len : Nat) (hl : len = (RNG.bitLen max + 8) / 8) (hm : len ≤ RNG.maxAlloc) (d t : List Byte)
    (hd : d.length = len) :
    (RNG.setBytes d % 2 ^ RNG.bigBits (RNG.bitLen max + 1) ≤ max * ((2 ^ (RNG.bitLen max + 1) - 1) / max) →
      RNG.bign byteTape n max (d ++ t) = .ok (((RNG.setBytes d % 2 ^ RNG.bigBits (RNG.bitLen max + 1) % max : Nat) : Int), t)) ∧
    (¬ RNG.setBytes d % 2 ^ RNG.bigBits (RNG.bitLen max + 1) ≤ max * ((2 ^ (RNG.bitLen max + 1) - 1) / max) →
      (n = 0 → RNG.bign byteTape n max (d ++ t) = .error .fuel) ∧
      ∀ m, n = m + 1 → RNG.bign byteTape n max (d ++ t) = RNG.bign byteTape m max t) := by
  subst hl
  have hbig : RNG.big byteTape ((RNG.bitLen max + 1 : Nat) : Int) (d ++ t) =
      .ok (((RNG.setBytes d % 2 ^ RNG.bigBits (RNG.bitLen max + 1) : Nat) : Int), t) := by
    rw [RNG.big_eq byteTape _ (by omega) hm, show (RNG.bitLen max + 1 + 7) / 8 = (RNG.bitLen max + 8) / 8 from rfl, byteTape_append _ d t hd]
    rfl
  have hk : ((2 : Int) ^ (RNG.bitLen max + 1) - 1 - ((2 : Int) ^ (RNG.bitLen max + 1) - 1).tmod max) =
      ((max * ((2 ^ (RNG.bitLen max + 1) - 1) / max) : Nat) : Int) := by
    have e : (2 : Int) ^ (RNG.bitLen max + 1) - 1 = ((2 ^ (RNG.bitLen max + 1) - 1 : Nat) : Int) := by
      rw [Int.natCast_sub (Nat.one_le_two_pow)]; push_cast; rfl
    rw [e]
    generalize 2 ^ (RNG.bitLen max + 1) - 1 = Y
    rw [Int.tmod_eq_emod_of_nonneg (Int.natCast_nonneg _)]
    have := Nat.div_add_mod Y max
    push_cast
    have h2 : ((Y : Int) = max * (Y / max) + Y % max) := by exact_mod_cast this.symm
    omega
  have hb : ∀ m u, RNG.bign byteTape m max u = (RNG.big byteTape ((RNG.bitLen max + 1 : Nat) : Int) u >>= fun p =>
      RNG.bignLoop byteTape max ((max * ((2 ^ (RNG.bitLen max + 1) - 1) / max) : Nat) : Int) (RNG.bitLen max + 1) m p.1 p.2) := by
    intro m u
    unfold RNG.bign
    simp only [if_neg (show ¬ (max : Int) ≤ 0 by omega), bind, Except.bind, Int.natAbs_natCast, hk]
  rw [hb, hbig]
  simp only [bind, Except.bind]
  rw [RNG.bignLoop.eq_def]
  generalize RNG.setBytes d % 2 ^ RNG.bigBits (RNG.bitLen max + 1) = X
  generalize max * ((2 ^ (RNG.bitLen max + 1) - 1) / max) = K at hb
  constructor
  · intro h
    simp only
    rw [if_neg (by omega), Int.tmod_eq_emod_of_nonneg (Int.natCast_nonneg _)]
    push_cast
    rfl
  · intro h
    simp only
    rw [if_pos (by omega)]
    constructor
    · rintro rfl; rfl
    · rintro m rfl
      simp only
      rw [hb]

theorem count_accepted (max K N : Nat) (hK : K < N) (g : Nat → Prop) [DecidablePred g] :
    ((N.count fun x => x ≤ K ∧ g (x % max) : Nat) : ℝ) = accepted max K g := by
  classical
  unfold accepted
  have e : (Finset.range N).filter (fun x => x ≤ K ∧ g (x % max)) = (Finset.range (K + 1)).filter fun x => g (x % max) := by
    ext x
    simp only [Finset.mem_filter, Finset.mem_range]
    constructor
    · rintro ⟨h1, h2, h3⟩; exact ⟨by omega, h3⟩
    · rintro ⟨h1, h2⟩; exact ⟨by omega, by omega, h2⟩
  rw [Nat.count_eq_card_filter_range, e, Finset.card_filter, Nat.cast_sum]
  refine Finset.sum_congr rfl fun x _ => ?_
  by_cases h : g (x % max) <;> simp [h]

/-- `Bign(max)` returns a value in `g` after at most `n` rejected draws. -/
def BignIn (n max : Nat) (g : Nat → Prop) (b : List Byte) : Prop := ∃ r rest, RNG.bign byteTape n max b = .ok (r, rest) ∧ g r.toNat

theorem bign_law_step (n max : Nat) (hmax : 0 < max) (h7 : RNG.bitLen max % 8 ≠ 7) (len : Nat) (hl : len = (RNG.bitLen max + 8) / 8)
    (hm : len ≤ RNG.maxAlloc) (g : Nat → Prop) (Q : List Byte → Prop)
    (hQ : ∀ d t, d.length = len → ¬ RNG.setBytes d % 2 ^ RNG.bigBits (RNG.bitLen max + 1) ≤ max * ((2 ^ (RNG.bitLen max + 1) - 1) / max) →
      (BignIn n max g (d ++ t) ↔ Q t)) (m : Nat) :
    probBytes (len + m) (BignIn n max g) = accepted max (max * ((2 ^ (RNG.bitLen max + 1) - 1) / max)) g / 2 ^ (RNG.bitLen max + 1) +
      (1 - ((max * ((2 ^ (RNG.bitLen max + 1) - 1) / max) : Nat) + 1) / 2 ^ (RNG.bitLen max + 1)) * probBytes m Q := by
  classical
  have hb : RNG.bigBits (RNG.bitLen max + 1) = RNG.bitLen max + 1 := by rw [RNG.bigBits_eq _ (by omega), if_neg (by omega)]
  have hK : max * ((2 ^ (RNG.bitLen max + 1) - 1) / max) < 2 ^ (RNG.bitLen max + 1) := by
    have := Nat.mul_div_le (2 ^ (RNG.bitLen max + 1) - 1) max
    have := Nat.two_pow_pos (RNG.bitLen max + 1)
    omega
  have hs := countBytes_split len m (BignIn n max g)
    (fun d => (fun N => N % 2 ^ (RNG.bitLen max + 1) ≤ max * ((2 ^ (RNG.bitLen max + 1) - 1) / max) ∧ g (N % 2 ^ (RNG.bitLen max + 1) % max)) (RNG.setBytes d))
    (fun d => (fun N => ¬ N % 2 ^ (RNG.bitLen max + 1) ≤ max * ((2 ^ (RNG.bitLen max + 1) - 1) / max)) (RNG.setBytes d)) Q
    (fun d h => h.2 h.1.1) (fun d t hd _ => ?_)
  · have hM : 2 ^ (RNG.bitLen max + 1) * 2 ^ (8 * len - (RNG.bitLen max + 1)) = 256 ^ len := by
      rw [← Nat.pow_add, Nat.add_sub_cancel' (by omega), Nat.pow_mul]
    rw [countBytes_true, RNG.countBytes_eq len _ hM (fun N => N % 2 ^ (RNG.bitLen max + 1) ≤ max * ((2 ^ (RNG.bitLen max + 1) - 1) / max) ∧
        g (N % 2 ^ (RNG.bitLen max + 1) % max)), RNG.countBytes_eq len _ hM (fun N => ¬ N % 2 ^ (RNG.bitLen max + 1) ≤
        max * ((2 ^ (RNG.bitLen max + 1) - 1) / max)),
      count_mod_pred _ _ (fun x => x ≤ max * ((2 ^ (RNG.bitLen max + 1) - 1) / max) ∧ g (x % max)),
      count_mod_pred _ _ (fun x => ¬ x ≤ max * ((2 ^ (RNG.bitLen max + 1) - 1) / max))] at hs
    have hc1 := count_accepted max _ _ hK g
    have hc2 : (((2 ^ (RNG.bitLen max + 1)).count fun x => ¬ x ≤ max * ((2 ^ (RNG.bitLen max + 1) - 1) / max) : Nat) : ℝ) =
        2 ^ (RNG.bitLen max + 1) - ((max * ((2 ^ (RNG.bitLen max + 1) - 1) / max) : Nat) + 1) := by
      have h1 : (2 ^ (RNG.bitLen max + 1)).count (fun x => ¬ x ≤ max * ((2 ^ (RNG.bitLen max + 1) - 1) / max)) +
          (max * ((2 ^ (RNG.bitLen max + 1) - 1) / max) + 1) = 2 ^ (RNG.bitLen max + 1) := by
        generalize max * ((2 ^ (RNG.bitLen max + 1) - 1) / max) = K at hK
        generalize 2 ^ (RNG.bitLen max + 1) = N at hK
        have e : (Finset.range N).filter (fun x => ¬ x ≤ K) = Finset.Ico (K + 1) N := by
          ext x
          simp only [Finset.mem_filter, Finset.mem_range, Finset.mem_Ico]
          omega
        rw [Nat.count_eq_card_filter_range, e, Nat.card_Ico]
        omega
      have h2 : (((2 ^ (RNG.bitLen max + 1)).count (fun x => ¬ x ≤ max * ((2 ^ (RNG.bitLen max + 1) - 1) / max)) : Nat) : ℝ) +
          ((max * ((2 ^ (RNG.bitLen max + 1) - 1) / max) : Nat) + 1) = 2 ^ (RNG.bitLen max + 1) := by
        exact_mod_cast h1
      linarith
    unfold probBytes
    rw [hs, pow_add (256 : ℝ) len m]
    have hM' : (2 : ℝ) ^ (RNG.bitLen max + 1) * 2 ^ (8 * len - (RNG.bitLen max + 1)) = 256 ^ len := by exact_mod_cast hM
    rw [Nat.cast_add, Nat.cast_mul, Nat.cast_mul, Nat.cast_mul, Nat.cast_mul, hc1, hc2, ← hM', Nat.cast_pow, Nat.cast_pow, Nat.cast_ofNat, Nat.cast_ofNat]
    have p1 : (0 : ℝ) < 2 ^ (RNG.bitLen max + 1) := by positivity
    have p2 : (0 : ℝ) < 2 ^ (8 * len - (RNG.bitLen max + 1)) := by positivity
    have p3 : (0 : ℝ) < 256 ^ m := by positivity
    generalize (2 : ℝ) ^ (RNG.bitLen max + 1) = a at *
    generalize (2 : ℝ) ^ (8 * len - (RNG.bitLen max + 1)) = b at *
    generalize (256 : ℝ) ^ m = c at *
    field_simp
  · have h := bign_append n max hmax len hl hm d t hd
    rw [hb] at h hQ
    by_cases hx : RNG.setBytes d % 2 ^ (RNG.bitLen max + 1) ≤ max * ((2 ^ (RNG.bitLen max + 1) - 1) / max)
    · have h1 := h.1 hx
      constructor
      · rintro ⟨r, rest, h2, h3⟩
        rw [h1, Except.ok.injEq, Prod.mk.injEq] at h2
        rw [← h2.1, Int.toNat_natCast] at h3
        exact Or.inl ⟨hx, h3⟩
      · rintro (h2 | h2)
        · exact ⟨_, _, h1, by rw [Int.toNat_natCast]; exact h2.2⟩
        · exact absurd hx h2.1
    · rw [hQ d t hd hx]
      constructor
      · intro h2; exact Or.inr ⟨hx, h2⟩
      · rintro (h2 | h2)
        · exact absurd h2.1 hx
        · exact h2.2

theorem bign_law_eq (n max : Nat) (hmax : 0 < max) (h7 : RNG.bitLen max % 8 ≠ 7) (len : Nat) (hl : len = (RNG.bitLen max + 8) / 8)
    (hm : len ≤ RNG.maxAlloc) (g : Nat → Prop) (K : Nat) (hK : K = max * ((2 ^ (RNG.bitLen max + 1) - 1) / max)) :
    probBytes ((n + 1) * len) (BignIn n max g) =
      accepted max K g / (K + 1) * (1 - (1 - (K + 1) / 2 ^ (RNG.bitLen max + 1)) ^ (n + 1)) := by
  have hp : (0 : ℝ) < K + 1 := by positivity
  have h2 : (0 : ℝ) < 2 ^ (RNG.bitLen max + 1) := by positivity
  induction n with
  | zero =>
    have h := bign_law_step 0 max hmax h7 len hl hm g (fun _ => False) (fun d t hd hx => ?_) 0
    · rw [← hK] at h
      have e : probBytes 0 (fun _ => False) = 0 := by
        unfold probBytes countBytes
        have : IsEmpty {b : List Byte // b.length = 0 ∧ False} := ⟨fun b => b.2.2⟩
        rw [Nat.card_of_isEmpty, Nat.cast_zero, zero_div]
      rw [e, Nat.add_zero, mul_zero, add_zero] at h
      rw [Nat.zero_add, Nat.one_mul, h, pow_one]
      generalize (2 : ℝ) ^ (RNG.bitLen max + 1) = a at *
      field_simp
      ring
    · constructor
      · rintro ⟨r, rest, h1, -⟩
        rw [((bign_append 0 max hmax len hl hm d t hd).2 hx).1 rfl] at h1
        cases h1
      · exact False.elim
  | succ n ih =>
    have h := bign_law_step (n + 1) max hmax h7 len hl hm g (BignIn n max g) (fun d t hd hx => ?_) ((n + 1) * len)
    · rw [← hK, ih] at h
      rw [Nat.succ_mul, Nat.add_comm, h, pow_succ _ (n + 1)]
      generalize (2 : ℝ) ^ (RNG.bitLen max + 1) = a at *
      generalize (1 - (K + 1) / a : ℝ) ^ (n + 1) = ρ
      field_simp
      ring
    · unfold BignIn
      rw [((bign_append (n + 1) max hmax len hl hm d t hd).2 hx).2 n rfl]

theorem largest_multiple (max N K : Nat) (hmax : 0 < max) (hN : 0 < N) (hK : max ∣ K ∧ K < N ∧ ∀ M, max ∣ M → M < N → M ≤ K) :
    K = max * ((N - 1) / max) := by
  have hd := Nat.div_add_mod (N - 1) max
  obtain ⟨⟨q, rfl⟩, h2, h3⟩ := hK
  apply Nat.le_antisymm
  · exact Nat.mul_le_mul_left _ ((Nat.le_div_iff_mul_le hmax).mpr (by rw [Nat.mul_comm]; omega))
  · exact h3 _ ⟨_, rfl⟩ (by omega)

/-- C89: the exact law of `Bign(max)`, for `max` of `k` bits, `k` not 7 modulo 8, so that a draw takes `len = (k+8)/8` bytes. With `K` the largest
multiple of `max` below `2^(k+1)`, the probability that it returns `r` after at most `n` rejected draws is `(K/max)/(K+1)` for `r ≠ 0` and
`(K/max + 1)/(K+1)` for `r = 0`, each times the probability `1 - (1 - (K+1)/2^(k+1))^(n+1)` that it returns at all. -/
theorem C89_exact (n max k len : Nat) (hmax : 0 < max) (hk : NeedsBits max k) (h7 : k % 8 ≠ 7) (hl : len = (k + 8) / 8) (hm : len ≤ RNG.maxAlloc)
    (K : Nat) (hK : max ∣ K ∧ K < 2 ^ (k + 1) ∧ ∀ M, max ∣ M → M < 2 ^ (k + 1) → M ≤ K) (r : Nat) (hr : r < max) :
    probBytes ((n + 1) * len) (fun b => ∃ rest, RNG.bign byteTape n max b = .ok ((r : Int), rest)) =
      ((K / max : Nat) + if r = 0 then 1 else 0) / (K + 1) * (1 - (1 - (K + 1) / 2 ^ (k + 1)) ^ (n + 1)) := by
  obtain rfl := (needsBits_iff max k).mp hk
  have hK' := largest_multiple max _ K hmax (by positivity) hK
  have h := bign_law_eq n max hmax h7 len hl hm (· = r) K hK'
  have e : probBytes ((n + 1) * len) (fun b => ∃ rest, RNG.bign byteTape n max b = .ok ((r : Int), rest)) =
      probBytes ((n + 1) * len) (BignIn n max (· = r)) := by
    unfold probBytes
    rw [countBytes_congr _ _ (BignIn n max (· = r)) fun b _ => ?_]
    constructor
    · rintro ⟨rest, h1⟩; exact ⟨_, rest, h1, Int.toNat_natCast r⟩
    · rintro ⟨r', rest, h1, h2⟩
      have := (C17_range byteTape n max b rest r' h1).1
      exact ⟨rest, by rw [h1, ← h2, Int.toNat_of_nonneg this]⟩
  obtain ⟨q, hq⟩ := hK.1
  have hq' : K / max = q := by rw [hq, Nat.mul_div_cancel_left _ hmax]
  have ha := accepted_eq max q (· = r)
  rw [← hq, Finset.filter_eq' (Finset.range max), if_pos (Finset.mem_range.mpr hr), Finset.card_singleton, Nat.cast_one, mul_one] at ha
  rw [e, h, ha, hq']
  exact congrArg (fun x => (q + x) / (K + 1 : ℝ) * _) (if_congr ⟨fun h => h.symm, fun h => h.symm⟩ rfl rfl)

/-- C89: `Bign(max)` returns a value in `S`, after at most `n` rejections, with the probability that a number chosen uniformly below `max` is in `S`,
up to `2^-k + 3^-(n+1)`: it is close to uniform in total variation if `k` is not 7 modulo 8. -/
theorem C89_near (n max k len : Nat) (hmax : 0 < max) (hk : NeedsBits max k) (h7 : k % 8 ≠ 7) (hl : len = (k + 8) / 8) (hm : len ≤ RNG.maxAlloc)
    (S : Nat → Prop) [DecidablePred S] :
    |probBytes ((n + 1) * len) (fun b => ∃ r rest, RNG.bign byteTape n max b = .ok (r, rest) ∧ S r.toNat) -
      ((Finset.range max).filter S).card / max| ≤ 1 / 2 ^ k + 1 / 3 ^ (n + 1) := by
  obtain rfl := (needsBits_iff max k).mp hk
  have h := bign_law_eq n max hmax h7 len hl hm S _ rfl
  have h' : probBytes ((n + 1) * len) (fun b => ∃ r rest, RNG.bign byteTape n max b = .ok (r, rest) ∧ S r.toNat) =
    probBytes ((n + 1) * len) (BignIn n max S) := rfl
  rw [h', h]
  clear h h'
  have hb := bitLen_spec max hmax
  have hk1 : RNG.bitLen max ≠ 0 := fun h => by rw [h] at hb; omega
  obtain ⟨j, hj⟩ : ∃ j, RNG.bitLen max = j + 1 := ⟨RNG.bitLen max - 1, by omega⟩
  rw [hj, Nat.add_sub_cancel] at hb
  have h2 := bign_accepts max hmax
  have ha := accepted_eq max ((2 ^ (RNG.bitLen max + 1) - 1) / max) S
  have hd := Nat.div_add_mod (2 ^ (RNG.bitLen max + 1) - 1) max
  have hr := Nat.mod_lt (2 ^ (RNG.bitLen max + 1) - 1) hmax
  rw [hj] at *
  generalize (2 ^ (j + 1 + 1) - 1) % max = rem at *
  generalize (2 ^ (j + 1 + 1) - 1) / max = q at *
  have e4 : 2 ^ (j + 1 + 1) = 4 * 2 ^ j := by rw [pow_succ, pow_succ]; ring
  have e2 : 2 ^ (j + 1) = 2 * 2 ^ j := by rw [pow_succ]; ring
  have f4 : (2 : ℝ) ^ (j + 1 + 1) = 4 * (2 ^ j : Nat) := by rw [pow_succ, pow_succ]; push_cast; ring
  have f2 : (2 : ℝ) ^ (j + 1) = 2 * (2 ^ j : Nat) := by rw [pow_succ]; push_cast; ring
  rw [e4] at hd
  rw [e2] at h2 hb
  rw [f4, f2]
  generalize 2 ^ j = J at *
  have hq2 : 2 ≤ q := by
    by_contra hc
    have : max * q ≤ max * 1 := Nat.mul_le_mul_left _ (by omega)
    omega
  have hKm : 2 * max ≤ max * q := by rw [Nat.mul_comm]; exact Nat.mul_le_mul_left _ hq2
  have hK3 : 8 * J ≤ 3 * (max * q + 1) := by omega
  have hKN : max * q + 1 ≤ 4 * J := by omega
  rw [ha]
  have hc0 : ((Finset.range max).filter S).card ≤ max := (Finset.card_filter_le _ _).trans (Finset.card_range max).le
  generalize ((Finset.range max).filter S).card = c at *
  obtain ⟨δ, hδ, hδ0, hδ1⟩ : ∃ δ : ℝ, (if S 0 then (1 : ℝ) else 0) = δ ∧ 0 ≤ δ ∧ δ ≤ 1 := by
    refine ⟨_, rfl, ?_⟩
    split <;> norm_num
  rw [hδ, Nat.cast_mul]
  have hJ : (0 : ℝ) < J := by
    have : 0 < J := by omega
    exact_mod_cast this
  have hM : (0 : ℝ) < max := by exact_mod_cast hmax
  have hcM : (c : ℝ) ≤ max := by exact_mod_cast hc0
  have hcn : (0 : ℝ) ≤ c := Nat.cast_nonneg c
  have hq0 : (0 : ℝ) ≤ q := Nat.cast_nonneg q
  have h3 : 8 * (J : ℝ) ≤ 3 * (max * q + 1) := by exact_mod_cast hK3
  have h4 : (max : ℝ) * q + 1 ≤ 4 * J := by exact_mod_cast hKN
  have h5 : 2 * (J : ℝ) ≤ max * q + 1 := by exact_mod_cast h2
  clear hK3 hKN h2 ha hd hr hKm hb hj hk h7 hl hm e4 e2
  generalize (max : ℝ) = m at *
  generalize (q : ℝ) = q at *
  generalize (c : ℝ) = c at *
  generalize (J : ℝ) = J at *
  have hK1 : 0 < m * q + 1 := by linarith
  -- the law without the rejections
  have hp : |(q * c + δ) / (m * q + 1) - c / m| ≤ 1 / (2 * J) := by
    have e : (q * c + δ) / (m * q + 1) - c / m = (δ * m - c) / m / (m * q + 1) := by
      have n1 := hK1.ne'
      rw [div_div, div_sub_div _ _ n1 hM.ne', mul_comm (m * q + 1) m]
      congr 1
      ring
    rw [e, abs_div, abs_of_pos hK1, abs_div, abs_of_pos hM]
    have h6 : |δ * m - c| ≤ m := by
      rw [abs_le]
      constructor
      · nlinarith [mul_nonneg hδ0 hM.le]
      · nlinarith
    have h7 : |δ * m - c| / m ≤ 1 := (div_le_one hM).mpr h6
    exact div_le_div₀ (by norm_num) h7 (by linarith) h5
  have hp1 : 0 ≤ (q * c + δ) / (m * q + 1) := by
    positivity
  have hp2 : (q * c + δ) / (m * q + 1) ≤ 1 := by
    rw [div_le_one hK1]
    nlinarith
  have hρ0 : 0 ≤ 1 - (m * q + 1) / (4 * J) := by
    have : (m * q + 1) / (4 * J) ≤ 1 := (div_le_one (by linarith)).mpr h4
    linarith
  have hρ1 : 1 - (m * q + 1) / (4 * J) ≤ 1 / 3 := by
    have : 2 / 3 ≤ (m * q + 1) / (4 * J) := by
      rw [le_div_iff₀ (by linarith)]
      linarith
    linarith
  have hρ : (1 - (m * q + 1) / (4 * J)) ^ (n + 1) ≤ 1 / 3 ^ (n + 1) := by
    rw [← one_div_pow]
    exact pow_le_pow_left₀ hρ0 hρ1 _
  have hρ2 : 0 ≤ (1 - (m * q + 1) / (4 * J)) ^ (n + 1) := pow_nonneg hρ0 _
  generalize (1 - (m * q + 1) / (4 * J)) ^ (n + 1) = ρ at *
  generalize (q * c + δ) / (m * q + 1) = p at *
  have e : p * (1 - ρ) - c / m = (p - c / m) - p * ρ := by ring
  rw [e]
  refine (abs_sub _ _).trans (add_le_add hp ?_)
  rw [abs_of_nonneg (mul_nonneg hp1 hρ2)]
  exact (mul_le_of_le_one_left hρ2 hp2).trans hρ

/-- C89: if `k` is 7 modulo 8 the first draw is always taken, and the result is uniform over `0 .. 2^(k-7)-1`, so that not even a 63rd of the
numbers below `max` ever come up. -/
theorem C89_small (n max k len : Nat) (hmax : 0 < max) (hk : NeedsBits max k) (h7 : k % 8 = 7) (hl : len = (k + 8) / 8) (hm : len ≤ RNG.maxAlloc)
    (S : Nat → Prop) [DecidablePred S] :
    probBytes ((n + 1) * len) (fun b => ∃ r rest, RNG.bign byteTape n max b = .ok (r, rest) ∧ S r.toNat) =
      ((Finset.range (2 ^ (k - 7))).filter S).card / 2 ^ (k - 7) ∧ 63 * 2 ^ (k - 7) < max := by
  obtain rfl := (needsBits_iff max k).mp hk
  have hb : RNG.bigBits (RNG.bitLen max + 1) = RNG.bitLen max - 7 := by
    rw [RNG.bigBits_eq _ (by omega), if_pos (by omega)]
    omega
  have hsp := bitLen_spec max hmax
  have h2 := bign_accepts max hmax
  obtain ⟨j, hj⟩ : ∃ j, RNG.bitLen max = j + 7 := ⟨RNG.bitLen max - 7, by omega⟩
  have hlt : 63 * 2 ^ (RNG.bitLen max - 7) < max := by
    have e : 2 ^ (RNG.bitLen max - 1) = 64 * 2 ^ (RNG.bitLen max - 7) := by
      rw [hj, show j + 7 - 1 = 6 + j by omega, pow_add, Nat.add_sub_cancel]; norm_num
    have := Nat.two_pow_pos (RNG.bitLen max - 7)
    omega
  refine ⟨?_, hlt⟩
  have hacc : ∀ N, N % 2 ^ (RNG.bitLen max - 7) ≤ max * ((2 ^ (RNG.bitLen max + 1) - 1) / max) := by
    intro N
    have h1 := Nat.mod_lt N (Nat.two_pow_pos (RNG.bitLen max - 7))
    omega
  have hmod : ∀ N, N % 2 ^ (RNG.bitLen max - 7) % max = N % 2 ^ (RNG.bitLen max - 7) := by
    intro N
    have h1 := Nat.mod_lt N (Nat.two_pow_pos (RNG.bitLen max - 7))
    exact Nat.mod_eq_of_lt (by omega)
  have hs := countBytes_split len (n * len) (fun b => ∃ r rest, RNG.bign byteTape n max b = .ok (r, rest) ∧ S r.toNat)
    (fun d => (fun N => S (N % 2 ^ (RNG.bitLen max - 7))) (RNG.setBytes d)) (fun _ => False) (fun _ => False) (fun _ h => h.2) (fun d t hd _ => ?_)
  · have hM : 2 ^ (RNG.bitLen max - 7) * 2 ^ (8 * len - (RNG.bitLen max - 7)) = 256 ^ len := by
      rw [← Nat.pow_add, Nat.add_sub_cancel' (by omega), Nat.pow_mul]
    have e0 : countBytes len (fun _ => False) = 0 := by
      unfold countBytes
      have : IsEmpty {b : List Byte // b.length = len ∧ False} := ⟨fun b => b.2.2⟩
      rw [Nat.card_of_isEmpty]
    rw [countBytes_true, e0, Nat.zero_mul, Nat.add_zero, RNG.countBytes_eq len _ hM (fun N => S (N % 2 ^ (RNG.bitLen max - 7))),
      count_mod_pred _ _ S, Nat.count_eq_card_filter_range] at hs
    unfold probBytes
    have hM' : (2 : ℝ) ^ (RNG.bitLen max - 7) * 2 ^ (8 * len - (RNG.bitLen max - 7)) = 256 ^ len := by exact_mod_cast hM
    rw [show (n + 1) * len = len + n * len by ring, hs, pow_add, ← hM', Nat.cast_mul, Nat.cast_mul, Nat.cast_pow, Nat.cast_pow, Nat.cast_ofNat,
      Nat.cast_ofNat]
    have p1 : (0 : ℝ) < 2 ^ (RNG.bitLen max - 7) := by positivity
    have p2 : (0 : ℝ) < 2 ^ (8 * len - (RNG.bitLen max - 7)) := by positivity
    have p3 : (0 : ℝ) < 256 ^ (n * len) := by positivity
    generalize (2 : ℝ) ^ (RNG.bitLen max - 7) = a at *
    generalize (2 : ℝ) ^ (8 * len - (RNG.bitLen max - 7)) = b at *
    generalize (256 : ℝ) ^ (n * len) = c at *
    field_simp
  · have h := (bign_append n max hmax len hl hm d t hd).1
    rw [hb, hmod] at h
    have h1 := h (hacc _)
    constructor
    · rintro ⟨r, rest, h3, h4⟩
      rw [h1, Except.ok.injEq, Prod.mk.injEq] at h3
      rw [← h3.1, Int.toNat_natCast] at h4
      exact Or.inl h4
    · rintro (h3 | h3)
      · exact ⟨_, _, h1, by rw [Int.toNat_natCast]; exact h3⟩
      · exact h3.1.elim

/-- Non-vacuity: `max = 1000` has 10 bits, and 2000 is the largest multiple of it below `2^11`; `max = 100` has 7 bits. -/
example : NeedsBits 1000 10 ∧ 10 % 8 ≠ 7 ∧ (1000 ∣ 2000 ∧ 2000 < 2 ^ (10 + 1) ∧ ∀ M, 1000 ∣ M → M < 2 ^ (10 + 1) → M ≤ 2000) ∧ NeedsBits 100 7 := by
  refine ⟨(needsBits_iff _ _).mpr (by decide +kernel), by decide, ⟨by decide, by decide, fun M hM h => ?_⟩, (needsBits_iff _ _).mpr (by decide +kernel)⟩
  omega

end Crazy
