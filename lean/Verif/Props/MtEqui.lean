/-
C62: what tuples of outputs `MT64` gives.
-/
import Verif.Props.MtPeriod
import Mathlib.SetTheory.Cardinal.Finite
import Mathlib.Data.Fintype.BigOperators
namespace Crazy
namespace MT64

/-- The live part of a state: 33 bits and 311 words. -/
abbrev Eff := BitVec 33 × (Fin 311 → U64)

/-- The live part at position `n` of the word sequence. -/
def effOf (s : Vector U64 312) (n : Nat) : Eff := (top (seq s n), fun i => seq s (n + 1 + i.val))

/-- A block with this live part. -/
def block (e : Eff) : Vector U64 312 :=
  Vector.ofFn fun i : Fin 312 => if h : i.val = 0 then e.1 ++ (0#31 : BitVec 31) else e.2 ⟨i.val - 1, by omega⟩

theorem twist_congr {a a' b : U64} (h : top a = top a') : twist a b = twist a' b := by
  rw [twist_eq, twist_eq]
  have h : a.extractLsb' 31 33 = a'.extractLsb' 31 33 := h
  rw [h]

theorem seq_dep (s t : Vector U64 312) (a b : Nat) (h : effOf s a = effOf t b) (k : Nat) (hk : 1 ≤ k) :
    seq s (a + k) = seq t (b + k) := by
  have h1 : top (seq s a) = top (seq t b) := congrArg Prod.fst h
  have h2 : ∀ i (hi : i < 311), seq s (a + 1 + i) = seq t (b + 1 + i) := fun i hi =>
    congrFun (congrArg Prod.snd h) ⟨i, hi⟩
  induction k using Nat.strongRecOn with
  | ind k ih =>
    by_cases hl : k < 312
    · have := h2 (k - 1) (by omega)
      rwa [show a + 1 + (k - 1) = a + k by omega, show b + 1 + (k - 1) = b + k by omega] at this
    · obtain ⟨j, rfl⟩ : ∃ j, k = j + 312 := ⟨k - 312, by omega⟩
      have e1 := ih (j + 156) (by omega) (by omega)
      have e2 := ih (j + 1) (by omega) (by omega)
      rw [← Nat.add_assoc, ← Nat.add_assoc] at e1 e2
      rw [← Nat.add_assoc, ← Nat.add_assoc, seq_ge, seq_ge, e1, e2]
      congr 1
      by_cases hj : j = 0
      · subst hj
        exact twist_congr h1
      · rw [ih j (by omega) (by omega)]

theorem effOf_block (e : Eff) : effOf (block e) 0 = e := by
  refine Prod.ext ?_ (funext fun i => ?_)
  · show top (seq (block e) 0) = e.1
    rw [seq_lt _ (by decide), block, Vector.getElem_ofFn]
    show top (e.1 ++ (0#31 : BitVec 31)) = e.1
    apply BitVec.eq_of_getLsbD_eq
    intro i hi
    rw [top, BitVec.getLsbD_extractLsb', BitVec.getLsbD_append]
    simp [hi]
  · show seq (block e) (0 + 1 + i.val) = e.2 i
    rw [seq_lt _ (by omega), block, Vector.getElem_ofFn, dif_neg (by show ¬ 0 + 1 + i.val = 0; omega)]
    refine congrArg e.2 (Fin.ext ?_)
    show 0 + 1 + i.val - 1 = i.val
    omega

/-- One step of the live part. -/
def estep (e : Eff) : Eff := effOf (block e) 1

theorem estep_effOf (s : Vector U64 312) (n : Nat) : estep (effOf s n) = effOf s (n + 1) := by
  have h := seq_dep s (block (effOf s n)) n 0 (effOf_block _).symm
  refine Prod.ext ?_ (funext fun i => ?_)
  · show top (seq (block (effOf s n)) 1) = top (seq s (n + 1))
    rw [h 1 le_rfl, Nat.zero_add]
  · show seq (block (effOf s n)) (1 + 1 + i.val) = seq s (n + 1 + 1 + i.val)
    rw [show n + 1 + 1 + i.val = n + (1 + 1 + i.val) by omega, h _ (by omega), Nat.zero_add]

theorem iter_effOf (s : Vector U64 312) (a n : Nat) : estep^[n] (effOf s a) = effOf s (a + n) := by
  induction n with
  | zero => rfl
  | succ n ih => rw [Function.iterate_succ_apply', ih, estep_effOf, Nat.add_assoc]

theorem iter_eff (e : Eff) (n : Nat) : estep^[n] e = effOf (block e) n := by
  conv_lhs => rw [← effOf_block e, iter_effOf, Nat.zero_add]

theorem eff_zero_of (e : Eff) (h : ∀ n, 1 ≤ n → seq (block e) n = 0#64) : e = 0 := by
  rw [← effOf_block e]
  refine Prod.ext ?_ (funext fun i => h _ (by omega))
  show top (seq (block e) 0) = 0#33
  have h1 := twist_seq (block e) 0
  rw [h (0 + 312) (by omega), h (0 + 156) (by omega), h (0 + 1) (by omega), BitVec.xor_self] at h1
  have h2 : twist (seq (block e) 0) 0#64 = twist 0#64 0#64 := by rw [h1]; decide
  rw [join_top _ _ _ _ (join_inj h2)]
  decide

/-- 33-bit values and their numbers. -/
def e33 : BitVec 33 ≃ Fin (2 ^ 33) := ⟨BitVec.toFin, BitVec.ofFin, fun _ => rfl, fun _ => rfl⟩

instance : Finite (BitVec 33) := Finite.of_equiv _ e33.symm

theorem card_33 : Nat.card (BitVec 33) = 2 ^ 33 := by rw [Nat.card_congr e33, Nat.card_fin]

theorem card_eff : Nat.card Eff = 2 ^ 19937 := by
  rw [Nat.card_prod, Nat.card_fun, card_U64, card_33, Nat.card_fin, ← Nat.pow_mul, ← Nat.pow_add]

theorem seq_block_zero (n : Nat) : seq (block 0) n = 0#64 := by
  induction n using Nat.strongRecOn with
  | ind n ih =>
    by_cases h : n < 312
    · rw [seq_lt _ h, block, Vector.getElem_ofFn]
      split
      · exact (by decide : (0#33 ++ 0#31 : BitVec 64) = 0#64)
      · rfl
    · obtain ⟨k, rfl⟩ : ∃ k, n = k + 312 := ⟨n - 312, by omega⟩
      rw [seq_ge, ih _ (by omega), ih _ (by omega), ih _ (by omega)]
      decide

theorem eff_cycle (p : Nat) (hp : p + 1 = 2 ^ 19937) : FullCycle estep (0 : Eff) p where
  finite := inferInstance
  pos := (prime_of p hp).pos
  card := by rw [card_eff, hp]
  nz := by
    intro e he h0
    have h1 : effOf (block e) 1 = effOf (block 0) 0 := by rw [effOf_block]; exact h0
    have h2 := seq_dep _ _ _ _ h1
    refine he (eff_zero_of e fun n hn => ?_)
    rw [← seq_period (block e) p hp n hn]
    have hpos := (prime_of p hp).one_lt
    rw [show n + p = 1 + (n + p - 1) by omega, h2 _ (by omega), seq_block_zero]
  period := by
    intro e he n
    rw [iter_eff]
    constructor
    · intro h
      by_contra hd
      refine he (eff_zero_of e (seq_zero_of (block e) p hp (prime_of p hp) n 1 (fun k hk => ?_) hd))
      have := seq_dep (block e) (block e) n 0 (h.trans (effOf_block e).symm) k hk
      rwa [Nat.zero_add, Nat.add_comm] at this
    · rintro ⟨m, rfl⟩
      conv_rhs => rw [← effOf_block e]
      have hk : ∀ k, 1 ≤ k → seq (block e) (p * m + k) = seq (block e) k := fun k hk => by
        rw [Nat.add_comm]; exact seq_period_mul (block e) p hp m k hk
      refine Prod.ext ?_ (funext fun i => ?_)
      · refine (seq_back (block e) (block e) (p * m) 0 fun k => ?_).1
        rw [show k + p * m + 1 = p * m + (k + 1) by omega, hk _ (by omega), Nat.add_zero]
      · show seq (block e) (p * m + 1 + i.val) = seq (block e) (0 + 1 + i.val)
        rw [Nat.add_assoc, hk _ (by omega), Nat.zero_add]

theorem map_range_eq_iff (ws : List U64) (f : Nat → U64) :
    (List.range ws.length).map f = ws ↔ ∀ i (hi : i < ws.length), f i = ws[i] := by
  constructor
  · intro h i hi
    conv_rhs => rw [List.getElem_of_eq h.symm]
    simp
  · intro h
    apply List.ext_getElem
    · simp
    · intro i h1 h2
      simpa using h i h2

theorem emits_eff (g : MT64) (hi : g.Begun) (n : Nat) (ws : List U64) (hl : ws.length = 311) :
    Emits uint64 g n ws ↔ ∀ i (hi : i < 311), temper ((estep^[n] (effOf g.s (g.pos - 1))).2 ⟨i, hi⟩) = ws[i] := by
  have hp := pos_of_begun hi
  rw [emits_iff, map_range_eq_iff, iter_effOf]
  simp only [hl]
  refine forall_congr' fun i => forall_congr' fun hi => ?_
  show temper (seq g.s (g.pos + (n + i))) = _ ↔ temper (seq g.s (g.pos - 1 + n + 1 + i)) = _
  rw [show g.pos - 1 + n + 1 + i = g.pos + (n + i) by omega]

theorem eff_ne_zero (g : MT64) (hg : g.Alive) (p a : Nat) (hp : p + 1 = 2 ^ 19937) : effOf g.s a ≠ 0 := by
  intro h
  refine not_alive_of g (fun n hn => ?_) hg
  have h1 : effOf g.s a = effOf (block 0) 0 := by rw [effOf_block]; exact h
  have h2 := seq_dep _ _ _ _ h1
  rw [← seq_period_mul g.s p hp a n hn]
  have h3 : 1 * a ≤ p * a := Nat.mul_le_mul_right _ (prime_of p hp).one_lt.le
  rw [show n + p * a = a + (n + p * a - a) by omega, h2 _ (by omega), seq_block_zero]

/-- Live parts with these words, zero aside. -/
theorem card_with (v : Fin 311 → U64) :
    Nat.card {t : Eff // t ≠ 0 ∧ t.2 = v} = if v = 0 then 2 ^ 33 - 1 else 2 ^ 33 := by
  have e : {t : Eff // t ≠ 0 ∧ t.2 = v} ≃ {b : BitVec 33 // (b, v) ≠ (0 : Eff)} :=
    ⟨fun t => ⟨t.1.1, by have h := t.2.1; have h2 := t.2.2; intro h3; exact h ((Prod.ext rfl h2 : t.1 = (t.1.1, v)).trans h3)⟩,
     fun b => ⟨(b.1, v), b.2, rfl⟩, fun t => Subtype.ext (Prod.ext rfl t.2.2.symm), fun b => rfl⟩
  rw [Nat.card_congr e]
  split
  · rename_i h
    have e2 : {b : BitVec 33 // (b, v) ≠ (0 : Eff)} ≃ {b : BitVec 33 // b ≠ 0#33} :=
      Equiv.subtypeEquivRight fun b => by
        subst h
        exact not_congr ⟨fun h => congrArg Prod.fst h, fun h => by rw [h]; rfl⟩
    have h1 := Nat.card_congr (Equiv.optionSubtypeNe (0#33))
    rw [Finite.card_option, card_33] at h1
    rw [Nat.card_congr e2]
    omega
  · rename_i h
    have e2 : {b : BitVec 33 // (b, v) ≠ (0 : Eff)} ≃ BitVec 33 :=
      Equiv.subtypeUnivEquiv fun b hb => h (congrArg Prod.snd hb)
    rw [Nat.card_congr e2, card_33]

theorem count (g : MT64) (hg : g.Alive) (hi : g.Begun) (ws : List U64) (hl : ws.length = 311) :
    Nat.card {n : Nat // n < 2 ^ 19937 - 1 ∧ Emits uint64 g n ws} =
      if ws = List.replicate 311 0#64 then 2 ^ 33 - 1 else 2 ^ 33 := by
  obtain ⟨p, hp⟩ : ∃ p, p + 1 = 2 ^ 19937 := ⟨2 ^ 19937 - 1, Nat.sub_add_cancel Nat.one_le_two_pow⟩
  rw [pred_eq 19937 p hp]
  have hv : ∃ v : Fin 311 → U64, ∀ i (hi : i < 311), temper (v ⟨i, hi⟩) = ws[i] := by
    choose f hf using temper_surj
    exact ⟨fun i => f ws[i.val], fun i hi => hf _⟩
  obtain ⟨v, hv⟩ := hv
  have hz : v = 0 ↔ ws = List.replicate 311 0#64 := by
    constructor
    · intro h
      apply List.ext_getElem
      · rw [hl, List.length_replicate]
      · intro i h1 h2
        rw [← hv i (by omega), h, List.getElem_replicate]
        exact temper_zero
    · intro h
      funext i
      refine temper_inj ?_
      rw [hv i.val i.isLt]
      simp only [h, List.getElem_replicate]
      exact temper_zero.symm
  simp only [emits_eff g hi _ ws hl]
  rw [(eff_cycle p hp).card_visits (eff_ne_zero g hg p _ hp) (fun t => ∀ i (hi : i < 311), temper (t.2 ⟨i, hi⟩) = ws[i])]
  have e : ∀ t : Eff, (∀ i (hi : i < 311), temper (t.2 ⟨i, hi⟩) = ws[i]) ↔ t.2 = v := by
    intro t
    constructor
    · intro h
      funext i
      exact temper_inj ((h i.val i.isLt).trans (hv i.val i.isLt).symm)
    · intro h i hi
      rw [h]
      exact hv i hi
  simp only [e]
  rw [card_with]
  simp only [hz]

end MT64

/-- C62: from every state of nonzero effective part (with an output of its block given, as after seeding), among the
`2^19937 - 1` places of one period, every tuple of 311 consecutive outputs other than zeros occurs `2^33` times. -/
theorem C62_MT64_equidistributed (g : MT64) (hg : g.Alive) (hi : g.Begun) (ws : List U64) (hl : ws.length = 311)
    (hz : ws ≠ List.replicate 311 0#64) :
    Nat.card {n : Nat // n < 2 ^ 19937 - 1 ∧ Emits MT64.uint64 g n ws} = 2 ^ 33 := by
  rw [MT64.count g hg hi ws hl, if_neg hz]

/-- C62: 311 zeros occur once less. -/
theorem C62_MT64_equidistributed_zeros (g : MT64) (hg : g.Alive) (hi : g.Begun) :
    Nat.card {n : Nat // n < 2 ^ 19937 - 1 ∧ Emits MT64.uint64 g n (List.replicate 311 0#64)} = 2 ^ 33 - 1 := by
  rw [MT64.count g hg hi _ (List.length_replicate), if_pos rfl]

/-- C62: 311 is all: in every run some tuple of 312 outputs never occurs. -/
theorem C62_MT64_not_312 (g : MT64) (hi : g.Begun) :
    ∃ ws : List U64, ws.length = 312 ∧ ∀ n, ¬ Emits MT64.uint64 g n ws := by
  obtain ⟨p, hp⟩ : ∃ p, p + 1 = 2 ^ 19937 := ⟨2 ^ 19937 - 1, Nat.sub_add_cancel Nat.one_le_two_pow⟩
  have hp0 := (MT64.prime_of p hp).pos
  have hpos := MT64.pos_of_begun hi
  let F : Fin p → (Fin 312 → U64) := fun n i => MT64.temper (MT64.seq g.s (g.pos + (n.val + i.val)))
  have hF : ¬ Function.Surjective F := by
    intro hs
    have h1 := Nat.card_le_card_of_surjective F hs
    rw [Nat.card_fin, Nat.card_fun, card_U64, Nat.card_fin, ← Nat.pow_mul] at h1
    have h2 : 2 ^ 19937 ≤ 2 ^ (64 * 312) := Nat.pow_le_pow_right (by decide) (by decide)
    rw [← hp] at h2
    generalize 2 ^ (64 * 312) = K at *
    omega
  rw [Function.Surjective] at hF
  push Not at hF
  obtain ⟨v, hv⟩ := hF
  refine ⟨List.ofFn v, List.length_ofFn, fun n h => hv ⟨n % p, Nat.mod_lt _ hp0⟩ ?_⟩
  rw [MT64.emits_iff, MT64.map_range_eq_iff] at h
  funext i
  have h1 := h i.val (by rw [List.length_ofFn]; exact i.isLt)
  rw [List.getElem_ofFn] at h1
  refine Eq.trans ?_ h1
  show MT64.temper (MT64.seq g.s (g.pos + (n % p + i.val))) = _
  have e : g.pos + (n + i.val) = g.pos + (n % p + i.val) + p * (n / p) := by
    have := Nat.mod_add_div n p
    omega
  rw [e, MT64.seq_period_mul g.s p hp _ _ (by omega)]

/-- C62: for every length from 313 on, and so for the README's 623, there are tuples of that many outputs that no `MT64`
whatever gives. -/
theorem C62_MT64_not_623 (k : Nat) (hk : 313 ≤ k) :
    ∃ ws : List U64, ws.length = k ∧ ∀ (g : MT64) n, ¬ Emits MT64.uint64 g n ws := by
  let F : Fin 313 × (Fin 312 → U64) → (Fin 313 → U64) := fun q i =>
    MT64.temper (MT64.seq (Vector.ofFn q.2) (q.1.val + i.val))
  have hF : ¬ Function.Surjective F := by
    intro hs
    have h1 := Nat.card_le_card_of_surjective F hs
    rw [Nat.card_prod, Nat.card_fun, Nat.card_fun, card_U64, Nat.card_fin, Nat.card_fin, Nat.pow_succ] at h1
    have h2 : 0 < (2 ^ 64) ^ 312 := Nat.pow_pos (by decide)
    generalize (2 ^ 64) ^ 312 = K at *
    omega
  rw [Function.Surjective] at hF
  push Not at hF
  obtain ⟨v, hv⟩ := hF
  refine ⟨List.ofFn v ++ List.replicate (k - 313) 0#64, by rw [List.length_append, List.length_ofFn, List.length_replicate]; omega,
    fun g n h => hv (⟨(MT64.nexts n g).pos, by unfold MT64.pos; omega⟩, fun i => (MT64.nexts n g).s[i.val]) ?_⟩
  rw [MT64.emits_iff, MT64.map_range_eq_iff] at h
  funext i
  have h1 := h i.val (by rw [List.length_append, List.length_ofFn]; have := i.isLt; omega)
  rw [List.getElem_append_left (by rw [List.length_ofFn]; exact i.isLt), List.getElem_ofFn] at h1
  refine Eq.trans ?_ h1
  show MT64.temper (MT64.seq (Vector.ofFn fun i : Fin 312 => (MT64.nexts n g).s[i.val]) ((MT64.nexts n g).pos + i.val)) = _
  have e : (Vector.ofFn fun i : Fin 312 => (MT64.nexts n g).s[i.val]) = (MT64.nexts n g).s := by
    apply Vector.ext
    intro i hi
    rw [Vector.getElem_ofFn]
  rw [e, MT64.seq_nexts]

/-- The hypotheses of `C62_MT64_equidistributed` are met after `Seed(1)` by the tuple 1, 2, ..., 311. -/
example : ∃ s, MT64.new.seed 1#64 = .ok s ∧
    Nat.card {n : Nat // n < 2 ^ 19937 - 1 ∧ Emits MT64.uint64 s n ((List.range 311).map fun i => BitVec.ofNat 64 (i + 1))} = 2 ^ 33 := by
  obtain ⟨s, h1, h2, h3⟩ := C61_MT64_Seed_alive 1#64 MT64.new
  refine ⟨s, h1, C62_MT64_equidistributed s h2 h3 _ (by simp) ?_⟩
  intro h
  rw [show (311 : Nat) = 310 + 1 from rfl, List.range_succ_eq_map, List.replicate_succ, List.map_cons] at h
  exact absurd (List.cons.inj h).1 (by decide)

end Crazy
