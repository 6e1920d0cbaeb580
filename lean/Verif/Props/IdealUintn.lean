/-
C73: on a source of independent, uniform words `Uintn` is uniform up to `2^-63`, successive calls are independent, and what follows for
shuffles and random strings.
-/
import Verif.Proofs.UintnLaw
import Verif.Props.Shuffle
import Verif.Props.RandString
namespace Crazy

/-- C73: the exact law of `Uintn(max)`. With `B` the largest multiple of `max` below `2^64`, the probability that it returns `r` after at
most `n` rejected draws is `(B/max)/(B+1)` for `r ≠ 0` and `(B/max + 1)/(B+1)` for `r = 0`, each times the probability `1 - ((2^64-B-1)/2^64)^(n+1)`
that it returns at all. -/
theorem C73_exact (n : Nat) (max : U64) (h0 : max ≠ 0#64) (B : Nat) (hB : LargestMultiple max.toNat B) (r : U64) (hr : r.toNat < max.toNat) :
    prob (n + 1) (fun w => ∃ rest, RNG.uintn tape n max w = .ok (r, rest)) =
      ((B / max.toNat : Nat) + if r = 0#64 then 1 else 0) / (B + 1) * (1 - (1 - (B + 1) / 2 ^ 64) ^ (n + 1)) := by
  have h := law_eq n max h0 B hB (· = r.toNat)
  have e : prob (n + 1) (fun w => ∃ rest, RNG.uintn tape n max w = .ok (r, rest)) = law n max (· = r.toNat) := by
    unfold law
    refine prob_congr fun w _ => ⟨fun ⟨rest, h⟩ => ⟨r, rest, h, rfl⟩, fun ⟨r', rest, h, h'⟩ => ⟨rest, ?_⟩⟩
    rw [← BitVec.eq_of_toNat_eq h']
    exact h
  rw [e, h]
  obtain ⟨q, hq⟩ := hB.1
  have hm : 0 < max.toNat := by omega
  have hq' : B / max.toNat = q := by rw [hq, Nat.mul_div_cancel_left _ hm]
  have ha := accepted_eq max.toNat q (· = r.toNat)
  rw [← hq, Finset.filter_eq' (Finset.range max.toNat), if_pos (Finset.mem_range.mpr hr), Finset.card_singleton, Nat.cast_one, mul_one] at ha
  rw [ha, hq']
  refine congrArg (fun x => (q + x) / (B + 1 : ℝ) * _) (if_congr ⟨fun h => ?_, fun h => ?_⟩ rfl rfl)
  · exact BitVec.eq_of_toNat_eq h.symm
  · rw [h]; rfl

/-- C73: `Uintn(max)` returns a value in `S`, after at most `n` rejections, with the probability that a number chosen uniformly below
`max` is in `S`, up to `2^-63 + 2^-(n+1)`. -/
theorem C73_uintn (n : Nat) (max : U64) (h0 : max ≠ 0#64) (S : Nat → Prop) [DecidablePred S] :
    |prob (n + 1) (fun w => ∃ r rest, RNG.uintn tape n max w = .ok (r, rest) ∧ S r.toNat) -
      ((Finset.range max.toNat).filter S).card / max.toNat| ≤ 1 / 2 ^ 63 + 1 / 2 ^ (n + 1) :=
  law_near n max h0 S

/-- C73: `m` successive calls of `Uintn(max)` give a list in `S` with the probability that a list of `m` independent uniform
numbers below `max` is in `S`, up to `m (2^-63 + 2^-(n+1))`: for every set `S` of lists, that is, in total variation. -/
theorem C73_draws (n : Nat) (max : U64) (h0 : max ≠ 0#64) (m : Nat) (S : List Nat → Prop) :
    |prob (m * (n + 1)) (fun w => ∃ js rest, draws (RNG.uintn tape n max) m w = .ok (js, rest) ∧ S (js.map BitVec.toNat)) -
      uniformShare max.toNat m S| ≤ m * (1 / 2 ^ 63 + 1 / 2 ^ (n + 1)) :=
  lawDraws_near n max h0 m S

/-! ### Shuffles -/

/-- The lists of draws and the functions. -/
theorem uniformShare_fn (N m : Nat) (S : List Nat → Prop) :
    uniformShare N m S = (Nat.card {j : Fin m → Fin N // S (List.ofFn fun i => (j i).val)} : ℝ) / (N : ℝ) ^ m := by
  unfold uniformShare
  refine congrArg (fun x : Nat => (x : ℝ) / (N : ℝ) ^ m) (Nat.card_congr ?_)
  exact {
    toFun := fun l => ⟨fun i => l.1[i.val]'(by rw [l.2.1]; exact i.isLt), by
      have h := l.2.2
      have e : l.1.map Fin.val = List.ofFn fun i : Fin m => (l.1[i.val]'(by rw [l.2.1]; exact i.isLt)).val := by
        apply List.ext_getElem
        · simp [l.2.1]
        · intro i h1 h2; simp
      rwa [← e]⟩
    invFun := fun j => ⟨List.ofFn j.1, by simp, by
      rw [List.map_ofFn]; exact j.2⟩
    left_inv := by
      rintro ⟨l, h1, h2⟩
      refine Subtype.ext ?_
      apply List.ext_getElem
      · simp [h1]
      · intro i h3 h4; simp
    right_inv := by
      rintro ⟨j, h⟩
      refine Subtype.ext ?_
      funext i
      simp }

theorem shufflePartners_card {α : Type} (data : List α) (T : List α → Prop) :
    Nat.card {j : Fin data.length → Fin data.length // ∃ j' : Fin data.length → Fin data.length,
      (List.ofFn fun i => (j i).val) = List.ofFn (fun i => (j' i).val) ∧ T (permuted data (shufflePerm j'))} =
        Nat.card {j : Fin data.length → Fin data.length // T (permuted data (shufflePerm j))} := by
  refine Nat.card_congr (Equiv.subtypeEquivRight fun j => ⟨?_, fun h => ⟨j, rfl, h⟩⟩)
  rintro ⟨j', h1, h2⟩
  have : j = j' := by
    funext i
    exact Fin.ext (congrFun (List.ofFn_injective h1) i)
  rw [this]; exact h2

/-- A shuffle ends in `T` exactly when its draws are a list of swap partners that leads there. -/
theorem shuffle_event {σ α : Type} (src : Source σ) (n : Nat) (data : List α) (hn : data.length < 2 ^ 63) (T : List α → Prop) (w : σ) :
    (∃ out rest, shuffleSlice src n data w = .ok (out, rest) ∧ T out) ↔
      ∃ js rest, draws (RNG.uintn src n (BitVec.ofNat 64 data.length)) data.length w = .ok (js, rest) ∧
        ∃ j : Fin data.length → Fin data.length, js.map BitVec.toNat = List.ofFn (fun i => (j i).val) ∧ T (permuted data (shufflePerm j)) := by
  have hc := C29_slice src n data hn w
  constructor
  · rintro ⟨out, rest, hs, hT⟩
    cases hd' : draws (RNG.uintn src n (BitVec.ofNat 64 data.length)) data.length w with
    | error e => rw [hc.2 e hd'] at hs; cases hs
    | ok q =>
      obtain ⟨js, s'⟩ := q
      obtain ⟨j, hj, hs'⟩ := hc.1 js s' hd'
      rw [hs, Except.ok.injEq, Prod.mk.injEq] at hs'
      refine ⟨js, s', rfl, j, ?_, hs'.1 ▸ hT⟩
      have hl := draws_length hd'
      apply List.ext_getElem
      · simp [hl]
      · intro i h1 h2
        have hi : i < data.length := by simpa using h2
        have := hj ⟨i, hi⟩
        rw [List.getElem?_eq_getElem (by omega), Option.some.injEq] at this
        rw [List.getElem_map, this, List.getElem_ofFn, BitVec.toNat_ofNat]
        have := (j ⟨i, hi⟩).isLt
        omega
  · rintro ⟨js, rest, hdr, j, hj, hT⟩
    obtain ⟨j', hj', hs⟩ := hc.1 js rest hdr
    have : j' = j := by
      funext i
      have h1 := hj' i
      have h2 := congrArg (fun l => l[i.val]?) hj
      simp only [List.getElem?_map, h1, List.getElem?_ofFn, i.isLt, dite_true, Fin.eta, Option.map_some, Option.some.injEq,
        BitVec.toNat_ofNat] at h2
      have := (j' i).isLt
      exact Fin.ext (by omega)
    rw [this] at hs
    exact ⟨_, rest, hs, hT⟩

/-- C73: for every set `T` of slices, `ShuffleInts` (and the others), `n` bounding the rejections of each draw, turn `data` into a slice
in `T` with the probability `c/N^N`, where `N` is the length and `c` the number of the `N^N` lists of swap partners that do, up to
`N (2^-63 + 2^-(n+1))`. -/
theorem C73_shuffle_any {α : Type} (n : Nat) (data : List α) (hn : data.length < 2 ^ 63) (T : List α → Prop) :
    |prob (data.length * (n + 1)) (fun w => ∃ out rest, shuffleSlice tape n data w = .ok (out, rest) ∧ T out) -
      (Nat.card {j : Fin data.length → Fin data.length // T (permuted data (shufflePerm j))} : ℝ) / (data.length : ℝ) ^ data.length| ≤
        data.length * (1 / 2 ^ 63 + 1 / 2 ^ (n + 1)) := by
  rcases Nat.eq_zero_or_pos data.length with h0 | hpos
  · obtain rfl := List.length_eq_zero_iff.mp h0
    have e0 : ∀ j : Fin ([] : List α).length → Fin ([] : List α).length, permuted [] (shufflePerm j) = [] := fun j => rfl
    by_cases hT : T []
    · have e1 : prob (([] : List α).length * (n + 1)) (fun w => ∃ out rest, shuffleSlice tape n ([] : List α) w = .ok (out, rest) ∧ T out) = 1 := by
        rw [← prob_true (([] : List α).length * (n + 1))]
        exact prob_congr fun w _ => ⟨fun _ => trivial, fun _ => ⟨[], w, rfl, hT⟩⟩
      have e2 : Nat.card {j : Fin ([] : List α).length → Fin ([] : List α).length // T (permuted [] (shufflePerm j))} = 1 := by
        rw [Nat.card_eq_one_iff_unique]
        exact ⟨⟨fun a b => Subtype.ext (funext fun i => absurd i.isLt (Nat.not_lt_zero _))⟩, ⟨⟨fun i => i, by rw [e0]; exact hT⟩⟩⟩
      rw [e1, e2]
      simp
    · have e1 : prob (([] : List α).length * (n + 1)) (fun w => ∃ out rest, shuffleSlice tape n ([] : List α) w = .ok (out, rest) ∧ T out) = 0 := by
        rw [← prob_false (([] : List α).length * (n + 1))]
        refine prob_congr fun w _ => ⟨?_, fun h => h.elim⟩
        rintro ⟨out, rest, h, h'⟩
        have : ([] : List α) = out := congrArg Prod.fst (Except.ok.inj h)
        exact hT (this ▸ h')
      have : IsEmpty {j : Fin ([] : List α).length → Fin ([] : List α).length // T (permuted [] (shufflePerm j))} :=
        ⟨fun a => hT (by have := a.2; rwa [e0] at this)⟩
      rw [e1, Nat.card_of_isEmpty]
      simp
  have hof : (BitVec.ofNat 64 data.length).toNat = data.length := by rw [BitVec.toNat_ofNat]; omega
  have hne : BitVec.ofNat 64 data.length ≠ 0#64 := fun h => by
    have := congrArg BitVec.toNat h
    rw [hof] at this
    have : data.length = 0 := this
    omega
  have h := C73_draws n (BitVec.ofNat 64 data.length) hne data.length
    (fun l => ∃ j : Fin data.length → Fin data.length, l = List.ofFn (fun i => (j i).val) ∧ T (permuted data (shufflePerm j)))
  rw [hof, uniformShare_fn] at h
  rw [shufflePartners_card] at h
  exact le_trans (le_of_eq (congrArg (fun x => |x - _|) (prob_congr fun w _ => shuffle_event tape n data hn T w))) h

/-- C73: `ShuffleInts` (and the others), `n` bounding the rejections of each draw, turn `data`, whose elements are distinct, into the
permutation `π` of it with the probability `c/N^N`, where `N` is the length and `c` the number of the `N^N` lists of swap partners
that give `π`, up to `N (2^-63 + 2^-(n+1))`. -/
theorem C73_shuffle {α : Type} (n : Nat) (data : List α) (hd : data.Nodup) (hn : data.length < 2 ^ 63) (π : Equiv.Perm (Fin data.length)) :
    |prob (data.length * (n + 1)) (fun w => ∃ rest, shuffleSlice tape n data w = .ok (permuted data π, rest)) -
      (Nat.card {j : Fin data.length → Fin data.length // shufflePerm j = π} : ℝ) / (data.length : ℝ) ^ data.length| ≤
        data.length * (1 / 2 ^ 63 + 1 / 2 ^ (n + 1)) := by
  have h := C73_shuffle_any n data hn (· = permuted data π)
  have e : prob (data.length * (n + 1)) (fun w => ∃ out rest, shuffleSlice tape n data w = .ok (out, rest) ∧ out = permuted data π) =
      prob (data.length * (n + 1)) (fun w => ∃ rest, shuffleSlice tape n data w = .ok (permuted data π, rest)) :=
    prob_congr fun w _ => ⟨fun ⟨_, rest, h1, h2⟩ => ⟨rest, h2 ▸ h1⟩, fun ⟨rest, h1⟩ => ⟨_, rest, h1, rfl⟩⟩
  have e2 : Nat.card {j : Fin data.length → Fin data.length // permuted data (shufflePerm j) = permuted data π} =
      Nat.card {j : Fin data.length → Fin data.length // shufflePerm j = π} :=
    Nat.card_congr (Equiv.subtypeEquivRight fun j => ⟨fun h => permuted_injective data hd _ _ h, fun h => by rw [h]⟩)
  rw [e, e2] at h
  exact h

/-- C73: so the shuffles of at least 3 elements are visibly biased: some permutation is more probable than another by at least
`1/N^N`, less the errors above. -/
theorem C73_shuffle_biased {α : Type} (n : Nat) (data : List α) (hd : data.Nodup) (hn : data.length < 2 ^ 63) (h3 : 3 ≤ data.length) :
    ∃ π π' : Equiv.Perm (Fin data.length),
      prob (data.length * (n + 1)) (fun w => ∃ rest, shuffleSlice tape n data w = .ok (permuted data π, rest)) +
        (1 / (data.length : ℝ) ^ data.length - 2 * data.length * (1 / 2 ^ 63 + 1 / 2 ^ (n + 1))) ≤
      prob (data.length * (n + 1)) (fun w => ∃ rest, shuffleSlice tape n data w = .ok (permuted data π', rest)) := by
  have hu := mt (C31_uniform_iff data.length).mp (by omega)
  unfold ShuffleUniform at hu
  simp only [not_forall] at hu
  obtain ⟨π, π', hne⟩ := hu
  have key : ∀ π π' : Equiv.Perm (Fin data.length),
      Nat.card {j : Fin data.length → Fin data.length // shufflePerm j = π} < Nat.card {j : Fin data.length → Fin data.length // shufflePerm j = π'} →
      prob (data.length * (n + 1)) (fun w => ∃ rest, shuffleSlice tape n data w = .ok (permuted data π, rest)) +
        (1 / (data.length : ℝ) ^ data.length - 2 * data.length * (1 / 2 ^ 63 + 1 / 2 ^ (n + 1))) ≤
      prob (data.length * (n + 1)) (fun w => ∃ rest, shuffleSlice tape n data w = .ok (permuted data π', rest)) := by
    intro π π' h
    have h1 := (abs_le.mp (C73_shuffle n data hd hn π)).2
    have h2 := (abs_le.mp (C73_shuffle n data hd hn π')).1
    have h4 : (Nat.card {j : Fin data.length → Fin data.length // shufflePerm j = π} : ℝ) + 1 ≤
        Nat.card {j : Fin data.length → Fin data.length // shufflePerm j = π'} := by exact_mod_cast h
    have hp : (0 : ℝ) < (data.length : ℝ) ^ data.length := pow_pos (Nat.cast_pos.mpr (by omega)) _
    have h5 := div_le_div_of_nonneg_right h4 hp.le
    rw [add_div] at h5
    linarith
  rcases Nat.lt_or_gt_of_ne hne with h | h
  · exact ⟨π, π', key π π' h⟩
  · exact ⟨π', π, key π' π h⟩

/-! ### Random strings -/

theorem uniformShare_map (a : List Nat) (ts : List Nat) :
    uniformShare a.length ts.length (fun l => l.map (fun x => a[x]?) = ts.map some) =
      (ts.map fun t => (a.count t : ℝ) / a.length).prod := by
  induction ts with
  | nil =>
    classical
    rw [List.length_nil, uniformShare_zero]
    simp
  | cons t ts ih =>
    rw [List.map_cons (l := ts) (f := fun t => (a.count t : ℝ) / a.length), List.prod_cons, ← ih, List.length_cons, uniformShare_succ]
    have e : ∀ r ∈ Finset.range a.length, (1 / a.length : ℝ) * uniformShare a.length ts.length
        (fun l => (r :: l).map (fun x => a[x]?) = (t :: ts).map some) =
          if a[r]? = some t then (1 / a.length : ℝ) * uniformShare a.length ts.length (fun l => l.map (fun x => a[x]?) = ts.map some) else 0 := by
      intro r _
      split
      · next h =>
        refine congrArg _ (congrArg _ (funext fun l => ?_))
        rw [List.map_cons, List.map_cons, List.cons.injEq, h]
        simp
      · next h =>
        have : (fun l : List Nat => (r :: l).map (fun x => a[x]?) = (t :: ts).map some) = fun _ => False := by
          funext l
          rw [List.map_cons, List.map_cons, List.cons.injEq]
          simp [h]
        rw [this]
        unfold uniformShare
        have : IsEmpty {l : List (Fin a.length) // l.length = ts.length ∧ False} := ⟨fun q => q.2.2⟩
        rw [Nat.card_of_isEmpty, Nat.cast_zero, zero_div, mul_zero]
    rw [Finset.sum_congr rfl e, ← Finset.sum_filter, Finset.sum_const, nsmul_eq_mul, ← mul_assoc, mul_one_div]
    have hc : ((Finset.range a.length).filter fun r => a[r]? = some t).card = a.count t := by
      clear ih e
      induction a using List.reverseRecOn with
      | nil => rfl
      | append_singleton a b ih =>
        rw [List.length_append, List.length_singleton, Finset.range_add_one, Finset.filter_insert, List.count_append, ← ih]
        have e1 : (Finset.range a.length).filter (fun r => (a ++ [b])[r]? = some t) = (Finset.range a.length).filter fun r => a[r]? = some t :=
          Finset.filter_congr fun r hr => by rw [List.getElem?_append_left (Finset.mem_range.mp hr)]
        have e2 : (a ++ [b])[a.length]? = some b := by simp
        rw [e1, e2]
        by_cases h : b = t
        · rw [if_pos (by rw [h]), Finset.card_insert_of_notMem (by simp), h]
          simp
        · rw [if_neg (by simpa using h), List.count_singleton]
          simp [h]
    rw [hc]

/-- `RandString` gives the runes `ts` exactly when its draws are the places of runes like these. -/
theorem randString_event {σ : Type} (src : Source σ) (n : Nat) (alphabet : List Byte) (halpha : alphabet.length < 2 ^ 63) (ts : List Nat)
    (hl : ts.length ≤ 2 ^ 46) (w : σ) :
    (∃ out rest, randString src n alphabet ts.length w = .ok (out, rest) ∧ runes out = ts) ↔
      ∃ js rest, draws (RNG.uintn src n (BitVec.ofNat 64 (runes alphabet).length)) ts.length w = .ok (js, rest) ∧
        (js.map BitVec.toNat).map (fun x => (runes alphabet)[x]?) = ts.map some := by
  have hc := C28_randString src n alphabet halpha ts.length hl w
  have key : ∀ (js : List U64) (out : List Byte), js.length = ts.length → (runes out).length = ts.length →
      (∀ i < ts.length, ∃ j, js[i]? = some j ∧ (runes alphabet)[j.toNat]? = (runes out)[i]?) →
      (js.map BitVec.toNat).map (fun x => (runes alphabet)[x]?) = (runes out).map some := by
    intro js out h1 h2 h3
    apply List.ext_getElem
    · simp [h1, h2]
    · intro i h4 h5
      have hi : i < ts.length := by simpa [h1] using h4
      obtain ⟨j, h6, h7⟩ := h3 i hi
      rw [List.getElem?_eq_getElem (by omega), Option.some.injEq] at h6
      rw [List.getElem_map, List.getElem_map, List.getElem_map, h6, h7, List.getElem?_eq_getElem]
  constructor
  · rintro ⟨out, rest, hr, hts⟩
    cases hd' : draws (RNG.uintn src n (BitVec.ofNat 64 (runes alphabet).length)) ts.length w with
    | error e => rw [hc.2 e hd'] at hr; cases hr
    | ok q =>
      obtain ⟨js, s'⟩ := q
      obtain ⟨str, h1, h2, -, h4⟩ := hc.1 js s' hd'
      rw [hr, Except.ok.injEq, Prod.mk.injEq] at h1
      rw [← h1.1] at h2 h4
      refine ⟨js, s', rfl, ?_⟩
      have := key js out (draws_length hd') h2 h4
      rwa [hts] at this
  · rintro ⟨js, rest, hdr, hS⟩
    obtain ⟨str, h1, h2, -, h4⟩ := hc.1 js rest hdr
    have := key js str (draws_length hdr) h2 h4
    rw [hS] at this
    exact ⟨str, rest, h1, (List.map_injective_iff.mpr (Option.some_injective _) this).symm⟩

/-- C73: `RandString(rng, alphabet, length)`, `n` bounding the rejections of each draw, is the string with the runes `ts` with the
probability that independent uniform choices from the alphabet's runes give `ts`, that is the product of the relative frequencies of
the runes in the alphabet, up to `length (2^-63 + 2^-(n+1))`. -/
theorem C73_randString (n : Nat) (alphabet : List Byte) (h0 : alphabet ≠ []) (halpha : alphabet.length < 2 ^ 63) (ts : List Nat)
    (hl : ts.length ≤ 2 ^ 46) :
    |prob (ts.length * (n + 1)) (fun w => ∃ out rest, randString tape n alphabet ts.length w = .ok (out, rest) ∧ runes out = ts) -
      (ts.map fun t => ((runes alphabet).count t : ℝ) / (runes alphabet).length).prod| ≤ ts.length * (1 / 2 ^ 63 + 1 / 2 ^ (n + 1)) := by
  have hle := runes_length_le alphabet
  have hpos : 0 < (runes alphabet).length := List.length_pos_iff.mpr (mt (runes_eq_nil alphabet).mp h0)
  have hof : (BitVec.ofNat 64 (runes alphabet).length).toNat = (runes alphabet).length := by rw [BitVec.toNat_ofNat]; omega
  have hne : BitVec.ofNat 64 (runes alphabet).length ≠ 0#64 := fun h => by
    have := congrArg BitVec.toNat h
    rw [hof] at this
    have : (runes alphabet).length = 0 := this
    omega
  have h := C73_draws n (BitVec.ofNat 64 (runes alphabet).length) hne ts.length
    (fun l => l.map (fun x => (runes alphabet)[x]?) = ts.map some)
  rw [hof, uniformShare_map] at h
  exact le_trans (le_of_eq (congrArg (fun x => |x - _|) (prob_congr fun w _ => randString_event tape n alphabet halpha ts hl w))) h

/-! ### Non-vacuity -/

example : LargestMultiple (10#64).toNat 18446744073709551610 := (largestMultiple_iff _ _ (by decide)).mpr (by decide)

/-- Shuffling three elements, 63 rejections allowed: some permutation is more probable than another by more than 3 percent. -/
example : ∃ π π' : Equiv.Perm (Fin 3),
    prob (3 * (63 + 1)) (fun w => ∃ rest, shuffleSlice tape 63 [10, 20, 30] w = .ok (permuted [10, 20, 30] π, rest)) + 3 / 100 ≤
      prob (3 * (63 + 1)) (fun w => ∃ rest, shuffleSlice tape 63 [10, 20, 30] w = .ok (permuted [10, 20, 30] π', rest)) := by
  obtain ⟨π, π', h⟩ := C73_shuffle_biased 63 [10, 20, 30] (by decide) (by decide) (by decide)
  refine ⟨π, π', le_trans (add_le_add le_rfl ?_) h⟩
  show (3 / 100 : ℝ) ≤ 1 / ((3 : Nat) : ℝ) ^ 3 - 2 * ((3 : Nat) : ℝ) * (1 / 2 ^ 63 + 1 / 2 ^ (63 + 1))
  norm_num

/-- `RandString` with the alphabet "aab": 'a' is twice as probable as 'b'. -/
example : |prob (1 * (63 + 1)) (fun w => ∃ out rest, randString tape 63 [0x61, 0x61, 0x62] 1 w = .ok (out, rest) ∧ runes out = [0x61]) -
    2 / 3| ≤ 1 / 2 ^ 62 := by
  have h := C73_randString 63 [0x61, 0x61, 0x62] (by decide) (by decide) [0x61] (by decide)
  have e : runes [0x61, 0x61, 0x62] = [0x61, 0x61, 0x62] := by decide +kernel
  rw [e] at h
  have e2 : (List.map (fun t => ((List.count t [0x61, 0x61, 0x62] : Nat) : ℝ) / ([0x61, 0x61, 0x62] : List Nat).length) [0x61]).prod = 2 / 3 := by
    rw [List.map_singleton, List.prod_singleton, show List.count 0x61 [0x61, 0x61, 0x62] = 2 by decide]
    norm_num
  rw [e2] at h
  refine h.trans ?_
  norm_num

end Crazy
