/-
C28: RandString draws only from the alphabet.
-/
import Verif.Model.RandString
import Verif.Props.Uintn
namespace Crazy

variable {σ : Type}

/-- Specification: a Unicode code point that UTF-8 can encode. -/
def ValidRune (r : Nat) : Prop := r < 0xD800 ∨ (0xDFFF < r ∧ r ≤ 0x10FFFF)

theorem or_lt6 (a b : Nat) (h : b < 64) : (a <<< 6) ||| b = a * 64 + b := by
  rw [← Nat.shiftLeft_add_eq_or_of_lt (show b < 2 ^ 6 from h), Nat.shiftLeft_eq]

theorem or_lt12 (a b : Nat) (h : b < 4096) : (a <<< 12) ||| b = a * 4096 + b := by
  rw [← Nat.shiftLeft_add_eq_or_of_lt (show b < 2 ^ 12 from h), Nat.shiftLeft_eq]

theorem or_lt18 (a b : Nat) (h : b < 262144) : (a <<< 18) ||| b = a * 262144 + b := by
  rw [← Nat.shiftLeft_add_eq_or_of_lt (show b < 2 ^ 18 from h), Nat.shiftLeft_eq]

theorem cont_enc (n : Nat) : isCont (0x80#8 ||| (BitVec.ofNat 8 n &&& 0x3F#8)) = true ∧
    ((0x80#8 ||| (BitVec.ofNat 8 n &&& 0x3F#8)) &&& 0x3F#8).toNat = n % 64 := by
  have h : ∀ b : Fin 256, isCont (0x80#8 ||| (BitVec.ofFin b &&& 0x3F#8)) = true ∧
    ((0x80#8 ||| (BitVec.ofFin b &&& 0x3F#8)) &&& 0x3F#8).toNat = b.val % 64 := by decide +kernel
  have := h ⟨n % 256, Nat.mod_lt _ (by omega)⟩
  have e : BitVec.ofFin (⟨n % 256, Nat.mod_lt _ (by omega)⟩ : Fin (2 ^ 8)) = BitVec.ofNat 8 n := by
    apply BitVec.eq_of_toNat_eq; simp
  rw [e] at this
  refine ⟨this.1, ?_⟩
  rw [this.2]; show n % 256 % 64 = n % 64; omega

theorem lead2 (n : Nat) (h : n < 32) : ¬ (0xC0#8 ||| BitVec.ofNat 8 n) < 0x80#8 ∧
    (0xC0#8 ≤ (0xC0#8 ||| BitVec.ofNat 8 n) ∧ (0xC0#8 ||| BitVec.ofNat 8 n) < 0xE0#8) ∧
    ((0xC0#8 ||| BitVec.ofNat 8 n) &&& 0x1F#8).toNat = n := by
  revert n; decide +kernel

theorem lead3 (n : Nat) (h : n < 16) : ¬ (0xE0#8 ||| BitVec.ofNat 8 n) < 0x80#8 ∧
    ¬ (0xC0#8 ≤ (0xE0#8 ||| BitVec.ofNat 8 n) ∧ (0xE0#8 ||| BitVec.ofNat 8 n) < 0xE0#8) ∧
    (0xE0#8 ≤ (0xE0#8 ||| BitVec.ofNat 8 n) ∧ (0xE0#8 ||| BitVec.ofNat 8 n) < 0xF0#8) ∧
    ((0xE0#8 ||| BitVec.ofNat 8 n) &&& 0x0F#8).toNat = n := by
  revert n; decide +kernel

theorem lead4 (n : Nat) (h : n < 8) : ¬ (0xF0#8 ||| BitVec.ofNat 8 n) < 0x80#8 ∧
    ¬ (0xC0#8 ≤ (0xF0#8 ||| BitVec.ofNat 8 n) ∧ (0xF0#8 ||| BitVec.ofNat 8 n) < 0xE0#8) ∧
    ¬ (0xE0#8 ≤ (0xF0#8 ||| BitVec.ofNat 8 n) ∧ (0xF0#8 ||| BitVec.ofNat 8 n) < 0xF0#8) ∧
    (0xF0#8 ≤ (0xF0#8 ||| BitVec.ofNat 8 n) ∧ (0xF0#8 ||| BitVec.ofNat 8 n) < 0xF8#8) ∧
    ((0xF0#8 ||| BitVec.ofNat 8 n) &&& 0x07#8).toNat = n := by
  revert n; decide +kernel

/-- Decoding undoes encoding, whatever follows. -/
theorem decode_encode (r : Nat) (h : ValidRune r) (rest : List Byte) :
    decodeRune (encodeRune r ++ rest) = (r, (encodeRune r).length) ∧ 0 < (encodeRune r).length := by
  unfold ValidRune at h
  unfold encodeRune
  by_cases h1 : r ≤ 0x7F
  · rw [if_pos h1]
    refine ⟨?_, by simp⟩
    have e : (BitVec.ofNat 8 r).toNat = r := by rw [BitVec.toNat_ofNat]; omega
    simp only [List.cons_append, List.nil_append, decodeRune]
    rw [if_pos (by rw [BitVec.lt_def, e]; simp; omega), e]
    rfl
  rw [if_neg h1]
  by_cases h2 : r ≤ 0x7FF
  · rw [if_pos h2]
    refine ⟨?_, by simp⟩
    obtain ⟨c1, c2⟩ := cont_enc r
    obtain ⟨l1, l2, l3⟩ := lead2 (r >>> 6) (by rw [Nat.shiftRight_eq_div_pow]; omega)
    have e : ((r >>> 6) <<< 6) ||| (r % 64) = r := by
      rw [or_lt6 _ _ (by omega), Nat.shiftRight_eq_div_pow]; omega
    simp only [List.cons_append, List.nil_append, decodeRune]
    rw [if_neg l1, if_pos l2, l3, c2, e, if_pos ⟨c1, by omega⟩]
    rfl
  rw [if_neg h2]
  have h3 : ¬ (0x10FFFF < r ∨ (0xD800 ≤ r ∧ r ≤ 0xDFFF)) := by omega
  simp only [if_neg h3]
  by_cases h4 : r ≤ 0xFFFF
  · rw [if_pos h4]
    refine ⟨?_, by simp⟩
    obtain ⟨c1, c2⟩ := cont_enc r
    obtain ⟨d1, d2⟩ := cont_enc (r >>> 6)
    obtain ⟨l1, l2, l3, l4⟩ := lead3 (r >>> 12) (by rw [Nat.shiftRight_eq_div_pow]; omega)
    have e : ((r >>> 12) <<< 12) ||| (((r >>> 6) % 64) <<< 6) ||| (r % 64) = r := by
      rw [Nat.or_assoc, or_lt6 _ _ (by omega), or_lt12 _ _ (by omega), Nat.shiftRight_eq_div_pow, Nat.shiftRight_eq_div_pow]
      omega
    simp only [List.cons_append, List.nil_append, decodeRune]
    rw [if_neg l1, if_neg l2, if_pos l3, l4, c2, d2, e, if_pos ⟨d1, c1, by omega, by omega⟩]
    rfl
  · rw [if_neg h4]
    refine ⟨?_, by simp⟩
    obtain ⟨c1, c2⟩ := cont_enc r
    obtain ⟨d1, d2⟩ := cont_enc (r >>> 6)
    obtain ⟨f1, f2⟩ := cont_enc (r >>> 12)
    obtain ⟨l1, l2, l3, l4, l5⟩ := lead4 (r >>> 18) (by rw [Nat.shiftRight_eq_div_pow]; omega)
    have e : ((r >>> 18) <<< 18) ||| (((r >>> 12) % 64) <<< 12) ||| (((r >>> 6) % 64) <<< 6) ||| (r % 64) = r := by
      rw [Nat.or_assoc, Nat.or_assoc, or_lt6 _ _ (by omega), or_lt12 _ _ (by omega), or_lt18 _ _ (by omega),
        Nat.shiftRight_eq_div_pow, Nat.shiftRight_eq_div_pow, Nat.shiftRight_eq_div_pow]
      omega
    simp only [List.cons_append, List.nil_append, decodeRune]
    rw [if_neg l1, if_neg l2, if_neg l3, if_pos l4, l5, c2, d2, f2, e, if_pos ⟨f1, d1, c1, by omega, by omega⟩]
    rfl

theorem decodeRune_valid (l : List Byte) : ValidRune (decodeRune l).1 := by
  have hb : ValidRune badRune.1 := by unfold ValidRune badRune; omega
  unfold decodeRune
  split
  · exact hb
  rename_i s0 s
  by_cases h1 : s0 < 0x80#8
  · rw [if_pos h1]; unfold ValidRune; rw [BitVec.lt_def] at h1; simp at h1; left; show s0.toNat < _; omega
  rw [if_neg h1]
  by_cases h2 : 0xC0#8 ≤ s0 ∧ s0 < 0xE0#8
  · rw [if_pos h2]
    split
    · rename_i s1 _
      simp only []
      split
      · left
        show _ < _
        rw [or_lt6 _ _ (by rw [BitVec.toNat_and]; exact Nat.lt_of_le_of_lt Nat.and_le_right (by decide))]
        have := (s0 &&& 0x1F#8).isLt
        have h5 : (s0 &&& 0x1F#8).toNat ≤ 31 := by rw [BitVec.toNat_and]; exact Nat.and_le_right
        have h6 : (s1 &&& 0x3F#8).toNat ≤ 63 := by rw [BitVec.toNat_and]; exact Nat.and_le_right
        omega
      · exact hb
    · exact hb
  rw [if_neg h2]
  by_cases h3 : 0xE0#8 ≤ s0 ∧ s0 < 0xF0#8
  · rw [if_pos h3]
    split
    · rename_i s1 s2 _
      simp only []
      generalize hr : ((s0 &&& 0x0F#8).toNat <<< 12) ||| ((s1 &&& 0x3F#8).toNat <<< 6) ||| (s2 &&& 0x3F#8).toNat = r
      have h5 : (s0 &&& 0x0F#8).toNat ≤ 15 := by rw [BitVec.toNat_and]; exact Nat.and_le_right
      have h6 : (s1 &&& 0x3F#8).toNat ≤ 63 := by rw [BitVec.toNat_and]; exact Nat.and_le_right
      have h7 : (s2 &&& 0x3F#8).toNat ≤ 63 := by rw [BitVec.toNat_and]; exact Nat.and_le_right
      rw [Nat.or_assoc, or_lt6 _ _ (by omega), or_lt12 _ _ (by omega)] at hr
      split
      · rename_i hc
        unfold ValidRune
        show r < _ ∨ (_ < r ∧ r ≤ _)
        omega
      · exact hb
    · exact hb
  rw [if_neg h3]
  by_cases h4 : 0xF0#8 ≤ s0 ∧ s0 < 0xF8#8
  · rw [if_pos h4]
    split
    · simp only []
      split
      · rename_i hc
        unfold ValidRune
        right
        exact ⟨by show _ < _; omega, hc.2.2.2.2⟩
      · exact hb
    · exact hb
  · rw [if_neg h4]; exact hb

theorem decodeRune_pos (l : List Byte) : 0 < (decodeRune l).2 := by
  unfold decodeRune badRune
  repeat' split
  all_goals simp only []
  all_goals (try split)
  all_goals simp

theorem runesAux_valid (k : Nat) (l : List Byte) : ∀ r ∈ runesAux k l, ValidRune r := by
  induction k generalizing l with
  | zero => simp [runesAux]
  | succ k ih =>
    cases l with
    | nil => simp [runesAux]
    | cons b l =>
      intro r hr
      rw [runesAux] at hr
      rcases List.mem_cons.mp hr with rfl | hr
      · exact decodeRune_valid _
      · exact ih _ r hr

/-- More fuel than bytes changes nothing. -/
theorem runesAux_fuel (k k' : Nat) (l : List Byte) (h : l.length ≤ k) (h' : l.length ≤ k') :
    runesAux k l = runesAux k' l := by
  induction k generalizing k' l with
  | zero =>
    have : l = [] := List.eq_nil_of_length_eq_zero (by omega)
    subst this
    cases k' <;> rfl
  | succ k ih =>
    cases l with
    | nil => cases k' <;> rfl
    | cons b l =>
      cases k' with
      | zero => simp at h'
      | succ k' =>
        rw [runesAux, runesAux]
        have hp := decodeRune_pos (b :: l)
        simp only [List.length_cons] at h h'
        rw [ih k' _ (by rw [List.length_drop, List.length_cons]; omega) (by rw [List.length_drop, List.length_cons]; omega)]

/-- `[]rune(string(rs)) == rs` for valid runes. -/
theorem runes_stringOf (rs : List Nat) (h : ∀ r ∈ rs, ValidRune r) : runes (stringOf rs) = rs := by
  induction rs with
  | nil => rfl
  | cons r rs ih =>
    obtain ⟨h1, h2⟩ := decode_encode r (h r (by simp)) (stringOf rs)
    have e : stringOf (r :: rs) = encodeRune r ++ stringOf rs := by simp [stringOf]
    rw [runes, e]
    generalize hl : encodeRune r ++ stringOf rs = l at *
    cases l with
    | nil =>
      have := congrArg List.length hl
      rw [List.length_append, List.length_nil] at this
      omega
    | cons b l =>
      rw [List.length_cons, runesAux, h1]
      have hd : (b :: l).drop (encodeRune r).length = stringOf rs := by rw [← hl]; simp
      simp only [hd]
      have hlen : (stringOf rs).length ≤ l.length := by
        have := congrArg List.length hl
        rw [List.length_append, List.length_cons] at this
        omega
      rw [runesAux_fuel l.length (stringOf rs).length _ hlen (Nat.le_refl _)]
      exact congrArg (r :: ·) (ih fun x hx => h x (by simp [hx]))

theorem runes_eq_nil (s : List Byte) : runes s = [] ↔ s = [] := by
  cases s with
  | nil => simp [runes, runesAux]
  | cons b s => simp [runes, runesAux]

theorem runes_length_le (s : List Byte) : (runes s).length ≤ s.length := by
  have : ∀ k l, (runesAux k l).length ≤ k := by
    intro k
    induction k with
    | zero => simp [runesAux]
    | succ k ih =>
      intro l
      cases l with
      | nil => simp [runesAux]
      | cons b l => rw [runesAux, List.length_cons]; have := ih ((b :: l).drop (decodeRune (b :: l)).2); omega
  exact this _ _

theorem randLoop (next : σ → Go (U64 × σ)) (a : List Nat) (hlt : ∀ s j s', next s = .ok (j, s') → j.toNat < a.length) (ha : a.length < 2 ^ 63) (n : Nat) (s : σ) (k : Nat) (hk : k ≤ n)
    (body : Nat → List Nat × σ → Go (List Nat × σ))
    (hbody : body = fun i ps => do
      let (k, s) ← next ps.2
      let x ← lget a k.toInt
      let p ← lset ps.1 i x
      return (p, s)) :
    (∀ js s', draws next k s = .ok (js, s') →
      forIdx k body (List.replicate n 0, s) =
        .ok (js.map (fun j => a[j.toNat]?.getD 0) ++ List.replicate (n - k) 0, s') ∧ ∀ j ∈ js, j.toNat < a.length) ∧
    (∀ e, draws next k s = .error e →
      forIdx k body (List.replicate n 0, s) = .error e) := by
  induction k with
  | zero =>
    refine ⟨fun js s' h => ?_, fun e h => by simp [draws] at h⟩
    simp only [draws, Except.ok.injEq, Prod.mk.injEq] at h
    obtain ⟨rfl, rfl⟩ := h
    exact ⟨by simp [forIdx], by simp⟩
  | succ k ih =>
    obtain ⟨ih1, ih2⟩ := ih (by omega)
    rw [draws_add]
    simp only [draws_one]
    cases hk' : draws next k s with
    | error e =>
      refine ⟨fun js s' h => ?_, fun e' h => ?_⟩
      · simp [bind, Except.bind] at h
      · simp only [bind, Except.bind, Except.error.injEq] at h
        simp only [forIdx, ih2 e hk', bind, Except.bind, h]
    | ok r =>
      obtain ⟨xs, s1⟩ := r
      obtain ⟨hf, hr⟩ := ih1 xs s1 hk'
      have hl := draws_length hk'
      cases hn : next s1 with
      | error e =>
        refine ⟨fun js s' h => ?_, fun e' h => ?_⟩
        · simp [bind, Except.bind, hn] at h
        · simp only [bind, Except.bind, hn, Except.error.injEq] at h
          simp only [forIdx, hf, bind, Except.bind]
          rw [hbody]
          simp only [hn, h, bind, Except.bind]
      | ok v =>
        obtain ⟨j, s2⟩ := v
        have hj : j.toNat < a.length := hlt _ _ _ hn
        refine ⟨fun js s' h => ?_, fun e' h => ?_⟩
        · simp only [bind, Except.bind, hn, pure, Except.pure, Except.ok.injEq, Prod.mk.injEq] at h
          obtain ⟨rfl, rfl⟩ := h
          refine ⟨?_, ?_⟩
          · simp only [forIdx, hf, bind, Except.bind]
            rw [hbody]
            simp only [hn, bind, Except.bind]
            have hti : j.toInt = (j.toNat : Int) := by rw [BitVec.toInt_eq_toNat_cond, if_pos (by omega)]
            have h1 : lget a j.toInt = .ok (a[j.toNat]?.getD 0) := by
              unfold lget
              rw [hti, if_neg (by omega)]
              simp [List.getElem?_eq_getElem hj]
            have h2 : lset (xs.map (fun j => a[j.toNat]?.getD 0) ++ List.replicate (n - k) 0) (k : Int)
                (a[j.toNat]?.getD 0) = .ok ((xs ++ [j]).map (fun j => a[j.toNat]?.getD 0) ++ List.replicate (n - (k + 1)) 0) := by
              unfold lset
              rw [if_pos ⟨by omega, by simp [hl]; omega⟩]
              refine congrArg Except.ok ?_
              rw [Int.toNat_natCast, List.set_append_right _ _ (by simp [hl])]
              simp only [List.length_map, hl, Nat.sub_self, List.map_append, List.map_cons, List.map_nil, List.append_assoc]
              congr 1
              rw [show n - k = n - (k + 1) + 1 by omega, List.replicate_succ, List.set_cons_zero]
              rfl
            rw [h1]
            simp only [h2, pure, Except.pure]
          · intro x hx
            rcases List.mem_append.mp hx with hx | hx
            · exact hr x hx
            · rw [List.mem_singleton] at hx; rw [hx]; exact hj
        · simp [bind, Except.bind, hn, pure, Except.pure] at h

theorem uintn_lt (src : Source σ) (fuel n : Nat) (hn : n < 2 ^ 63) (s : σ) (j : U64) (s' : σ)
    (h : RNG.uintn src fuel (BitVec.ofNat 64 n) s = .ok (j, s')) : j.toNat < n := by
  have := C09_range src fuel _ _ _ _ h
  rw [BitVec.toNat_ofNat] at this
  omega

/-- C28: with `a` the runes of the alphabet, `RandString(rng, alphabet, n)` makes `n` calls `Uintn(len(a))`, and if these
return `j0, j1, ...` the result is a string whose runes are exactly `a[j0], a[j1], ...`: `n` runes, all from the alphabet.
If a call of `Uintn` does not return (because the source panics), nor does `RandString`. (`n` at most 2^46, as a larger
slice of runes cannot be made; an alphabet is a string, shorter than 2^63.) -/
theorem C28_randString (src : Source σ) (fuel : Nat) (alphabet : List Byte) (halpha : alphabet.length < 2 ^ 63) (n : Nat)
    (hn : n ≤ 2 ^ 46) (s : σ) :
    (∀ js s', draws (RNG.uintn src fuel (BitVec.ofNat 64 (runes alphabet).length)) n s = .ok (js, s') →
      ∃ str, randString src fuel alphabet n s = .ok (str, s') ∧ (runes str).length = n ∧
        (∀ r ∈ runes str, r ∈ runes alphabet) ∧
        ∀ i < n, ∃ j, js[i]? = some j ∧ (runes alphabet)[j.toNat]? = (runes str)[i]?) ∧
    (∀ e, draws (RNG.uintn src fuel (BitVec.ofNat 64 (runes alphabet).length)) n s = .error e →
      randString src fuel alphabet n s = .error e) := by
  have hm : makeRunes (n : Int) = .ok (List.replicate n 0) := by
    unfold makeRunes RNG.maxAlloc
    rw [if_neg (by omega)]; simp
  have hal := runes_length_le alphabet
  have key := randLoop (RNG.uintn src fuel (BitVec.ofNat 64 (runes alphabet).length)) (runes alphabet)
      (uintn_lt src fuel _ (by omega)) (by omega) n s n (Nat.le_refl _) _ rfl
  constructor
  · intro js s' h
    obtain ⟨h1, h2⟩ := key.1 js s' h
    have hl := draws_length h
    rw [Nat.sub_self, List.replicate_zero, List.append_nil] at h1
    have hmem : ∀ r ∈ js.map (fun j => (runes alphabet)[j.toNat]?.getD 0), r ∈ runes alphabet := by
      intro r hr
      obtain ⟨j, hj, rfl⟩ := List.mem_map.mp hr
      rw [List.getElem?_eq_getElem (h2 j hj)]
      exact List.getElem_mem _
    have hrun := runes_stringOf (js.map (fun j => (runes alphabet)[j.toNat]?.getD 0))
      (fun r hr => runesAux_valid _ _ r (hmem r hr))
    refine ⟨stringOf (js.map (fun j => (runes alphabet)[j.toNat]?.getD 0)), ?_, ?_, ?_, ?_⟩
    · simp only [bind, Except.bind, pure, Except.pure] at h1
      simp only [randString, hm, bind, Except.bind, List.length_replicate, h1, pure, Except.pure]
    · rw [hrun]; simp [hl]
    · rw [hrun]; exact hmem
    · intro i hi
      rw [hrun]
      have hj := h2 (js[i]'(by omega)) (List.getElem_mem _)
      refine ⟨js[i]'(by omega), List.getElem?_eq_getElem _, ?_⟩
      rw [List.getElem?_map, List.getElem?_eq_getElem (l := js) (by omega)]
      simp [List.getElem?_eq_getElem hj]
  · intro e h
    have h1 := key.2 e h
    simp only [bind, Except.bind, pure, Except.pure] at h1
    simp only [randString, hm, bind, Except.bind, pure, Except.pure, List.length_replicate, h1]

/-- C28: for a negative length, and for one that cannot be allocated, `RandString` panics; so it does for a positive length
and an empty alphabet. Nothing is read from the source in these cases. For `n = 0` the result is empty, whatever the
alphabet, and nothing is read. -/
theorem C28_panics (src : Source σ) (fuel : Nat) (alphabet : List Byte) (s : σ) :
    (∀ n : Int, n < 0 → randString src fuel alphabet n s = .error .makeslice) ∧
    (∀ n : Int, 2 ^ 46 < n → randString src fuel alphabet n s = .error .makeslice) ∧
    (∀ n : Int, 0 < n → n ≤ 2 ^ 46 → randString src fuel [] n s = .error .divide) ∧
    randString src fuel alphabet 0 s = .ok ([], s) := by
  have hm : ∀ n : Int, n < 0 ∨ 2 ^ 46 < n → randString src fuel alphabet n s = .error .makeslice := by
    intro n h
    have : makeRunes n = .error .makeslice := by
      unfold makeRunes RNG.maxAlloc; rw [if_pos (by omega)]
    simp only [randString, this, bind, Except.bind]
  refine ⟨fun n h => hm n (.inl h), fun n h => hm n (.inr h), fun n h0 h1 => ?_, ?_⟩
  · obtain ⟨k, rfl⟩ : ∃ k : Nat, n = ((k + 1 : Nat) : Int) := ⟨n.toNat - 1, by omega⟩
    refine (C28_randString src fuel [] (by simp) (k + 1) (by omega) s).2 .divide ?_
    have : RNG.uintn src fuel (BitVec.ofNat 64 (runes []).length) s = .error .divide := C09_zero src fuel s
    simp only [draws, this, bind, Except.bind]
  · have : makeRunes 0 = .ok [] := by unfold makeRunes RNG.maxAlloc; simp
    simp only [randString, this, bind, Except.bind, List.length_nil, forIdx, pure, Except.pure, stringOf, List.flatMap_nil]

/-- C28, invalid bytes act as U+FFFD: the runes of any alphabet are valid code points, and an alphabet that is the UTF-8
encoding of valid code points has these runes. -/
theorem C28_alphabet :
    (∀ alphabet : List Byte, ∀ r ∈ runes alphabet, ValidRune r) ∧
    (∀ rs : List Nat, (∀ r ∈ rs, ValidRune r) → runes (stringOf rs) = rs) ∧
    (∀ alphabet : List Byte, runes alphabet = [] ↔ alphabet = []) :=
  ⟨fun _ => runesAux_valid _ _, runes_stringOf, runes_eq_nil⟩

/-- Non-vacuity: "aé" followed by a stray byte has the runes a, é, U+FFFD; a string of three runes from it. -/
example : runes [0x61, 0xC3, 0xA9, 0xFF] = [0x61, 0xE9, 0xFFFD] := by decide +kernel
example : (randString tape 0 [0x61, 0xC3, 0xA9, 0xFF] 3 [1, 2, 3]).map (fun r => runes r.1) = .ok [0xE9, 0xFFFD, 0x61] := by
  decide +kernel

end Crazy
