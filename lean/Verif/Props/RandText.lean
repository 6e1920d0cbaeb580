/-
C28 for text: RandString over an alphabet given as a Lean `String`, whose UTF-8 encoding is the one defined in Lean's core library.
-/
import Verif.Props.RandString
namespace Crazy

variable {σ : Type}

/-- The bytes of a string in UTF-8, as Lean encodes it. -/
def utf8 (s : String) : List Byte := s.toByteArray.data.toList.map UInt8.toBitVec

theorem enc_cont (n : Nat) : 0x80#8 ||| (BitVec.ofNat 8 n &&& 0x3F#8) = (UInt8.ofNat (n % 64 + 128)).toBitVec := by
  have h : ∀ b : Fin 256, (0x80#8 ||| (BitVec.ofNat 8 b.val &&& 0x3F#8)) = (UInt8.ofNat (b.val % 64 + 128)).toBitVec := by decide +kernel
  have := h ⟨n % 256, Nat.mod_lt _ (by omega)⟩
  have e : BitVec.ofNat 8 (n % 256) = BitVec.ofNat 8 n := by
    apply BitVec.eq_of_toNat_eq; simp
  have e2 : n % 256 % 64 = n % 64 := by omega
  simp only [e, e2] at this
  exact this

theorem enc_lead2 (n : Nat) (h : n < 32) : 0xC0#8 ||| BitVec.ofNat 8 n = (UInt8.ofNat (n % 32 + 0xc0)).toBitVec := by
  revert n; decide +kernel

theorem enc_lead3 (n : Nat) (h : n < 16) : 0xE0#8 ||| BitVec.ofNat 8 n = (UInt8.ofNat (n % 16 + 0xe0)).toBitVec := by
  revert n; decide +kernel

theorem enc_lead4 (n : Nat) (h : n < 8) : 0xF0#8 ||| BitVec.ofNat 8 n = (UInt8.ofNat (n % 8 + 0xf0)).toBitVec := by
  revert n; decide +kernel

theorem encodeRune_char (c : Char) : encodeRune c.toNat = (String.utf8EncodeChar c).map UInt8.toBitVec := by
  have hv : c.toNat < 0xD800 ∨ (0xDFFF < c.toNat ∧ c.toNat < 0x110000) := c.valid
  have hc : c.val.toNat = c.toNat := rfl
  unfold encodeRune String.utf8EncodeChar
  simp only [hc]
  generalize c.toNat = v at hv
  have s6 : v >>> 6 = v / 64 := Nat.shiftRight_eq_div_pow v 6
  have s12 : v >>> 12 = v / 4096 := Nat.shiftRight_eq_div_pow v 12
  have s18 : v >>> 18 = v / 262144 := Nat.shiftRight_eq_div_pow v 18
  have hs : ¬ (0x10FFFF < v ∨ (0xD800 ≤ v ∧ v ≤ 0xDFFF)) := by omega
  by_cases h1 : v ≤ 0x7F
  · rw [if_pos h1, if_pos h1]
    rfl
  rw [if_neg h1, if_neg h1]
  by_cases h2 : v ≤ 0x7FF
  · rw [if_pos h2, if_pos h2, enc_cont, s6, enc_lead2 _ (by omega)]
    rfl
  rw [if_neg h2, if_neg h2, if_neg hs]
  by_cases h3 : v ≤ 0xFFFF
  · rw [if_pos h3, if_pos h3, enc_cont, enc_cont, s6, s12, enc_lead3 _ (by omega)]
    rfl
  · rw [if_neg h3, if_neg h3, enc_cont, enc_cont, enc_cont, s6, s12, s18, enc_lead4 _ (by omega)]
    rfl

theorem stringOf_chars (l : List Char) : stringOf (l.map Char.toNat) = (l.flatMap String.utf8EncodeChar).map UInt8.toBitVec := by
  induction l with
  | nil => rfl
  | cons c l ih =>
    have e : stringOf ((c :: l).map Char.toNat) = encodeRune c.toNat ++ stringOf (l.map Char.toNat) := by simp [stringOf]
    rw [e, ih, encodeRune_char, List.flatMap_cons, List.map_append]

theorem utf8_eq (s : String) : utf8 s = stringOf (s.toList.map Char.toNat) := by
  unfold utf8
  rw [← String.utf8Encode_toList, stringOf_chars]
  unfold List.utf8Encode
  simp

theorem validRune_char (c : Char) : ValidRune c.toNat := by
  have hv : c.toNat < 0xD800 ∨ (0xDFFF < c.toNat ∧ c.toNat < 0x110000) := c.valid
  unfold ValidRune
  omega

/-- `[]rune(s)` are the characters of the string. -/
theorem runes_utf8 (s : String) : runes (utf8 s) = s.toList.map Char.toNat := by
  rw [utf8_eq, runes_stringOf]
  intro r hr
  obtain ⟨c, -, rfl⟩ := List.mem_map.mp hr
  exact validRune_char c

theorem toNat_injective : Function.Injective Char.toNat := fun _ _ h => Char.toNat_inj.mp h

theorem lift_chars (rs : List Nat) (l : List Char) (h : ∀ r ∈ rs, r ∈ l.map Char.toNat) : ∃ m : List Char, rs = m.map Char.toNat := by
  induction rs with
  | nil => exact ⟨[], rfl⟩
  | cons r rs ih =>
    obtain ⟨m, hm⟩ := ih fun x hx => h x (List.mem_cons_of_mem _ hx)
    obtain ⟨c, -, hc⟩ := List.mem_map.mp (h r List.mem_cons_self)
    exact ⟨c :: m, by rw [hm, List.map_cons, hc]⟩

theorem randString_runes (src : Source σ) (fuel : Nat) (alphabet : List Byte) (halpha : alphabet.length < 2 ^ 63) (n : Nat)
    (hn : n ≤ 2 ^ 46) (s : σ) (js : List U64) (s' : σ)
    (h : draws (RNG.uintn src fuel (BitVec.ofNat 64 (runes alphabet).length)) n s = .ok (js, s')) :
    randString src fuel alphabet n s = .ok (stringOf (js.map fun j => (runes alphabet)[j.toNat]?.getD 0), s') ∧
      ∀ j ∈ js, j.toNat < (runes alphabet).length := by
  have hm : makeRunes (n : Int) = .ok (List.replicate n 0) := by
    unfold makeRunes RNG.maxAlloc
    rw [if_neg (by omega)]; simp
  have hal := runes_length_le alphabet
  obtain ⟨h1, h2⟩ := (randLoop (RNG.uintn src fuel (BitVec.ofNat 64 (runes alphabet).length)) (runes alphabet)
      (uintn_lt src fuel _ (by omega)) (by omega) n s n (Nat.le_refl _) _ rfl).1 js s' h
  refine ⟨?_, h2⟩
  rw [Nat.sub_self, List.replicate_zero, List.append_nil] at h1
  simp only [bind, Except.bind, pure, Except.pure] at h1
  simp only [randString, hm, bind, Except.bind, List.length_replicate, h1, pure, Except.pure]

/-- C28, for an alphabet that is text: if the calls `Uintn(|A|)`, `|A|` being the number of characters of `A`, return `j0, j1, ...` then
the result is the text made of the characters of `A` numbers `j0, j1, ...`, in UTF-8. -/
theorem C28_text (src : Source σ) (fuel : Nat) (A : String) (hA : (utf8 A).length < 2 ^ 63) (n : Nat) (hn : n ≤ 2 ^ 46) (s s' : σ)
    (js : List U64) (h : draws (RNG.uintn src fuel (BitVec.ofNat 64 A.length)) n s = .ok (js, s')) :
    ∃ R : String, randString src fuel (utf8 A) n s = .ok (utf8 R, s') ∧ R.length = n ∧ (∀ c ∈ R.toList, c ∈ A.toList) ∧
      ∀ i < n, ∃ j, js[i]? = some j ∧ j.toNat < A.length ∧ R.toList[i]? = A.toList[j.toNat]? := by
  have hlen : (runes (utf8 A)).length = A.length := by rw [runes_utf8, List.length_map, String.length_toList]
  rw [← hlen] at h
  obtain ⟨h1, h2⟩ := randString_runes src fuel (utf8 A) hA n hn s js s' h
  have hl := draws_length h
  have hget : ∀ j ∈ js, ∃ c ∈ A.toList, A.toList[j.toNat]? = some c ∧ (runes (utf8 A))[j.toNat]?.getD 0 = c.toNat := by
    intro j hj
    have h3 := h2 j hj
    rw [hlen, ← String.length_toList] at h3
    refine ⟨_, List.getElem_mem h3, List.getElem?_eq_getElem h3, ?_⟩
    rw [runes_utf8, List.getElem?_map, List.getElem?_eq_getElem h3]
    rfl
  have hR : ∃ m : List Char, js.map (fun j => (runes (utf8 A))[j.toNat]?.getD 0) = m.map Char.toNat ∧
      m.map some = js.map fun j => A.toList[j.toNat]? := by
    clear h h1 h2 hl
    induction js with
    | nil => exact ⟨[], rfl, rfl⟩
    | cons j js ih =>
      obtain ⟨m, hm, hm'⟩ := ih fun x hx => hget x (List.mem_cons_of_mem _ hx)
      obtain ⟨c, -, hc1, hc2⟩ := hget j List.mem_cons_self
      exact ⟨c :: m, by rw [List.map_cons, hm, List.map_cons, hc2], by rw [List.map_cons, hm', List.map_cons, hc1]⟩
  obtain ⟨m, hm, hm'⟩ := hR
  have hml : m.length = n := by
    have := congrArg List.length hm
    rw [List.length_map, List.length_map, hl] at this
    exact this.symm
  have hmi : ∀ i < n, ∃ j, js[i]? = some j ∧ j.toNat < A.length ∧ m[i]? = A.toList[j.toNat]? := by
    intro i hi
    have hj : i < js.length := by omega
    refine ⟨js[i], List.getElem?_eq_getElem hj, by rw [← hlen]; exact h2 _ (List.getElem_mem hj), ?_⟩
    have := congrArg (fun l => l[i]?) hm'
    simp only [List.getElem?_map, List.getElem?_eq_getElem hj, List.getElem?_eq_getElem (show i < m.length by omega), Option.map_some,
      Option.some_inj] at this
    rw [List.getElem?_eq_getElem (by omega), this]
  refine ⟨String.ofList m, ?_, ?_, ?_, ?_⟩
  · rw [h1, hm, utf8_eq, String.toList_ofList]
  · rw [String.length_ofList, hml]
  · rw [String.toList_ofList]
    intro c hc
    obtain ⟨i, hi, rfl⟩ := List.getElem_of_mem hc
    obtain ⟨j, -, h3, h4⟩ := hmi i (by omega)
    rw [List.getElem?_eq_getElem hi] at h4
    exact List.mem_of_getElem? h4.symm
  · rw [String.toList_ofList]
    exact hmi

/-- C28: for any alphabet, also one that is no UTF-8, the result is text in UTF-8. -/
theorem C28_result_text (src : Source σ) (fuel : Nat) (alphabet : List Byte) (halpha : alphabet.length < 2 ^ 63) (n : Nat)
    (hn : n ≤ 2 ^ 46) (s s' : σ) (str : List Byte) (h : randString src fuel alphabet n s = .ok (str, s')) :
    ∃ R : String, str = utf8 R ∧ R.length = n := by
  cases hd : draws (RNG.uintn src fuel (BitVec.ofNat 64 (runes alphabet).length)) n s with
  | error e => rw [(C28_randString src fuel alphabet halpha n hn s).2 e hd] at h; contradiction
  | ok r =>
    obtain ⟨js, s''⟩ := r
    obtain ⟨h1, h2⟩ := randString_runes src fuel alphabet halpha n hn s js s'' hd
    rw [h1] at h
    injection h with h
    have h3 := congrArg Prod.fst h
    have hl := draws_length hd
    have hR : ∃ m : List Char, js.map (fun j => (runes alphabet)[j.toNat]?.getD 0) = m.map Char.toNat := by
      clear h h1 hd hl h3
      induction js with
      | nil => exact ⟨[], rfl⟩
      | cons j js ih =>
        obtain ⟨m, hm⟩ := ih fun x hx => h2 x (List.mem_cons_of_mem _ hx)
        have hj := h2 j List.mem_cons_self
        have hv : ValidRune (runes alphabet)[j.toNat] := runesAux_valid _ _ _ (List.getElem_mem hj)
        have hv' : ((runes alphabet)[j.toNat]).isValidChar := by
          unfold ValidRune at hv
          unfold Nat.isValidChar
          omega
        refine ⟨Char.ofNat (runes alphabet)[j.toNat] :: m, ?_⟩
        have hc : ∀ n : Nat, n.isValidChar → (Char.ofNat n).toNat = n := by
          intro n hn
          unfold Char.ofNat
          rw [dif_pos hn]
          rfl
        rw [List.map_cons, hm, List.map_cons, List.getElem?_eq_getElem hj, hc _ hv']
        rfl
    obtain ⟨m, hm⟩ := hR
    refine ⟨String.ofList m, ?_, ?_⟩
    · rw [utf8_eq, String.toList_ofList, ← hm]
      exact h3.symm
    · have := congrArg List.length hm
      rw [List.length_map, List.length_map, hl] at this
      rw [String.length_ofList, this]

/-- Non-vacuity of `C28_text`: a run on an alphabet of characters of one, two, three and four bytes. -/
example : runes (utf8 "aé€𝄞") = [0x61, 0xE9, 0x20AC, 0x1D11E] := by decide +kernel
example : ∃ js s', draws (RNG.uintn tape 0 (BitVec.ofNat 64 "aé€𝄞".length)) 3 [7, 2, 9] = .ok (js, s') := ⟨_, _, rfl⟩

end Crazy
