/-
Loops that store or load arrays of words.
-/
import Verif.Proofs.Stream
namespace Crazy

theorem forIdx_fill {n : Nat} (f : Nat → Go U64) (v : Nat → U64) (hf : ∀ i < n, f i = .ok (v i))
    (s0 : Vector U64 n) (k : Nat) (hk : k ≤ n) :
    forIdx k (fun i s => do aset s i (← f i)) s0
      = .ok (Vector.ofFn fun i : Fin n => if i.val < k then v i else s0[i]) := by
  induction k with
  | zero =>
    simp only [forIdx, Nat.not_lt_zero, if_false]
    congr 1
    apply Vector.ext; intro i hi; simp
  | succ k ih =>
    rw [forIdx, ih (by omega)]
    simp only [bind, Except.bind, hf k (by omega), aset, show k < n by omega, dif_pos]
    congr 1
    apply Vector.ext; intro i hi
    rw [Vector.getElem_set]
    simp only [Vector.getElem_ofFn, Fin.getElem_fin]
    split
    · subst_vars; rw [if_pos (by omega)]
    · split <;> rename_i h
      · rw [if_pos (by omega)]
      · rw [if_neg (by omega)]

theorem forRange_putAt (base : Nat) (ws : List U64) (start : Nat) (p : List Byte)
    (h : 8 * (base + start + ws.length) ≤ p.length) :
    forRange (fun i v p => putAt p (8 * (base + i)) v) start ws p
      = .ok (p.take (8 * (base + start)) ++ bytesOf ws ++ p.drop (8 * (base + start + ws.length))) := by
  induction ws generalizing start p with
  | nil => simp [forRange]
  | cons w ws ih =>
    have hl : ((w :: ws).length) = ws.length + 1 := rfl
    rw [hl] at h
    simp only [forRange, bind, Except.bind]
    rw [putAt, if_pos (by omega)]
    simp only
    rw [ih]
    · congr 1
      have e1 : (p.take (8 * (base + start))).length = 8 * (base + start) := by
        rw [List.length_take]; omega
      rw [bytesOf_cons, hl]
      have e2 : (p.take (8 * (base + start)) ++ le64 w).length = 8 * (base + (start + 1)) := by
        rw [List.length_append, e1, le64_length]; omega
      rw [List.take_append_of_le_length (by omega), List.take_of_length_le (by omega),
        show 8 * (base + (start + 1) + ws.length) =
          (p.take (8 * (base + start)) ++ le64 w).length + 8 * ws.length by omega,
        List.drop_append, List.drop_drop]
      rw [List.drop_eq_nil_of_le (by omega)]
      simp only [List.append_assoc, List.nil_append]
      congr 4
      omega
    · simp only [List.length_append, List.length_take, List.length_drop, le64_length]; omega

theorem bytesOf_take_drop (ws : List U64) (i : Nat) (r : List Byte) (h : i < ws.length) :
    u64le ((bytesOf ws ++ r).drop (8 * i)) = .ok ws[i] := by
  induction ws generalizing i with
  | nil => simp at h
  | cons w ws ih =>
    cases i with
    | zero => rw [bytesOf_cons]; simp only [Nat.mul_zero, List.drop_zero, List.append_assoc]
              rw [u64le_le64]; rfl
    | succ i =>
      rw [bytesOf_cons, List.append_assoc, show 8 * (i + 1) = (le64 w).length + 8 * i by
        rw [le64_length]; omega, List.drop_append, List.drop_eq_nil_of_le (by omega)]
      simp only [List.nil_append, Nat.add_sub_cancel_left]
      rw [ih i (by simpa using h)]
      rfl

theorem load_words {n : Nat} (ws : List U64) (hn : ws.length = n) (r : List Byte) (s0 : Vector U64 n) :
    forIdx n (fun i s => do aset s i (← u64le (← sliceFrom (bytesOf ws ++ r) (8 * i)))) s0
      = .ok ⟨ws.toArray, by simp [hn]⟩ := by
  have := forIdx_fill (n := n) (fun i => do u64le (← sliceFrom (bytesOf ws ++ r) (8 * i)))
    (fun i => ws.getD i 0#64) (by
      intro i hi
      have : 8 * i ≤ (bytesOf ws ++ r).length := by
        rw [List.length_append, bytesOf_length]; omega
      simp only [sliceFrom, if_pos this, bind, Except.bind]
      rw [bytesOf_take_drop _ _ _ (by omega)]
      simp [List.getD_eq_getElem?_getD, List.getElem?_eq_getElem (show i < ws.length by omega)]) s0 n (Nat.le_refl _)
  simp only [bind_assoc] at this
  rw [this]
  congr 1
  apply Vector.ext; intro i hi
  simp [List.getD_eq_getElem?_getD, List.getElem?_eq_getElem (show i < ws.length by omega)]

/-- Loading never panics on a long enough buffer, whatever it contains. -/
theorem exists_words (p : List Byte) (n : Nat) (h : 8 * n ≤ p.length) :
    ∃ ws : List U64, ws.length = n ∧ p = bytesOf ws ++ p.drop (8 * n) := by
  induction n generalizing p with
  | zero => exact ⟨[], rfl, by simp⟩
  | succ n ih =>
    obtain ⟨x, -, hx⟩ := u64le_eq p (by omega)
    obtain ⟨ws, hl, he⟩ := ih (p.drop 8) (by rw [List.length_drop]; omega)
    refine ⟨x :: ws, by simp [hl], ?_⟩
    rw [bytesOf_cons, hx, show 8 * (n + 1) = 8 + 8 * n by omega, List.append_assoc,
      ← List.drop_drop, ← he, List.take_append_drop]

end Crazy
