/-
`SeedIV`, `Save`, `Restore` of `LFG` in terms of the window view.
-/
import Verif.Proofs.LFG
import Verif.Proofs.Words
namespace Crazy
namespace LFG

/-- Sum of what the bytes of `iv` (the first at position `i`) add to ring word `k` during seeding. -/
def contrib : Nat → List Byte → Nat → U64
  | _, [], _ => 0#64
  | i, v :: iv, k =>
    (if (i + 334) % 607 = k then
      lfgS0[(v.toNat + 256 * i) % 607]'(Nat.mod_lt _ (by decide)) else 0#64) + contrib (i + 1) iv k

theorem seedBody_eq (i : Nat) (v : Byte) (s : Vector U64 607) :
    (do
      let a ← aget s ((i + lfgK - lfgJ) % lfgK)
      let b ← aget lfgS0 ((v.toNat + 256 * i) % lfgK)
      aset s ((i + lfgK - lfgJ) % lfgK) (a + b)) = .ok (s.set ((i + 334) % 607)
        (s[(i + 334) % 607]'(Nat.mod_lt _ (by decide))
          + lfgS0[(v.toNat + 256 * i) % 607]'(Nat.mod_lt _ (by decide))) (Nat.mod_lt _ (by decide))) := by
  have hm : ∀ k : Nat, k % 607 < 607 := fun k => Nat.mod_lt _ (by decide)
  have e : (i + lfgK - lfgJ) % lfgK = (i + 334) % 607 := by
    simp only [lfgK, lfgJ]; omega
  have e2 : aget s ((i + 334) % 607) = .ok (s[(i + 334) % 607]'(hm _)) := dif_pos (hm _)
  have e3 : aget lfgS0 ((v.toNat + 256 * i) % 607)
    = .ok (lfgS0[(v.toNat + 256 * i) % 607]'(hm _)) := dif_pos (hm _)
  have e4 : ∀ x, aset s ((i + 334) % 607) x = .ok (s.set ((i + 334) % 607) x (hm _)) :=
    fun x => dif_pos (hm _)
  rw [e, show lfgK = 607 from rfl, e2, e3]
  exact e4 _

theorem seedBytes_aux (iv : List Byte) (i : Nat) (s : Vector U64 607) :
    forRange (fun i (v : Byte) s => do
      let a ← aget s ((i + lfgK - lfgJ) % lfgK)
      let b ← aget lfgS0 ((v.toNat + 256 * i) % lfgK)
      aset s ((i + lfgK - lfgJ) % lfgK) (a + b)) i iv s
      = .ok (Vector.ofFn fun k : Fin 607 => s[k] + contrib i iv k) := by
  induction iv generalizing i s with
  | nil =>
    refine congrArg Except.ok ?_
    apply Vector.ext; intro k hk; simp [contrib]
  | cons v iv ih =>
    simp only [forRange]
    rw [seedBody_eq]
    refine (ih (i + 1) _).trans (congrArg Except.ok ?_)
    apply Vector.ext; intro k hk
    simp only [Vector.getElem_ofFn, Fin.getElem_fin, contrib, Vector.getElem_set]
    split
    · subst_vars; rw [BitVec.add_assoc]
    · simp

/-- The ring right before the outputs that `SeedIV` discards. -/
def seedVec (iv : List Byte) : Vector U64 607 :=
  Vector.ofFn fun k : Fin 607 => lfgS0[k] + contrib 0 iv k

theorem discard_eq (n : Nat) (g : LFG) (h : Inv g) : discard n g = .ok (nexts n g) := by
  unfold discard
  induction n with
  | zero => rfl
  | succ n ih =>
    rw [forIdx, ih]
    simp only [bind, Except.bind, pure, Except.pure]
    rw [uint64_eq _ (inv_nexts n g h), nexts_succ']

/-- The state from which `SeedIV` discards outputs. -/
def seedStart (iv : List Byte) : LFG := { f := 334, t := 0, s := seedVec iv }

theorem inv_seedStart (iv : List Byte) : Inv (seedStart iv) :=
  ⟨by show 0 < 607; decide, by show 334 = (0 + 334) % 607; decide⟩

theorem seedIV_eq (iv : List Byte) (g : LFG) :
    g.seedIV iv = .ok (nexts 4856 (seedStart iv)) := by
  have h : seedBytes iv lfgS0 = .ok (seedVec iv) := seedBytes_aux iv 0 lfgS0
  simp only [seedIV, bind, Except.bind]
  rw [h, ← discard_eq 4856 (seedStart iv) (inv_seedStart iv)]
  have e1 : lfgK * 8 = 4856 := rfl
  have e2 : lfgK - lfgJ = 334 := rfl
  rw [e1, e2]
  rfl

theorem save_aux (a b : List U64) (n : Nat) (h : a.length + b.length = n) :
    (do
      let p ← forRange (fun i v p => putAt p (8 * i) v) 0 a (zeros (n * 8))
      forRange (fun i v p => putAt p (8 * (a.length + i)) v) 0 b p) = .ok (bytesOf (a ++ b)) := by
  have h1 := forRange_putAt 0 a 0 (zeros (n * 8)) (by rw [zeros_length]; omega)
  simp only [Nat.zero_add, Nat.mul_zero, List.take_zero, List.nil_append] at h1
  rw [h1]
  have h2 := forRange_putAt a.length b 0 (bytesOf a ++ (zeros (n * 8)).drop (8 * a.length)) (by
    rw [List.length_append, List.length_drop, bytesOf_length, zeros_length]; omega)
  simp only [bind, Except.bind]
  rw [h2]
  refine congrArg Except.ok ?_
  rw [Nat.add_zero, List.take_append_of_le_length (by rw [bytesOf_length]; omega),
    List.take_of_length_le (by rw [bytesOf_length]; omega),
    List.drop_eq_nil_of_le (by
      rw [List.length_append, List.length_drop, bytesOf_length, zeros_length]; omega),
    List.append_nil, bytesOf_append]

theorem save_words (v : Vector U64 607) (t : Nat) (ht : t < 607) :
    v.toList.drop t ++ v.toList.take t
      = (List.range 607).map fun i => v[(t + i) % 607]'(Nat.mod_lt _ (by decide)) := by
  apply List.ext_getElem
  · simp only [List.length_append, List.length_drop, List.length_take, Vector.length_toList,
      List.length_map, List.length_range]; omega
  · intro i hi1 hi2
    have hi : i < 607 := by rwa [List.length_map, List.length_range] at hi2
    rw [List.getElem_map, List.getElem_range, List.getElem_append]
    split
    · rename_i h3
      rw [List.length_drop, Vector.length_toList] at h3
      rw [List.getElem_drop, Vector.getElem_toList]
      exact vget_congr _ (by omega) _ _
    · rename_i h3
      rw [List.length_drop, Vector.length_toList] at h3
      rw [List.getElem_take, Vector.getElem_toList]
      refine vget_congr _ ?_ _ _
      rw [List.length_drop, Vector.length_toList]
      omega

/-- The bytes of a saved state: the ring's words from `t` on, little endian. -/
theorem save_eq (g : LFG) (h : Inv g) :
    g.save = .ok (bytesOf ((List.range 607).map fun i => g.hist (272 + i))) := by
  have ht := h.1
  have hl : (g.s.toList.drop g.t).length = lfgK - g.t := by
    rw [List.length_drop, Vector.length_toList]; rfl
  have h1 := save_aux (g.s.toList.drop g.t) (g.s.toList.take g.t) lfgK (by
    rw [hl, List.length_take, Vector.length_toList]; show 607 - g.t + min g.t 607 = 607; omega)
  rw [hl, save_words g.s g.t ht] at h1
  unfold save
  rw [if_neg (by show ¬ 607 < g.t; omega)]
  refine Eq.trans ?_ (h1.trans (congrArg (fun l => Except.ok (bytesOf l)) ?_))
  · rfl
  · apply List.map_congr_left
    intro i _
    exact vget_congr _ (by omega) _ _

theorem restore_ok (r : Reader) (g : LFG) (hn : ¬ (r.reply (lfgK * 8)).n < (lfgK * 8 : Nat))
    (ws : List U64) (hws : ws.length = 607) (hb : (r.reply (lfgK * 8)).buf = bytesOf ws) :
    g.restore r = .ok (((r.reply (lfgK * 8)).n, none),
      { f := 334, t := 0, s := ⟨ws.toArray, by simp [hws]⟩ }) := by
  simp only [restore]
  rw [if_neg hn, hb]
  have := load_words (n := 607) ws hws [] g.s
  simp only [List.append_nil] at this
  simp only [bind, Except.bind] at this ⊢
  rw [show lfgK = 607 from rfl, this]
  rfl

theorem restore_short (r : Reader) (g : LFG) (hn : (r.reply (lfgK * 8)).n < (lfgK * 8 : Nat)) :
    g.restore r = .ok (((r.reply (lfgK * 8)).n, (r.reply (lfgK * 8)).err), g) := by
  simp only [restore]
  rw [if_pos hn]
  rfl

theorem restore_total (r : Reader) (g : LFG) (hg : Inv g) :
    ∃ x g', g.restore r = .ok (x, g') ∧ Inv g' := by
  by_cases hn : (r.reply (lfgK * 8)).n < (lfgK * 8 : Nat)
  · exact ⟨_, _, restore_short r g hn, hg⟩
  · have hl := r.len_buf (lfgK * 8)
    obtain ⟨ws, hws, he⟩ := exists_words (r.reply (lfgK * 8)).buf 607 (by rw [hl]; decide)
    rw [List.drop_eq_nil_of_le (by rw [hl]; decide), List.append_nil] at he
    exact ⟨_, _, restore_ok r g hn ws hws he, by show 0 < 607; decide,
      by show 334 = (0 + 334) % 607; decide⟩

end LFG
end Crazy
