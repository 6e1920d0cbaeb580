/-
Per-generator summaries: no method panics, seeding forgets, saving and restoring.
-/
import Verif.Model.Xoshiro
import Verif.Proofs.Api
import Verif.Proofs.LFGState
import Verif.Proofs.MT64
import Verif.Proofs.XoSeed
namespace Crazy

theorem draws_total {σ : Type} {next : σ → Go (U64 × σ)} {I : σ → Prop}
    (h : ∀ s, I s → ∃ x s', next s = .ok (x, s') ∧ I s') (n : Nat) (s : σ) (hs : I s) :
    ∃ ws s', draws next n s = .ok (ws, s') ∧ I s' := by
  induction n generalizing s with
  | zero => exact ⟨[], s, rfl, hs⟩
  | succ n ih =>
    obtain ⟨x, s1, h1, i1⟩ := h s hs
    obtain ⟨ws, s2, h2, i2⟩ := ih s1 i1
    exact ⟨x :: ws, s2, by simp only [draws, bind, Except.bind, h1, h2, pure, Except.pure], i2⟩

/-- `Read` through `readGt`. -/
theorem read_total {σ : Type} {next : σ → Go (U64 × σ)} {I : σ → Prop}
    (h : ∀ s, I s → ∃ x s', next s = .ok (x, s') ∧ I s') (p : List Byte) (s : σ) (hs : I s) :
    ∃ q s', readGt next p s = .ok (q, s') ∧ I s' := by
  obtain ⟨ws, s', h1, h2⟩ := draws_total h (wordsGt p.length) s hs
  exact ⟨_, s', by rw [readGt_eq, h1]; rfl, h2⟩

/-! ### Xoroshiro -/

namespace Xoroshiro

theorem save_eq (g : Xoroshiro) : g.save = .ok (bytesOf [g.s0, g.s1]) := by
  simp only [bytesOf_cons, bytesOf_nil, List.append_nil]; rfl

theorem restore_ok (r : Reader) (g : Xoroshiro) (hn : ¬ (r.reply 16).n < 16) (a b : U64)
    (hb : (r.reply 16).buf = bytesOf [a, b]) : g.restore r = .ok (((r.reply 16).n, none), ⟨a, b⟩) := by
  have e2 : u64le (le64 b) = .ok b := by simpa using u64le_le64 b []
  simp only [restore, if_neg hn, hb, bytesOf_cons, bytesOf_nil, List.append_nil, bind, Except.bind, u64le_le64,
    sliceFrom_le64, e2, pure, Except.pure]

theorem restore_short (r : Reader) (g : Xoroshiro) (hn : (r.reply 16).n < 16) :
    g.restore r = .ok (((r.reply 16).n, (r.reply 16).err), g) := by
  simp only [restore, if_pos hn, pure, Except.pure]

theorem buf_split (r : Reader) : ∃ a b, (r.reply 16).buf = bytesOf [a, b] := by
  have hl := r.len_buf 16
  obtain ⟨ws, hws, he⟩ := exists_words (r.reply 16).buf 2 (by omega)
  rw [List.drop_eq_nil_of_le (by omega), List.append_nil] at he
  match ws, hws with
  | [a, b], _ => exact ⟨a, b, he⟩

theorem restore_total (r : Reader) (g : Xoroshiro) : ∃ x g', g.restore r = .ok (x, g') := by
  by_cases hn : (r.reply 16).n < 16
  · exact ⟨_, _, restore_short r g hn⟩
  · obtain ⟨a, b, h⟩ := buf_split r
    exact ⟨_, _, restore_ok r g hn a b h⟩

theorem uint64_total (g : Xoroshiro) (_ : True) : ∃ x g', g.uint64 = .ok (x, g') ∧ True := ⟨_, _, rfl, trivial⟩

theorem safe : methods.Safe (fun _ => True) where
  uint64 := uint64_total
  read p s h := by
    obtain ⟨ws, s', h1, h2⟩ := draws_total uint64_total (p.length / 8 + 1) s h
    exact ⟨⟨(bytesOf ws).take p.length, p.length, none⟩, s', by
      show read p s = _
      rw [read, xoroReadBytes_eq, h1]; rfl, trivial⟩
  seed x s _ := by
    obtain ⟨g, hg⟩ := seedIV_total (le64 x)
    exact ⟨g, hg s, trivial⟩
  seedIV iv s _ := by
    obtain ⟨g, hg⟩ := seedIV_total iv
    exact ⟨g, hg s, trivial⟩
  save s _ := ⟨_, save_eq s⟩
  restore r s _ := by
    obtain ⟨x, g', h⟩ := restore_total r s
    exact ⟨x, g', h, trivial⟩
  ext _ s _ := ⟨.u64 (s.out >>> 1), s.step, rfl, trivial, by simp⟩

end Xoroshiro

/-! ### Rexoroshiro -/

namespace Rexoroshiro

theorem uint64_total (g : Rexoroshiro) (_ : True) : ∃ x g', g.uint64 = .ok (x, g') ∧ True :=
  ⟨_, _, rfl, trivial⟩

theorem safe : methods.Safe (fun _ => True) where
  uint64 := uint64_total
  read p s h := by
    obtain ⟨q, s', h1, -⟩ := read_total uint64_total p s h
    exact ⟨⟨q, p.length, none⟩, s', by show read p s = _; rw [read, h1]; rfl, trivial⟩
  seed x s _ := by
    obtain ⟨g, hg⟩ := Xoroshiro.seedIV_total (le64 x)
    exact ⟨⟨g⟩, by show seed x s = _; rw [seed, Xoroshiro.seed, hg]; rfl, trivial⟩
  seedIV iv s _ := by
    obtain ⟨g, hg⟩ := Xoroshiro.seedIV_total iv
    exact ⟨⟨g⟩, by show seedIV iv s = _; rw [seedIV, hg]; rfl, trivial⟩
  save s _ := ⟨_, Xoroshiro.save_eq s.xoro⟩
  restore r s _ := by
    obtain ⟨x, g', h⟩ := Xoroshiro.restore_total r s.xoro
    exact ⟨x, ⟨g'⟩, by show restore r s = _; rw [restore, h]; rfl, trivial⟩
  ext _ s _ := ⟨.u64 (reverseBytes64 s.xoro.out &&& 0x7fffffffffffffff#64), ⟨s.xoro.step⟩, rfl, trivial, by simp⟩

end Rexoroshiro

/-! ### Xoshiro -/

namespace Xoshiro

theorem save_eq (g : Xoshiro) : g.save = .ok (bytesOf [g.w, g.x, g.y, g.z]) := by
  simp only [bytesOf_cons, bytesOf_nil, List.append_nil]; rfl

theorem restore_ok (r : Reader) (g : Xoshiro) (hn : ¬ (r.reply 32).n < 32) (a b c d : U64)
    (hb : (r.reply 32).buf = bytesOf [a, b, c, d]) :
    g.restore r = .ok (((r.reply 32).n, none), ⟨a, b, c, d⟩) := by
  have e8 := fun h => bytesOf_take_drop [a, b, c, d] 1 [] h
  have e16 := fun h => bytesOf_take_drop [a, b, c, d] 2 [] h
  have e24 := fun h => bytesOf_take_drop [a, b, c, d] 3 [] h
  have e0 := fun h => bytesOf_take_drop [a, b, c, d] 0 [] h
  have hl : (bytesOf [a, b, c, d]).length = 32 := bytesOf_length _
  simp only [List.append_nil, Nat.reduceMul, List.drop_zero] at e0 e8 e16 e24
  simp only [restore, if_neg hn, hb, sliceFrom, hl, bind, Except.bind, pure, Except.pure]
  rw [e0 (by simp)]
  simp only [Nat.reduceLeDiff, if_true]
  rw [e8 (by simp)]; simp only []
  rw [e16 (by simp)]; simp only []
  rw [e24 (by simp)]
  rfl

theorem restore_short (r : Reader) (g : Xoshiro) (hn : (r.reply 32).n < 32) :
    g.restore r = .ok (((r.reply 32).n, (r.reply 32).err), g) := by
  simp only [restore, if_pos hn, pure, Except.pure]

theorem buf_split (r : Reader) : ∃ a b c d, (r.reply 32).buf = bytesOf [a, b, c, d] := by
  have hl := r.len_buf 32
  obtain ⟨ws, hws, he⟩ := exists_words (r.reply 32).buf 4 (by omega)
  rw [List.drop_eq_nil_of_le (by omega), List.append_nil] at he
  match ws, hws with
  | [a, b, c, d], _ => exact ⟨a, b, c, d, he⟩

theorem restore_total (r : Reader) (g : Xoshiro) : ∃ x g', g.restore r = .ok (x, g') := by
  by_cases hn : (r.reply 32).n < 32
  · exact ⟨_, _, restore_short r g hn⟩
  · obtain ⟨a, b, c, d, h⟩ := buf_split r
    exact ⟨_, _, restore_ok r g hn a b c d h⟩

theorem uint64_total (g : Xoshiro) (_ : True) : ∃ x g', g.uint64 = .ok (x, g') ∧ True := ⟨_, _, rfl, trivial⟩

theorem safe : methods.Safe (fun _ => True) where
  uint64 := uint64_total
  read p s h := by
    obtain ⟨q, s', h1, -⟩ := read_total uint64_total p s h
    exact ⟨⟨q, p.length, none⟩, s', by show read p s = _; rw [read, h1]; rfl, trivial⟩
  seed x s _ := by
    obtain ⟨g, hg⟩ := seedIV_total (le64 x)
    exact ⟨g, hg s, trivial⟩
  seedIV iv s _ := by
    obtain ⟨g, hg⟩ := seedIV_total iv
    exact ⟨g, hg s, trivial⟩
  save s _ := ⟨_, save_eq s⟩
  restore r s _ := by
    obtain ⟨x, g', h⟩ := restore_total r s
    exact ⟨x, g', h, trivial⟩
  ext e s _ := by
    cases e
    · exact ⟨.unit, s.jump, rfl, trivial, by simp⟩
    · exact ⟨.unit, s.reverse, rfl, trivial, by simp⟩

end Xoshiro

/-! ### LFG -/

namespace LFG

theorem uint64_total (g : LFG) (h : Inv g) : ∃ x g', g.uint64 = .ok (x, g') ∧ Inv g' :=
  ⟨_, _, uint64_eq g h, inv_next g h⟩

theorem safe : methods.Safe Inv where
  uint64 := uint64_total
  read p s h := by
    obtain ⟨q, s', h1, h2⟩ := read_total uint64_total p s h
    exact ⟨⟨q, p.length, none⟩, s', by show read p s = _; rw [read, h1]; rfl, h2⟩
  seed x s _ := ⟨_, seedIV_eq (le64 x) s, inv_nexts _ _ (inv_seedStart _)⟩
  seedIV iv s _ := ⟨_, seedIV_eq iv s, inv_nexts _ _ (inv_seedStart _)⟩
  save s h := ⟨_, save_eq s h⟩
  restore r s h := restore_total r s h
  ext _ s h := by
    refine ⟨.u64 ((s.hist 606 + s.hist 272) >>> 1), s.next, ?_, inv_next s h, by simp⟩
    · show (do let (x, g) ← s.int63; return (Obs.u64 x, g)) = _
      simp only [int63, uint64_eq s h, bind, Except.bind, pure, Except.pure]

/-- Two rings with the same words in age order. -/
def Twin (g h : LFG) : Prop := Inv g ∧ Inv h ∧ ∀ i < 607, g.hist i = h.hist i

theorem Twin.next {g h : LFG} (t : Twin g h) : Twin g.next h.next := by
  refine ⟨inv_next g t.1, inv_next h t.2.1, fun i hi => ?_⟩
  rw [hist_next g i hi, hist_next h i hi, t.2.2 606 (by omega), t.2.2 272 (by omega)]
  split
  · rfl
  · exact t.2.2 _ (by omega)

theorem Twin.nexts {g h : LFG} (t : Twin g h) (n : Nat) : Twin (nexts n g) (nexts n h) := by
  induction n generalizing g h with
  | zero => exact t
  | succ n ih => exact ih t.next

theorem Twin.seq {g h : LFG} (t : Twin g h) (n : Nat) : g.seq n = h.seq n := by
  induction n using Nat.strongRecOn with
  | ind n ih =>
    by_cases hn : n < 607
    · rw [seq_lt _ hn, seq_lt _ hn, t.2.2 _ hn]
    · rw [seq_ge (n := n) g (by omega), seq_ge (n := n) h (by omega), ih _ (by omega), ih _ (by omega)]

theorem Twin.refl {g : LFG} (h : Inv g) : Twin g g := ⟨h, h, fun _ _ => rfl⟩

theorem read_eq (p : List Byte) (g : LFG) (h : Inv g) :
    g.read p = .ok (⟨(bytesOf ((List.range (wordsGt p.length)).map fun k => g.seq (607 + k))).take p.length,
      p.length, none⟩, nexts (wordsGt p.length) g) := by
  rw [read, readGt_eq, draws_eq _ g h]
  rfl

theorem Twin.indist {g h : LFG} (t : Twin g h) : Indist methods.api g h := by
  refine Indist.of_bisim methods.api Twin ?_ t
  intro s t op r
  right
  cases op with
  | uint64 =>
    refine ⟨.u64 (s.hist 606 + s.hist 272), s.next, t.next, ?_, ?_, r.next⟩
    · show (do let (x, g) ← s.uint64; return (Obs.u64 x, g)) = _
      rw [uint64_eq s r.1]; rfl
    · show (do let (x, g) ← t.uint64; return (Obs.u64 x, g)) = _
      rw [uint64_eq t r.2.1, r.2.2 606 (by omega), r.2.2 272 (by omega)]; rfl
  | read p =>
    refine ⟨Obs.read ⟨(bytesOf ((List.range (wordsGt p.length)).map fun k => s.seq (607 + k))).take p.length,
        p.length, none⟩, _, _, ?_, ?_, r.nexts (wordsGt p.length)⟩
    · show (do let (x, g) ← s.read p; return (Obs.read x, g)) = _
      rw [read_eq p s r.1]; rfl
    · show (do let (x, g) ← t.read p; return (Obs.read x, g)) = _
      rw [read_eq p t r.2.1]
      simp only [r.seq]
      rfl
  | seed x =>
    refine ⟨.unit, _, _, ?_, ?_, Twin.refl (inv_nexts 4856 _ (inv_seedStart (le64 x)))⟩
    · show (do let g ← s.seedIV (le64 x); return (Obs.unit, g)) = _
      rw [seedIV_eq]; rfl
    · show (do let g ← t.seedIV (le64 x); return (Obs.unit, g)) = _
      rw [seedIV_eq]; rfl
  | seedIV iv =>
    refine ⟨.unit, _, _, ?_, ?_, Twin.refl (inv_nexts 4856 _ (inv_seedStart iv))⟩
    · show (do let g ← s.seedIV iv; return (Obs.unit, g)) = _
      rw [seedIV_eq]; rfl
    · show (do let g ← t.seedIV iv; return (Obs.unit, g)) = _
      rw [seedIV_eq]; rfl
  | save w =>
    have e : (bytesOf ((List.range 607).map fun i => s.hist (272 + i)))
        = bytesOf ((List.range 607).map fun i => t.hist (272 + i)) := by
      refine congrArg bytesOf (List.map_congr_left ?_)
      intro i hi
      rw [List.mem_range] at hi
      by_cases h : 272 + i < 607
      · exact r.2.2 _ h
      · rw [show 272 + i = (i - 335) + 607 by omega, hist_mod, hist_mod, r.2.2 _ (by omega)]
    refine ⟨Obs.saved (bytesOf ((List.range 607).map fun i => s.hist (272 + i)))
        (w.reply (bytesOf ((List.range 607).map fun i => s.hist (272 + i)))).1
        (w.reply (bytesOf ((List.range 607).map fun i => s.hist (272 + i)))).2, s, t, ?_, ?_, r⟩
    · show (do let b ← s.save; return (Obs.saved b (w.reply b).1 (w.reply b).2, s)) = _
      rw [save_eq s r.1]; rfl
    · show (do let b ← t.save; return (Obs.saved b (w.reply b).1 (w.reply b).2, t)) = _
      rw [save_eq t r.2.1, e]; rfl
  | restore rd =>
    by_cases hn : (rd.reply (lfgK * 8)).n < (lfgK * 8 : Nat)
    · refine ⟨.restored (rd.reply (lfgK * 8)).n (rd.reply (lfgK * 8)).err, s, t, ?_, ?_, r⟩
      · show (do let (x, g) ← s.restore rd; return (Obs.restored x.1 x.2, g)) = _
        rw [restore_short rd s hn]; rfl
      · show (do let (x, g) ← t.restore rd; return (Obs.restored x.1 x.2, g)) = _
        rw [restore_short rd t hn]; rfl
    · have hl := rd.len_buf (lfgK * 8)
      obtain ⟨ws, hws, he⟩ := exists_words (rd.reply (lfgK * 8)).buf 607 (by rw [hl]; decide)
      rw [List.drop_eq_nil_of_le (by rw [hl]; decide), List.append_nil] at he
      refine ⟨.restored (rd.reply (lfgK * 8)).n none, _, _, ?_, ?_, Twin.refl
        (g := { f := 334, t := 0, s := ⟨ws.toArray, by simp [hws]⟩ }) ⟨by show 0 < 607; decide,
          by show 334 = (0 + 334) % 607; decide⟩⟩
      · show (do let (x, g) ← s.restore rd; return (Obs.restored x.1 x.2, g)) = _
        rw [restore_ok rd s hn ws hws he]; rfl
      · show (do let (x, g) ← t.restore rd; return (Obs.restored x.1 x.2, g)) = _
        rw [restore_ok rd t hn ws hws he]; rfl
  | ext e =>
    refine ⟨.u64 ((s.hist 606 + s.hist 272) >>> 1), s.next, t.next, ?_, ?_, r.next⟩
    · show (do let (x, g) ← s.int63; return (Obs.u64 x, g)) = _
      rw [int63, uint64_eq s r.1]; rfl
    · show (do let (x, g) ← t.int63; return (Obs.u64 x, g)) = _
      rw [int63, uint64_eq t r.2.1, r.2.2 606 (by omega), r.2.2 272 (by omega)]; rfl

end LFG

/-! ### MT64 -/

namespace MT64

theorem uint64_total (g : MT64) (_ : Inv g) : ∃ x g', g.uint64 = .ok (x, g') ∧ Inv g' :=
  ⟨_, _, uint64_eq g, inv_next g⟩

theorem safe : methods.Safe Inv where
  uint64 := uint64_total
  read p s h := by
    obtain ⟨q, s', h1, h2⟩ := read_total uint64_total p s h
    exact ⟨⟨q, p.length, none⟩, s', by show read p s = _; rw [read, h1]; rfl, h2⟩
  seed x s _ := ⟨_, seed_eq x s, by show 312 < 65536; decide⟩
  seedIV iv s _ := by
    obtain ⟨v, hv⟩ := seedIV_total iv
    exact ⟨_, hv s, by show 312 < 65536; decide⟩
  save s _ := ⟨_, save_eq s⟩
  restore r s h := restore_total r s h
  ext _ s _ := by
    refine ⟨.u64 (temper (seq s.s s.pos) >>> 1), s.next, ?_, inv_next s, by simp⟩
    show (do let (x, g) ← s.int63; return (Obs.u64 x, g)) = _
    simp only [int63, uint64_eq s, bind, Except.bind, pure, Except.pure]

theorem index_bytes (i : Nat) (h : i < 65536) :
    (BitVec.ofNat 8 (i >>> 8)).toNat <<< 8 ||| (BitVec.ofNat 8 i).toNat = i := by
  simp only [BitVec.toNat_ofNat, Nat.shiftRight_eq_div_pow, Nat.reducePow]
  rw [← Nat.shiftLeft_add_eq_or_of_lt (by omega), Nat.shiftLeft_eq]
  omega

end MT64
end Crazy
