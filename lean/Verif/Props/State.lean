/-
C58: Restore is all or nothing. C59: Save. C64: Rexoroshiro. C43: Reverse. C65: reversibility.
-/
import Verif.Props.Seeding
import Verif.Props.Read
import Verif.Proofs.XoStep
import Mathlib.Data.List.Forall2
namespace Crazy

/-! ### C58 -/

theorem savesAs_of {σ ε : Type} (m : Methods σ ε) (s : σ) (b : List Byte) (h : m.save s = .ok b) :
    SavesAs m.api s b := by
  intro w
  show (do let b ← m.save s; return (Obs.saved b (w.reply b).1 (w.reply b).2, s)) = _
  rw [h]; rfl

theorem restore_call {σ ε : Type} {m : Methods σ ε} {s t : σ} {r : Reader} {n : Int} {e : Option Err}
    (h : m.restore r s = .ok ((n, e), t)) : m.api.call s (.restore r) = .ok (.restored n e, t) := by
  show (do let (x, g) ← m.restore r s; return (Obs.restored x.1 x.2, g)) = _
  rw [h]; rfl

theorem C58_Xoroshiro : RestoreAllOrNothing Xoroshiro.methods.api 16 := by
  refine fun r => ⟨fun h s => restore_call (Xoroshiro.restore_short r s h), fun h => ?_⟩
  obtain ⟨a, b, hb⟩ := Xoroshiro.buf_split r
  refine ⟨⟨a, b⟩, fun s => restore_call (Xoroshiro.restore_ok r s (by omega) a b hb), ?_⟩
  rw [hb]
  exact savesAs_of _ _ _ (Xoroshiro.save_eq _)

theorem C58_Rexoroshiro : RestoreAllOrNothing Rexoroshiro.methods.api 16 := by
  refine fun r => ⟨fun h s => restore_call ?_, fun h => ?_⟩
  · show Rexoroshiro.restore r s = _
    rw [Rexoroshiro.restore, Xoroshiro.restore_short r s.xoro h]; rfl
  · obtain ⟨a, b, hb⟩ := Xoroshiro.buf_split r
    refine ⟨⟨⟨a, b⟩⟩, fun s => restore_call ?_, ?_⟩
    · show Rexoroshiro.restore r s = _
      rw [Rexoroshiro.restore, Xoroshiro.restore_ok r s.xoro (by omega) a b hb]; rfl
    · rw [hb]
      exact savesAs_of _ _ _ (Xoroshiro.save_eq _)

theorem C58_Xoshiro : RestoreAllOrNothing Xoshiro.methods.api 32 := by
  refine fun r => ⟨fun h s => restore_call (Xoshiro.restore_short r s h), fun h => ?_⟩
  obtain ⟨a, b, c, d, hb⟩ := Xoshiro.buf_split r
  refine ⟨⟨a, b, c, d⟩, fun s => restore_call (Xoshiro.restore_ok r s (by omega) a b c d hb), ?_⟩
  rw [hb]
  exact savesAs_of _ _ _ (Xoshiro.save_eq _)

theorem C58_LFG : RestoreAllOrNothing LFG.methods.api 4856 := by
  have e : lfgK * 8 = 4856 := rfl
  refine fun r => ⟨fun h s => restore_call ?_, fun h => ?_⟩
  · have := LFG.restore_short r s
    rw [e] at this
    exact this h
  · have hl := r.len_buf 4856
    obtain ⟨ws, hws, he⟩ := exists_words (r.reply 4856).buf 607 (by rw [hl]; decide)
    rw [List.drop_eq_nil_of_le (by rw [hl]; decide), List.append_nil] at he
    refine ⟨{ f := 334, t := 0, s := ⟨ws.toArray, by simp [hws]⟩ }, fun s => restore_call ?_, ?_⟩
    · have := LFG.restore_ok r s
      rw [e] at this
      exact this (by omega) ws hws he
    · refine savesAs_of _ _ _ ?_
      have hs := LFG.save_eq { f := 334, t := 0, s := ⟨ws.toArray, by simp [hws]⟩ }
        ⟨by show 0 < 607; decide, by show 334 = (0 + 334) % 607; decide⟩
      refine Eq.trans hs ?_
      rw [he]
      refine congrArg (fun l => Except.ok (bytesOf l)) ?_
      apply List.ext_getElem
      · simp [hws]
      · intro i h1 h2
        simp only [List.getElem_map, List.getElem_range]
        show (Vector.mk ws.toArray _)[(0 + 335 + (272 + i)) % 607]'(_) = _
        simp only [Vector.getElem_mk, List.getElem_toArray]
        congr 1
        omega

/-- C58: the error is not guaranteed: a reader may deliver nothing without reporting an error (which `io.Reader`
allows), and then `Restore` reports success with a short count although it changed nothing. -/
theorem C58_silent :
    ∃ r : Reader, ∀ s, Xoshiro.methods.api.call s (.restore r) = .ok (.restored 0 none, s) :=
  ⟨⟨fun k => ⟨zeros k, 0, none⟩, fun k => by simp⟩, fun s =>
    ((C58_Xoshiro _).1 (show (0 : Int) < 32 by decide)) s⟩

/-- C58 for `MT64`: an error, whatever was delivered with it, leaves the generator as it is and is reported. -/
theorem C58_MT64_error (r : Reader) (e : Err) (h : (r.reply 2498).err = some e) (s : MT64) :
    MT64.methods.api.call s (.restore r) = .ok (.restored (r.reply 2498).n (some e), s) := by
  refine restore_call ?_
  have := MT64.restore_err r s
  rw [show 2 + mt64N * 8 = 2498 from rfl, h] at this
  exact this (by simp)

/-- C58 for `MT64`: without an error the count is ignored: whatever is in the buffer (zero bytes where the
reader delivered nothing) becomes the state, and success is reported. -/
theorem C58_MT64_no_error (r : Reader) (h : (r.reply 2498).err = none) :
    ∃ t, (∀ s : MT64, MT64.methods.api.call s (.restore r) = .ok (.restored (r.reply 2498).n none, t)) ∧
      SavesAs MT64.methods.api t (r.reply 2498).buf := by
  have e : 2 + mt64N * 8 = 2498 := rfl
  have hb := MT64.buf_split r
  rw [e] at hb
  obtain ⟨ws, hws, hi, lo, hb⟩ := hb
  refine ⟨{ i := (hi.toNat <<< 8) ||| lo.toNat, s := ⟨ws.toArray, by simp [hws]⟩ },
    fun s => restore_call ?_, ?_⟩
  · have := MT64.restore_ok r s
    rw [e] at this
    exact this h ws hws hi lo hb
  · refine savesAs_of _ _ _ ?_
    show MT64.save _ = _
    rw [MT64.save_eq, hb]
    have hlt := hi.isLt
    have hlo := lo.isLt
    have hv : hi.toNat <<< 8 ||| lo.toNat = hi.toNat * 256 + lo.toNat := by
      rw [← Nat.shiftLeft_add_eq_or_of_lt (by omega), Nat.shiftLeft_eq]
    have h1 : BitVec.ofNat 8 ((hi.toNat <<< 8 ||| lo.toNat) >>> 8) = hi := by
      apply BitVec.eq_of_toNat_eq
      rw [hv, Nat.shiftRight_eq_div_pow, BitVec.toNat_ofNat]
      omega
    have h2 : BitVec.ofNat 8 (hi.toNat <<< 8 ||| lo.toNat) = lo := by
      apply BitVec.eq_of_toNat_eq
      rw [hv, BitVec.toNat_ofNat]
      omega
    simp only [h1, h2]
    rfl

/-- C58 is false for `MT64`: a reader that delivers nothing, without an error, wipes the state. -/
theorem C58_MT64_false : ¬ RestoreAllOrNothing MT64.methods.api 2498 := by
  intro h
  let r : Reader := ⟨fun k => ⟨zeros k, 0, none⟩, fun k => by simp⟩
  obtain ⟨t, ht, -⟩ := C58_MT64_no_error r rfl
  have hs : ∀ s : MT64, s = t := fun s => by
    have h1 := (h r).1 (show (0 : Int) < 2498 by decide) s
    rw [ht s] at h1
    exact (congrArg Prod.snd (Except.ok.inj h1)).symm
  have : MT64.mk 0 (Vector.replicate 312 0#64) = MT64.mk 1 (Vector.replicate 312 0#64) := (hs _).trans (hs _).symm
  simp at this

/-- C58 is false for `MT64` also the other way round: a reader that delivers all 2498 bytes together with `io.EOF`
(as `io.Reader` allows) is refused. -/
theorem C58_MT64_eof (b : List Byte) (hb : b.length = 2498) :
    ∃ r : Reader, r.reply 2498 = ⟨b, 2498, some .eof⟩ ∧
      ∀ s : MT64, MT64.methods.api.call s (.restore r) = .ok (.restored 2498 (some .eof), s) := by
  refine ⟨⟨fun k => if k = 2498 then ⟨b, 2498, some .eof⟩ else ⟨zeros k, 0, none⟩, fun k => ?_⟩, rfl, fun s => ?_⟩
  · by_cases h : k = 2498
    · simp [h, hb]
    · simp [h]
  · exact C58_MT64_error _ .eof rfl s

/-! ### C59 -/

/-- Everything C59 says of one generator: `Save` writes `size` bytes at once and changes nothing; generators with
equal saved bytes are indistinguishable; restoring the bytes and saving again gives them back. -/
def SaveFaithful {σ ε : Type} (a : Api σ ε) (init : σ) (size : Nat) : Prop :=
  ∀ s, Reachable a init s → ∃ b : List Byte, b.length = size ∧ SavesAs a s b ∧
    (∀ s', Reachable a init s' → SavesAs a s' b → Indist a s s') ∧
    (∀ (t : σ) (r : Reader), r.Delivers b →
      ∃ t', a.call t (.restore r) = .ok (.restored size none, t') ∧ SavesAs a t' b)

theorem saveFaithful_of {σ ε : Type} (m : Methods σ ε) (init : σ) (size : Nat)
    (h : ∀ s, Reachable m.api init s → SaveRestores m.api s)
    (hl : ∀ s b, Reachable m.api init s → SavesAs m.api s b → b.length = size) : SaveFaithful m.api init size := by
  have uniq : ∀ s b b', SavesAs m.api s b → SavesAs m.api s b' → b = b' := by
    intro s b b' h1 h2
    have := (h1 ⟨fun _ => (0, none)⟩).symm.trans (h2 ⟨fun _ => (0, none)⟩)
    simp only [Except.ok.injEq, Prod.mk.injEq, Obs.saved.injEq] at this
    exact this.1.1
  intro s hs
  obtain ⟨b, hb, hr⟩ := h s hs
  have hlen := hl s b hs hb
  refine ⟨b, hlen, hb, fun s' hs' hb' => ?_, fun t r hd => ?_⟩
  · obtain ⟨b2, hb2, hr2⟩ := h s' hs'
    have e := uniq s' _ _ hb' hb2
    subst e
    obtain ⟨t1, ht1, hi1⟩ := hr s _ (Reader.of_delivers b)
    obtain ⟨t2, ht2, hi2⟩ := hr2 s _ (Reader.of_delivers b)
    have : t1 = t2 := by
      rw [ht1] at ht2
      exact congrArg Prod.snd (Except.ok.inj ht2)
    subst this
    exact hi1.symm.trans hi2
  · obtain ⟨t', ht', hi⟩ := hr t r hd
    refine ⟨t', by rw [← hlen]; exact ht', fun w => ?_⟩
    have h1 := hi [.save w]
    have h2 := hb w
    rw [Api.run_ok [] h2] at h1
    have h3 : m.api.call t' (.save w) = (do let b ← m.save t'; return (Obs.saved b (w.reply b).1 (w.reply b).2, t')) := rfl
    cases hsv : m.save t' with
    | error p =>
      rw [hsv] at h3
      rw [Api.run_err [] h3] at h1
      simp [Api.run] at h1
    | ok b' =>
      rw [hsv] at h3
      simp only [bind, Except.bind, pure, Except.pure] at h3
      rw [Api.run_ok [] h3] at h1
      simp only [Api.run, List.cons.injEq, Obs.saved.injEq, and_true] at h1
      rw [h3, h1.1]

theorem savesAs_inj {σ ε : Type} {a : Api σ ε} {s : σ} {b b' : List Byte} (h1 : SavesAs a s b) (h2 : SavesAs a s b') :
    b = b' := by
  have := (h1 ⟨fun _ => (0, none)⟩).symm.trans (h2 ⟨fun _ => (0, none)⟩)
  simp only [Except.ok.injEq, Prod.mk.injEq, Obs.saved.injEq] at this
  exact this.1.1

theorem C59_Xoroshiro : SaveFaithful Xoroshiro.methods.api Xoroshiro.new 16 :=
  saveFaithful_of _ _ _ (fun s _ => C02_Xoroshiro s) (fun s b _ h => by
    rw [savesAs_inj h (savesAs_of _ _ _ (Xoroshiro.save_eq s)), bytesOf_length]; rfl)

theorem C59_Rexoroshiro : SaveFaithful Rexoroshiro.methods.api Rexoroshiro.new 16 :=
  saveFaithful_of _ _ _ (fun s _ => C02_Rexoroshiro s) (fun s b _ h => by
    rw [savesAs_inj h (savesAs_of _ _ _ (Xoroshiro.save_eq s.xoro)), bytesOf_length]; rfl)

theorem C59_Xoshiro : SaveFaithful Xoshiro.methods.api Xoshiro.new 32 :=
  saveFaithful_of _ _ _ (fun s _ => C02_Xoshiro s) (fun s b _ h => by
    rw [savesAs_inj h (savesAs_of _ _ _ (Xoshiro.save_eq s)), bytesOf_length]; rfl)

theorem C59_LFG : SaveFaithful LFG.methods.api LFG.new 4856 :=
  saveFaithful_of _ _ _ C02_LFG (fun s b hs h => by
    rw [savesAs_inj h (savesAs_of _ _ _ (LFG.save_eq s (LFG.safe.reachable LFG.inv_new hs))), bytesOf_length,
      List.length_map, List.length_range])

theorem C59_MT64 : SaveFaithful MT64.methods.api MT64.new 2498 :=
  saveFaithful_of _ _ _ C02_MT64 (fun s b hs h => by
    rw [savesAs_inj h (savesAs_of _ _ _ (MT64.save_eq s)), List.length_append, bytesOf_length, Vector.length_toList]
    rfl)

/-! ### C64 -/

theorem bytesOf_reverseBytes64 (x : U64) : bytesOf [reverseBytes64 x] = (bytesOf [x]).reverse := by
  rw [bytesOf_one, bytesOf_one]
  unfold le64 reverseBytes64
  simp only [List.reverse_cons, List.reverse_nil, List.nil_append, List.cons_append]
  refine List.cons_eq_cons.mpr ⟨?_, List.cons_eq_cons.mpr ⟨?_, List.cons_eq_cons.mpr ⟨?_, List.cons_eq_cons.mpr
    ⟨?_, List.cons_eq_cons.mpr ⟨?_, List.cons_eq_cons.mpr ⟨?_, List.cons_eq_cons.mpr ⟨?_, List.cons_eq_cons.mpr
    ⟨?_, rfl⟩⟩⟩⟩⟩⟩⟩⟩ <;>
  · apply BitVec.eq_of_getLsbD_eq
    intro i hi
    have : i = 0 ∨ i = 1 ∨ i = 2 ∨ i = 3 ∨ i = 4 ∨ i = 5 ∨ i = 6 ∨ i = 7 := by omega
    rcases this with rfl | rfl | rfl | rfl | rfl | rfl | rfl | rfl <;>
      simp

/-- C64: from the same state, any number of `Rexoroshiro` outputs are the `Xoroshiro` outputs with their eight bytes
in reverse order, and the states stay the same. -/
theorem C64_outputs (n : Nat) (g : Xoroshiro) :
    ∃ xs ys g', draws Xoroshiro.uint64 n g = .ok (xs, g') ∧ draws Rexoroshiro.uint64 n ⟨g⟩ = .ok (ys, ⟨g'⟩) ∧
      xs.length = n ∧ List.Forall₂ (fun x y => bytesOf [y] = (bytesOf [x]).reverse) xs ys := by
  induction n generalizing g with
  | zero => exact ⟨[], [], g, rfl, rfl, rfl, .nil⟩
  | succ n ih =>
    obtain ⟨xs, ys, g', h1, h2, h3, h4⟩ := ih g.step
    refine ⟨g.out :: xs, reverseBytes64 g.out :: ys, g', ?_, ?_, by simp [h3],
      .cons (bytesOf_reverseBytes64 _) h4⟩
    · simp only [draws, Xoroshiro.uint64, bind, Except.bind, pure, Except.pure]
      rw [h1]
    · simp only [draws, Rexoroshiro.uint64, Xoroshiro.uint64, bind, Except.bind, pure, Except.pure]
      rw [h2]

/-- C64: `Read` on the byte-reversed type fills the buffer with the `Xoroshiro` outputs, each written backwards (most
significant byte first), and leaves the state where that many `Xoroshiro` outputs leave it. -/
theorem C64_read (g : Xoroshiro) (p : List Byte) :
    ∃ xs g', draws Xoroshiro.uint64 (max 1 ((p.length + 7) / 8)) g = .ok (xs, g') ∧
      xs.length = max 1 ((p.length + 7) / 8) ∧
      Rexoroshiro.read p ⟨g⟩ =
        .ok (⟨(xs.flatMap fun x => (bytesOf [x]).reverse).take p.length, p.length, none⟩, ⟨g'⟩) := by
  obtain ⟨xs, ys, g', h1, h2, h3, h4⟩ := C64_outputs (max 1 ((p.length + 7) / 8)) g
  obtain ⟨ws, s', k1, k2, k3, k4⟩ := C04_Rexoroshiro ⟨g⟩ p
  rw [h2] at k1
  have e := Except.ok.inj k1
  have e1 : ys = ws := congrArg Prod.fst e
  have e2 : (⟨g'⟩ : Rexoroshiro) = s' := congrArg Prod.snd e
  refine ⟨xs, g', h1, h3, ?_⟩
  rw [k4, ← e1, ← e2]
  have key : bytesOf ys = xs.flatMap fun x => (bytesOf [x]).reverse := by
    clear k1 k4 e e1 h1 h2 h3
    induction h4 with
    | nil => rfl
    | @cons x y xs ys hxy _ ih =>
      rw [List.flatMap_cons, ← ih, ← hxy, ← bytesOf_append]; rfl
  rw [key]

/-- C64: seeding, saving and restoring do the same to both types. -/
theorem C64_state (g : Xoroshiro) (iv : List Byte) (x : U64) (w : Writer) (r : Reader) :
    (∃ g', Xoroshiro.methods.api.call g (.seedIV iv) = .ok (.unit, g') ∧
      Rexoroshiro.methods.api.call ⟨g⟩ (.seedIV iv) = .ok (.unit, ⟨g'⟩)) ∧
    (∃ g', Xoroshiro.methods.api.call g (.seed x) = .ok (.unit, g') ∧
      Rexoroshiro.methods.api.call ⟨g⟩ (.seed x) = .ok (.unit, ⟨g'⟩)) ∧
    (∃ o, Xoroshiro.methods.api.call g (.save w) = .ok (o, g) ∧
      Rexoroshiro.methods.api.call ⟨g⟩ (.save w) = .ok (o, ⟨g⟩)) ∧
    (∃ o g', Xoroshiro.methods.api.call g (.restore r) = .ok (o, g') ∧
      Rexoroshiro.methods.api.call ⟨g⟩ (.restore r) = .ok (o, ⟨g'⟩)) := by
  obtain ⟨s1, h1⟩ := Xoroshiro.seedIV_total iv
  obtain ⟨s2, h2⟩ := Xoroshiro.seedIV_total (le64 x)
  obtain ⟨o, g', h3⟩ := Xoroshiro.restore_total r g
  refine ⟨⟨s1, Methods.call_seedIV (h1 g), Methods.call_seedIV ?_⟩, ⟨s2, ?_, ?_⟩, ⟨.saved (bytesOf [g.s0, g.s1]) (w.reply (bytesOf [g.s0, g.s1])).1 (w.reply (bytesOf [g.s0, g.s1])).2, ?_, ?_⟩,
    ⟨.restored o.1 o.2, g', restore_call h3, restore_call ?_⟩⟩
  · show Rexoroshiro.seedIV iv _ = _
    rw [Rexoroshiro.seedIV, h1]; rfl
  · show (do let s ← g.seed x; return (Obs.unit, s)) = _
    rw [Xoroshiro.seed, h2]; rfl
  · show (do let s ← Rexoroshiro.seed x ⟨g⟩; return (Obs.unit, s)) = _
    rw [Rexoroshiro.seed, Xoroshiro.seed, h2]; rfl
  · exact savesAs_of _ _ _ (Xoroshiro.save_eq g) w
  · exact savesAs_of _ _ _ (Xoroshiro.save_eq g) w
  · show Rexoroshiro.restore r _ = _
    rw [Rexoroshiro.restore, h3]; rfl

example : Rexoroshiro.uint64 ⟨⟨0x0102030405060708#64, 0#64⟩⟩ =
    .ok (0x0807060504030201#64, ⟨Xoroshiro.step ⟨0x0102030405060708#64, 0#64⟩⟩) := by decide +kernel

/-! ### C43, C65 -/

/-- C43: one call. -/
theorem C43_one (g : Xoshiro) :
    (∃ x g', g.uint64 = .ok (x, g') ∧ g'.reverse = g) ∧ (∃ x, g.reverse.uint64 = .ok (x, g)) :=
  ⟨⟨_, _, rfl, Xoshiro.reverse_step g⟩, ⟨_, by rw [Xoshiro.uint64, Xoshiro.step_reverse]⟩⟩

/-- C43: `n` calls of `Reverse` undo `n` calls of `Uint64`, and conversely, from every state. -/
theorem C43_many (n : Nat) (g : Xoshiro) :
    Xoshiro.methods.api.after g (List.replicate n .uint64 ++ List.replicate n (.ext .reverse)) = .ok g ∧
    Xoshiro.methods.api.after g (List.replicate n (.ext .reverse) ++ List.replicate n .uint64) = .ok g := by
  have key : ∀ (a : Api Xoshiro Xoshiro.Ext) (p q : Op Xoshiro.Ext) (f h : Xoshiro → Xoshiro)
      (_ : ∀ s, ∃ o, a.call s p = .ok (o, f s)) (_ : ∀ s, ∃ o, a.call s q = .ok (o, h s)) (_ : ∀ s, h (f s) = s)
      (n : Nat) (s : Xoshiro), a.after s (List.replicate n p ++ List.replicate n q) = .ok s := by
    intro a p q f h hp hq hfh n
    have app : ∀ (l : List (Op Xoshiro.Ext)) (s s' t : Xoshiro), a.after s l = .ok s' →
        (∃ o, a.call s' q = .ok (o, t)) → a.after s (l ++ [q]) = .ok t := by
      intro l
      induction l with
      | nil =>
        rintro s s' t h1 ⟨o, h2⟩
        simp only [Api.after, Except.ok.injEq] at h1
        subst h1
        rw [List.nil_append, Api.after_ok [] h2]; rfl
      | cons c l ih =>
        intro s s' t h1 h2
        rw [List.cons_append]
        rw [Api.after] at h1 ⊢
        cases hc : a.call s c with
        | error e => rw [hc] at h1; contradiction
        | ok v => rw [hc] at h1; exact ih _ _ _ h1 h2
    induction n with
    | zero => intro s; rfl
    | succ n ih =>
      intro s
      obtain ⟨o, hpo⟩ := hp s
      rw [List.replicate_succ, List.cons_append, Api.after_ok _ hpo, List.replicate_succ' (n := n) (a := q),
        ← List.append_assoc]
      obtain ⟨o', hq'⟩ := hq (f s)
      exact app _ _ _ _ (ih (f s)) ⟨o', by rw [hq', hfh]⟩
  exact ⟨key _ _ _ Xoshiro.step Xoshiro.reverse (fun s => ⟨_, rfl⟩) (fun s => ⟨_, rfl⟩) Xoshiro.reverse_step n g,
    key _ _ _ Xoshiro.reverse Xoshiro.step (fun s => ⟨_, rfl⟩) (fun s => ⟨_, rfl⟩) Xoshiro.step_reverse n g⟩

example : Xoshiro.methods.api.after ⟨1, 2, 3, 4⟩ [.uint64, .uint64] ≠ .ok ⟨1, 2, 3, 4⟩ := by decide +kernel

/-- C65: every `Xoshiro` state is the result of one `Uint64` call on exactly one state. -/
theorem C65_Xoshiro (t : Xoshiro) :
    ∃ s, (∃ o, Xoshiro.methods.api.call s .uint64 = .ok (o, t)) ∧
      ∀ s', (∃ o, Xoshiro.methods.api.call s' .uint64 = .ok (o, t)) → s' = s := by
  refine ⟨t.reverse, ⟨.u64 t.reverse.out, ?_⟩, ?_⟩
  · show Except.ok (Obs.u64 t.reverse.out, t.reverse.step) = _
    rw [Xoshiro.step_reverse]
  · rintro s' ⟨o, h⟩
    have : Except.ok (Obs.u64 s'.out, s'.step) = (Except.ok (o, t) : Go _) := h
    simp only [Except.ok.injEq, Prod.mk.injEq] at this
    rw [← this.2, Xoshiro.reverse_step]

/-- C65: every `Xoroshiro` state is the result of one `Uint64` call on exactly one state. -/
theorem C65_Xoroshiro (t : Xoroshiro) :
    ∃ s, (∃ o, Xoroshiro.methods.api.call s .uint64 = .ok (o, t)) ∧
      ∀ s', (∃ o, Xoroshiro.methods.api.call s' .uint64 = .ok (o, t)) → s' = s := by
  refine ⟨t.unstep, ⟨.u64 t.unstep.out, ?_⟩, ?_⟩
  · show Except.ok (Obs.u64 t.unstep.out, t.unstep.step) = _
    rw [Xoroshiro.step_unstep]
  · rintro s' ⟨o, h⟩
    have : Except.ok (Obs.u64 s'.out, s'.step) = (Except.ok (o, t) : Go _) := h
    simp only [Except.ok.injEq, Prod.mk.injEq] at this
    rw [← this.2, Xoroshiro.unstep_step]

/-- C65: every `Rexoroshiro` state is the result of one `Uint64` call on exactly one state. -/
theorem C65_Rexoroshiro (t : Rexoroshiro) :
    ∃ s, (∃ o, Rexoroshiro.methods.api.call s .uint64 = .ok (o, t)) ∧
      ∀ s', (∃ o, Rexoroshiro.methods.api.call s' .uint64 = .ok (o, t)) → s' = s := by
  refine ⟨⟨t.xoro.unstep⟩, ⟨.u64 (reverseBytes64 t.xoro.unstep.out), ?_⟩, ?_⟩
  · show Except.ok (Obs.u64 (reverseBytes64 t.xoro.unstep.out), Rexoroshiro.mk t.xoro.unstep.step) = _
    rw [Xoroshiro.step_unstep]
  · rintro s' ⟨o, h⟩
    have : Except.ok (Obs.u64 (reverseBytes64 s'.xoro.out), Rexoroshiro.mk s'.xoro.step) = (Except.ok (o, t) : Go _) := h
    simp only [Except.ok.injEq, Prod.mk.injEq] at this
    rw [← this.2, Xoroshiro.unstep_step]

end Crazy
