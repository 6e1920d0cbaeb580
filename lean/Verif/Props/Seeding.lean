/-
C01: seeding is deterministic and forgets the past.
C02: Save then Restore reproduces the generator.
C57: generators never panic.
-/
import Verif.Proofs.Gens
namespace Crazy

/-- C01 for all types whose `SeedIV` and `Seed` results do not depend on the old state. -/
theorem seedingForgets_of_const {σ ε : Type} (m : Methods σ ε)
    (h1 : ∀ iv, ∃ s', ∀ s, m.seedIV iv s = .ok s') (h2 : ∀ x, ∃ s', ∀ s, m.seed x s = .ok s') :
    SeedingForgets m.api := by
  rintro op (⟨iv, rfl⟩ | ⟨x, rfl⟩) s t
  · obtain ⟨s', h⟩ := h1 iv
    exact ⟨s', s', by simp [Methods.api, h, bind, Except.bind, pure, Except.pure],
      by simp [Methods.api, h, bind, Except.bind, pure, Except.pure], Indist.refl _ _⟩
  · obtain ⟨s', h⟩ := h2 x
    exact ⟨s', s', by simp [Methods.api, h, bind, Except.bind, pure, Except.pure],
      by simp [Methods.api, h, bind, Except.bind, pure, Except.pure], Indist.refl _ _⟩

theorem C01_Xoroshiro : SeedingForgets Xoroshiro.methods.api :=
  seedingForgets_of_const _ Xoroshiro.seedIV_total (fun x => Xoroshiro.seedIV_total (le64 x))

theorem C01_Rexoroshiro : SeedingForgets Rexoroshiro.methods.api := by
  refine seedingForgets_of_const _ (fun iv => ?_) (fun x => ?_)
  · obtain ⟨s, h⟩ := Xoroshiro.seedIV_total iv
    exact ⟨⟨s⟩, fun g => by show Rexoroshiro.seedIV iv g = _; rw [Rexoroshiro.seedIV, h]; rfl⟩
  · obtain ⟨s, h⟩ := Xoroshiro.seedIV_total (le64 x)
    exact ⟨⟨s⟩, fun g => by
      show Rexoroshiro.seed x g = _; rw [Rexoroshiro.seed, Xoroshiro.seed, h]; rfl⟩

theorem C01_Xoshiro : SeedingForgets Xoshiro.methods.api :=
  seedingForgets_of_const _ Xoshiro.seedIV_total (fun x => Xoshiro.seedIV_total (le64 x))

theorem C01_LFG : SeedingForgets LFG.methods.api :=
  seedingForgets_of_const _ (fun iv => ⟨_, LFG.seedIV_eq iv⟩) (fun x => ⟨_, LFG.seedIV_eq (le64 x)⟩)

theorem C01_MT64 : SeedingForgets MT64.methods.api :=
  seedingForgets_of_const _ (fun iv => by
    obtain ⟨s, h⟩ := MT64.seedIV_total iv
    exact ⟨_, h⟩) (fun x => ⟨_, MT64.seed_eq x⟩)

/-- Non-vacuity of C01: the states before seeding may differ. -/
example : ∃ s t : Xoroshiro, s ≠ t ∧ (Op.seedIV [1#8, 2#8] : Op ExtInt63).IsSeeding :=
  ⟨⟨1, 2⟩, ⟨3, 4⟩, by decide, .inl ⟨_, rfl⟩⟩

/-! ### C02 -/

theorem C02_Xoroshiro (s : Xoroshiro) : SaveRestores Xoroshiro.methods.api s := by
  refine ⟨bytesOf [s.s0, s.s1], fun w => ?_, fun t r hr => ⟨s, ?_, Indist.refl _ _⟩⟩
  · show (do let b ← s.save; return (Obs.saved b (w.reply b).1 (w.reply b).2, s)) = _
    rw [Xoroshiro.save_eq]; rfl
  · have hr' : r.reply 16 = ⟨bytesOf [s.s0, s.s1], 16, none⟩ := by
      have := bytesOf_length [s.s0, s.s1]
      simp only [List.length_cons, List.length_nil, Nat.reduceAdd, Nat.reduceMul] at this
      rw [Reader.Delivers, this] at hr; exact hr
    show (do let (x, g) ← t.restore r; return (Obs.restored x.1 x.2, g)) = _
    rw [Xoroshiro.restore_ok r t (by rw [hr']; exact Int.lt_irrefl _) s.s0 s.s1 (by rw [hr'])]
    rw [hr', bytesOf_length]
    rfl

theorem C02_Rexoroshiro (s : Rexoroshiro) : SaveRestores Rexoroshiro.methods.api s := by
  refine ⟨bytesOf [s.xoro.s0, s.xoro.s1], fun w => ?_, fun t r hr => ⟨s, ?_, Indist.refl _ _⟩⟩
  · show (do let b ← s.save; return (Obs.saved b (w.reply b).1 (w.reply b).2, s)) = _
    rw [Rexoroshiro.save, Xoroshiro.save_eq]; rfl
  · have hr' : r.reply 16 = ⟨bytesOf [s.xoro.s0, s.xoro.s1], 16, none⟩ := by
      have := bytesOf_length [s.xoro.s0, s.xoro.s1]
      simp only [List.length_cons, List.length_nil, Nat.reduceAdd, Nat.reduceMul] at this
      rw [Reader.Delivers, this] at hr; exact hr
    show (do let (x, g) ← t.restore r; return (Obs.restored x.1 x.2, g)) = _
    rw [Rexoroshiro.restore, Xoroshiro.restore_ok r t.xoro (by rw [hr']; exact Int.lt_irrefl _) s.xoro.s0 s.xoro.s1 (by rw [hr'])]
    rw [hr', bytesOf_length]
    rfl

theorem C02_Xoshiro (s : Xoshiro) : SaveRestores Xoshiro.methods.api s := by
  refine ⟨bytesOf [s.w, s.x, s.y, s.z], fun w => ?_, fun t r hr => ⟨s, ?_, Indist.refl _ _⟩⟩
  · show (do let b ← s.save; return (Obs.saved b (w.reply b).1 (w.reply b).2, s)) = _
    rw [Xoshiro.save_eq]; rfl
  · have hr' : r.reply 32 = ⟨bytesOf [s.w, s.x, s.y, s.z], 32, none⟩ := by
      have := bytesOf_length [s.w, s.x, s.y, s.z]
      simp only [List.length_cons, List.length_nil, Nat.reduceAdd, Nat.reduceMul] at this
      rw [Reader.Delivers, this] at hr; exact hr
    show (do let (x, g) ← t.restore r; return (Obs.restored x.1 x.2, g)) = _
    rw [Xoshiro.restore_ok r t (by rw [hr']; exact Int.lt_irrefl _) s.w s.x s.y s.z (by rw [hr'])]
    rw [hr', bytesOf_length]
    rfl

theorem C02_LFG (s : LFG) (hs : Reachable LFG.methods.api LFG.new s) : SaveRestores LFG.methods.api s := by
  have hi : s.Inv := LFG.safe.reachable LFG.inv_new hs
  have hlen : ((List.range 607).map fun i => s.hist (272 + i)).length = 607 := by
    rw [List.length_map, List.length_range]
  have hbl : (bytesOf ((List.range 607).map fun i => s.hist (272 + i))).length = lfgK * 8 := by
    rw [bytesOf_length, hlen]; rfl
  refine ⟨bytesOf ((List.range 607).map fun i => s.hist (272 + i)), fun w => ?_, fun t r hr => ?_⟩
  · show (do let b ← s.save; return (Obs.saved b (w.reply b).1 (w.reply b).2, s)) = _
    rw [LFG.save_eq s hi]; rfl
  · have hr' := hr
    rw [Reader.Delivers, hbl] at hr'
    have e := LFG.restore_ok r t (by rw [hr']; exact Int.lt_irrefl _) _ hlen (by rw [hr'])
    refine ⟨_, ?_, LFG.Twin.indist (g := { f := 334, t := 0, s := ⟨((List.range 607).map fun i =>
      s.hist (272 + i)).toArray, by rw [List.size_toArray, hlen]⟩ }) ⟨⟨by show 0 < 607; decide,
          by show 334 = (0 + 334) % 607; decide⟩, hi, fun i hi => ?_⟩⟩
    · show (do let (x, g) ← t.restore r; return (Obs.restored x.1 x.2, g)) = _
      rw [e, hbl, hr']; rfl
    · show (Vector.mk ((List.range 607).map fun i => s.hist (272 + i)).toArray _)[(0 + 335 + i) % 607]'(_) = _
      simp only [Vector.getElem_mk, List.getElem_toArray, List.getElem_map, List.getElem_range]
      by_cases h : i < 272
      · rw [show 272 + (0 + 335 + i) % 607 = i + 607 by omega, LFG.hist_mod]
      · rw [show 272 + (0 + 335 + i) % 607 = i by omega]

theorem C02_MT64 (s : MT64) (hs : Reachable MT64.methods.api MT64.new s) : SaveRestores MT64.methods.api s := by
  have hi : s.Inv := MT64.safe.reachable MT64.inv_new hs
  have hbl : (bytesOf s.s.toList ++ [BitVec.ofNat 8 (s.i >>> 8), BitVec.ofNat 8 s.i]).length = 2 + mt64N * 8 := by
    rw [List.length_append, bytesOf_length, Vector.length_toList]; rfl
  refine ⟨bytesOf s.s.toList ++ [BitVec.ofNat 8 (s.i >>> 8), BitVec.ofNat 8 s.i], fun w => ?_,
    fun t r hr => ⟨s, ?_, Indist.refl _ _⟩⟩
  · show (do let b ← s.save; return (Obs.saved b (w.reply b).1 (w.reply b).2, s)) = _
    rw [MT64.save_eq s]; rfl
  · have hr' := hr
    rw [Reader.Delivers, hbl] at hr'
    show (do let (x, g) ← t.restore r; return (Obs.restored x.1 x.2, g)) = _
    rw [MT64.restore_ok r t (by rw [hr']) s.s.toList (Vector.length_toList) _ _ (by rw [hr']),
      MT64.index_bytes s.i hi, hbl, hr']
    rfl

/-- Non-vacuity of C02: a reachable state that is not the initial one, and a reader that delivers. -/
example : Reachable LFG.methods.api LFG.new (LFG.nexts 4856 (LFG.seedStart [5#8])) :=
  ⟨[.seedIV [5#8]], Api.after_ok [] (Methods.call_seedIV (m := LFG.methods) (LFG.seedIV_eq [5#8] LFG.new))⟩
example (b : List Byte) : ∃ r : Reader, r.Delivers b := ⟨_, Reader.of_delivers b⟩

/-! ### C57 -/

theorem C57_Xoroshiro (s : Xoroshiro) : NeverPanics Xoroshiro.methods.api s :=
  Xoroshiro.safe.neverPanics trivial

theorem C57_Rexoroshiro (s : Rexoroshiro) : NeverPanics Rexoroshiro.methods.api s :=
  Rexoroshiro.safe.neverPanics trivial

theorem C57_Xoshiro (s : Xoshiro) : NeverPanics Xoshiro.methods.api s := Xoshiro.safe.neverPanics trivial

theorem C57_LFG : NeverPanics LFG.methods.api LFG.new := LFG.safe.neverPanics LFG.inv_new

theorem C57_MT64 : NeverPanics MT64.methods.api MT64.new := MT64.safe.neverPanics MT64.inv_new

/-- The zero value `LFG{}` steps `f` and `t` together until the ring is exhausted. -/
theorem zeroValue_step (k : Nat) (h : k < 606) :
    (LFG.mk k k (Vector.replicate 607 0#64)).uint64
      = .ok (0#64, LFG.mk (k + 1) (k + 1) (Vector.replicate 607 0#64)) := by
  have hK : lfgK = 607 := rfl
  unfold LFG.uint64
  simp only []
  rw [aget_lt _ (show k < 607 by omega)]
  simp only [bind, Except.bind, pure, Except.pure]
  rw [if_neg (by omega), if_neg (by omega)]
  simp only []
  rw [aset_lt _ _ (show k + 1 < 607 by omega)]
  simp only [Vector.getElem_replicate]
  refine congrArg (fun v => Except.ok (0#64, LFG.mk (k + 1) (k + 1) v)) ?_
  apply Vector.ext; intro i hi
  rw [Vector.getElem_set]
  simp only [Vector.getElem_replicate]
  split <;> rfl

/-- C57, the exception: a zero-value `LFG` (one not made by `NewLFG`) returns 607 zeros and then panics with
an index error. -/
theorem C57_LFG_zeroValue :
    LFG.methods.api.run LFG.zeroValue (List.replicate 608 .uint64)
      = List.replicate 607 (.u64 0#64) ++ [.panic .index] := by
  have step : ∀ (s s' : LFG) (x : U64) (ops : List (Op ExtInt63)), s.uint64 = .ok (x, s') →
      LFG.methods.api.run s (.uint64 :: ops) = .u64 x :: LFG.methods.api.run s' ops := by
    intro s s' x ops h
    exact Api.run_ok ops (Methods.call_uint64 (m := LFG.methods) h)
  have many : ∀ n k, k + n ≤ 606 → ∀ ops : List (Op ExtInt63),
      LFG.methods.api.run (LFG.mk k k (Vector.replicate 607 0#64)) (List.replicate n .uint64 ++ ops)
        = List.replicate n (.u64 0#64) ++
          LFG.methods.api.run (LFG.mk (k + n) (k + n) (Vector.replicate 607 0#64)) ops := by
    intro n
    induction n with
    | zero => intro k _ ops; rfl
    | succ n ih =>
      intro k hk ops
      rw [List.replicate_succ, List.cons_append, step _ _ _ _ (zeroValue_step k (by omega)),
        ih (k + 1) (by omega), List.replicate_succ, List.cons_append, Nat.add_right_comm k 1 n]
      rfl
  have h606 := many 606 0 (by omega) [.uint64, .uint64]
  have h607 : (LFG.mk (0 + 606) (0 + 606) (Vector.replicate 607 0#64)).uint64
      = .ok (0#64, LFG.mk 0 607 ((Vector.replicate 607 0#64).set 0 0#64)) := by
    unfold LFG.uint64
    simp only []
    rw [aget_lt _ (show 0 + 606 < 607 by omega)]
    simp only [bind, Except.bind, pure, Except.pure]
    rw [if_pos (by decide)]
    simp only []
    rw [aset_lt _ _ (show 0 < 607 by omega)]
    simp only [Vector.getElem_replicate]
    rfl
  have h608 : (LFG.mk 0 607 ((Vector.replicate 607 0#64).set 0 0#64)).uint64 = .error .index := by
    unfold LFG.uint64
    simp only []
    rw [aget_lt _ (show 0 < 607 by omega)]
    simp only [bind, Except.bind]
    rw [aget, dif_neg (by omega)]
  have hrep : List.replicate 608 (Op.uint64 : Op ExtInt63) = List.replicate 606 .uint64 ++ [.uint64, .uint64] := by
    rw [show (608 : Nat) = 606 + 2 from rfl, ← List.replicate_append_replicate]; rfl
  have hrep' : List.replicate 607 (Obs.u64 0#64) = List.replicate 606 (.u64 0#64) ++ [.u64 0#64] := by
    rw [show (607 : Nat) = 606 + 1 from rfl, ← List.replicate_append_replicate]; rfl
  rw [hrep, hrep']
  refine h606.trans ?_
  rw [step _ _ _ _ h607]
  have : LFG.methods.api.run (LFG.mk 0 607 ((Vector.replicate 607 0#64).set 0 0#64)) [.uint64]
      = [.panic .index] := by
    refine Api.run_err [] ?_
    show (do let (x, s) ← LFG.uint64 _; return (Obs.u64 x, s)) = _
    rw [h608]; rfl
  rw [this, List.append_assoc]
  rfl

end Crazy
