/-
C04: Read fills the buffer with the output stream.
C05: block-aligned reads compose (except for Xoroshiro).
-/
import Verif.Proofs.Gens
import Mathlib.Logic.Function.Iterate
namespace Crazy

/-- `Read(p)` of state `s` returns `len(p), nil`, replaces all of `p` by the first `len(p)` little-endian bytes of
the next `words (len p)` outputs, and leaves the generator where drawing these outputs would leave it. -/
def ReadsStream {σ : Type} (uint64 : σ → Go (U64 × σ)) (read : List Byte → σ → Go (ReadRes × σ))
    (words : Nat → Nat) (s : σ) : Prop :=
  ∀ p : List Byte, ∃ ws s', draws uint64 (words p.length) s = .ok (ws, s') ∧ ws.length = words p.length ∧
    p.length ≤ 8 * ws.length ∧
    read p s = .ok (⟨(bytesOf ws).take p.length, p.length, none⟩, s')

theorem readsStream_of {σ : Type} {uint64 : σ → Go (U64 × σ)} {read : List Byte → σ → Go (ReadRes × σ)}
    (hread : ∀ p s, read p s = (do let (q, g) ← readGt uint64 p s; return (⟨q, p.length, none⟩, g)))
    (s : σ) (ht : ∀ n, ∃ ws s', draws uint64 n s = .ok (ws, s')) :
    ReadsStream uint64 read (fun n => max 1 ((n + 7) / 8)) s := by
  intro p
  obtain ⟨ws, s', h⟩ := ht (max 1 ((p.length + 7) / 8))
  have hl := draws_length h
  refine ⟨ws, s', h, hl, by omega, ?_⟩
  rw [hread, readGt_eq]
  show (do let (q, g) ← (do let (ws, s) ← draws uint64 (max 1 ((p.length + 7) / 8)) s; return ((bytesOf ws).take p.length, s)); return (ReadRes.mk q p.length none, g)) = _
  rw [h]; rfl

theorem C04_LFG (g : LFG) (h : Reachable LFG.methods.api LFG.new g) :
    ReadsStream LFG.uint64 LFG.read (fun n => max 1 ((n + 7) / 8)) g :=
  readsStream_of (fun _ _ => rfl) g fun n => ⟨_, _, LFG.draws_eq n g (LFG.safe.reachable LFG.inv_new h)⟩

theorem C04_MT64 (g : MT64) : ReadsStream MT64.uint64 MT64.read (fun n => max 1 ((n + 7) / 8)) g :=
  readsStream_of (fun _ _ => rfl) g fun n => ⟨_, _, MT64.draws_eq n g⟩

theorem C04_Rexoroshiro (g : Rexoroshiro) :
    ReadsStream Rexoroshiro.uint64 Rexoroshiro.read (fun n => max 1 ((n + 7) / 8)) g :=
  readsStream_of (fun _ _ => rfl) g fun n => by
    obtain ⟨ws, s', h, -⟩ := draws_total Rexoroshiro.uint64_total n g trivial
    exact ⟨ws, s', h⟩

theorem C04_Xoshiro (g : Xoshiro) : ReadsStream Xoshiro.uint64 Xoshiro.read (fun n => max 1 ((n + 7) / 8)) g :=
  readsStream_of (fun _ _ => rfl) g fun n => by
    obtain ⟨ws, s', h, -⟩ := draws_total Xoshiro.uint64_total n g trivial
    exact ⟨ws, s', h⟩

/-- `Xoroshiro.Read` uses `len/8 + 1` outputs: one more than needed when `len` is a multiple of eight. -/
theorem C04_Xoroshiro (g : Xoroshiro) : ReadsStream Xoroshiro.uint64 Xoroshiro.read (fun n => n / 8 + 1) g := by
  intro p
  obtain ⟨ws, s', h, -⟩ := draws_total Xoroshiro.uint64_total (p.length / 8 + 1) g trivial
  have hl := draws_length h
  refine ⟨ws, s', h, hl, by omega, ?_⟩
  rw [Xoroshiro.read, xoroReadBytes_eq, h]; rfl

/-- Non-vacuity of C04: a 12-byte read of a concrete generator. -/
example : (Xoshiro.read (zeros 12) ⟨1, 2, 3, 4⟩).map (·.1) =
    .ok ⟨[0x00#8, 0x2d, 0, 0, 0, 0, 0, 0, 0, 0, 0, 0], 12, none⟩ := by rfl

/-! ### C05 -/

/-- Reading `p` and then `q` gives the same bytes and final state as reading both at once. -/
def ReadsCompose {σ : Type} (read : List Byte → σ → Go (ReadRes × σ)) (s : σ) (p q : List Byte) : Prop :=
  ∃ rp rq s1 s2, read p s = .ok (rp, s1) ∧ read q s1 = .ok (rq, s2) ∧
    read (p ++ q) s = .ok (⟨rp.buf ++ rq.buf, (p ++ q).length, none⟩, s2)

theorem readsCompose_of {σ : Type} {uint64 : σ → Go (U64 × σ)} {read : List Byte → σ → Go (ReadRes × σ)}
    {I : σ → Prop} (hread : ∀ p s, read p s = (do let (q, g) ← readGt uint64 p s; return (⟨q, p.length, none⟩, g)))
    (ht : ∀ s, I s → ∃ x s', uint64 s = .ok (x, s') ∧ I s') (s : σ) (hs : I s) (p q : List Byte)
    (k : Nat) (hk : 0 < k) (hp : p.length = 8 * k) (hq : 0 < q.length) : ReadsCompose read s p q := by
  obtain ⟨w1, s1, h1, i1⟩ := draws_total ht (wordsGt p.length) s hs
  obtain ⟨w2, s2, h2, -⟩ := draws_total ht (wordsGt q.length) s1 i1
  have e : wordsGt (p ++ q).length = wordsGt p.length + wordsGt q.length := by
    rw [List.length_append]; simp only [wordsGt]; omega
  have l1 := draws_length h1
  have e1 : wordsGt p.length = k := by simp only [wordsGt]; omega
  refine ⟨⟨(bytesOf w1).take p.length, p.length, none⟩, ⟨(bytesOf w2).take q.length, q.length, none⟩, s1, s2, ?_, ?_, ?_⟩
  · rw [hread, readGt_eq, h1]; rfl
  · rw [hread, readGt_eq, h2]; rfl
  · rw [hread, readGt_eq, e, draws_add, h1]
    show (do let (q', g) ← (do let (ws, s) ← (do let (ys, s) ← draws uint64 (wordsGt q.length) s1; return (w1 ++ ys, s)); return ((bytesOf ws).take (p ++ q).length, s)); return (ReadRes.mk q' (p ++ q).length none, g)) = _
    rw [h2]
    refine congrArg (fun b => Except.ok (ReadRes.mk b (p ++ q).length none, s2)) ?_
    have lb : (bytesOf w1).length = p.length := by rw [bytesOf_length, l1]; omega
    rw [bytesOf_append, List.length_append, ← lb, List.take_length_add_append, List.take_length]

theorem C05_LFG (g : LFG) (h : Reachable LFG.methods.api LFG.new g) (p q : List Byte) (k : Nat) (hk : 0 < k)
    (hp : p.length = 8 * k) (hq : 0 < q.length) : ReadsCompose LFG.read g p q :=
  readsCompose_of (fun _ _ => rfl) LFG.uint64_total g (LFG.safe.reachable LFG.inv_new h) p q k hk hp hq

theorem C05_MT64 (g : MT64) (p q : List Byte) (k : Nat) (hk : 0 < k)
    (hp : p.length = 8 * k) (hq : 0 < q.length) : ReadsCompose MT64.read g p q :=
  readsCompose_of (fun _ _ => rfl) (I := fun _ => True)
    (fun s _ => ⟨_, _, MT64.uint64_eq s, trivial⟩) g trivial p q k hk hp hq

theorem C05_Rexoroshiro (g : Rexoroshiro) (p q : List Byte) (k : Nat) (hk : 0 < k)
    (hp : p.length = 8 * k) (hq : 0 < q.length) : ReadsCompose Rexoroshiro.read g p q :=
  readsCompose_of (fun _ _ => rfl) Rexoroshiro.uint64_total g trivial p q k hk hp hq

theorem C05_Xoshiro (g : Xoshiro) (p q : List Byte) (k : Nat) (hk : 0 < k)
    (hp : p.length = 8 * k) (hq : 0 < q.length) : ReadsCompose Xoshiro.read g p q :=
  readsCompose_of (fun _ _ => rfl) Xoshiro.uint64_total g trivial p q k hk hp hq

/-- Where `Xoroshiro` stands after `n` outputs. -/
theorem xoro_draws (n : Nat) (g : Xoroshiro) :
    draws Xoroshiro.uint64 n g = .ok ((List.range n).map fun k => (Xoroshiro.step^[k] g).out, Xoroshiro.step^[n] g) := by
  induction n generalizing g with
  | zero => rfl
  | succ n ih =>
    simp only [draws, Xoroshiro.uint64, bind, Except.bind, pure, Except.pure]
    rw [ih]
    simp only [List.range_succ_eq_map, List.map_cons, List.map_map]
    rfl

/-- C05 for `Xoroshiro`, in place of composition: an aligned read of `k` words delivers the next `k` outputs but leaves the generator where
`k + 1` calls of `Uint64` would: the last of these outputs is lost, for every state and every `k`. -/
theorem C05_Xoroshiro_skips (g : Xoroshiro) (p : List Byte) (k : Nat) (hp : p.length = 8 * k) :
    ∃ rp g' ws lost, g.read p = .ok (rp, g') ∧ draws Xoroshiro.uint64 (k + 1) g = .ok (ws ++ [lost], g') ∧
      ws.length = k ∧ rp.buf = bytesOf ws := by
  have e : p.length / 8 + 1 = k + 1 := by omega
  refine ⟨⟨bytesOf ((List.range k).map fun i => (Xoroshiro.step^[i] g).out), p.length, none⟩, Xoroshiro.step^[k + 1] g, _,
    (Xoroshiro.step^[k] g).out, ?_, ?_, ?_, rfl⟩
  · rw [Xoroshiro.read, xoroReadBytes_eq, e, xoro_draws]
    refine congrArg (fun b => Except.ok (ReadRes.mk b p.length none, Xoroshiro.step^[k + 1] g)) ?_
    have lb : (bytesOf ((List.range k).map fun i => (Xoroshiro.step^[i] g).out)).length = p.length := by
      rw [bytesOf_length, List.length_map, List.length_range, hp]
    rw [List.range_succ, List.map_append, bytesOf_append, ← lb, List.take_left]
  · rw [xoro_draws, List.range_succ, List.map_append]
    rfl
  · rw [List.length_map, List.length_range]

/-- C05 is false for `Xoroshiro`: reading 8 bytes twice is not reading 16 bytes, on the generator seeded with
an empty iv. -/
theorem C05_Xoroshiro_false : ∃ g : Xoroshiro, Reachable Xoroshiro.methods.api Xoroshiro.new g ∧
    ¬ ReadsCompose Xoroshiro.read g (zeros 8) (zeros 8) := by
  refine ⟨⟨smMix (0#64 + smGamma), smMix (0#64 + smGamma + smGamma)⟩, ⟨[.seedIV []], rfl⟩, ?_⟩
  rintro ⟨rp, rq, s1, s2, h1, h2, h3⟩
  have h1' := h1.symm
  have e1 : Except.ok (rp, s1) = Xoroshiro.read (zeros 8) ⟨smMix (0#64 + smGamma), smMix (0#64 + smGamma + smGamma)⟩ := h1'
  have : s1 = (⟨smMix (0#64 + smGamma), smMix (0#64 + smGamma + smGamma)⟩ : Xoroshiro).step.step := by
    have := Except.ok.inj e1
    exact congrArg Prod.snd this
  subst this
  have e2 : s2 = (⟨smMix (0#64 + smGamma), smMix (0#64 + smGamma + smGamma)⟩ : Xoroshiro).step.step.step.step :=
    (congrArg Prod.snd (Except.ok.inj h2)).symm
  have e3 : s2 = (⟨smMix (0#64 + smGamma), smMix (0#64 + smGamma + smGamma)⟩ : Xoroshiro).step.step.step :=
    (congrArg Prod.snd (Except.ok.inj h3)).symm
  rw [e2] at e3
  revert e3
  decide +kernel

/-- Non-vacuity of C05: the hypotheses on the buffers. -/
example : (zeros 16).length = 8 * 2 ∧ 0 < (zeros 5).length := by simp

end Crazy
