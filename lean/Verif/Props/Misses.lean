/-
C107: the generators cannot shuffle a longer slice into every order, nor draw every text.
-/
import Verif.Spec.Misses
import Verif.Proofs.Fuel
import Verif.Props.RandString
import Verif.Props.LfgSeed
import Verif.Props.Seeding
import Verif.Props.Period
import Verif.Props.Period2
import Verif.Props.State
import Mathlib.Data.List.Permutation
import Mathlib.SetTheory.Cardinal.NatCard
set_option exponentiation.threshold 40000
namespace Crazy

section
variable {σ : Type}

/-- A call on one of `K` states misses some of more than `K` results. -/
theorem missed {α ι τ : Type} [Finite ι] (Ok : σ → Prop) (f : ι → σ) (cover : ∀ s, Ok s → ∃ i, f i = s) (call : Nat → σ → Go (α × σ))
    (grow : ∀ s, Grows (fun n => call n s)) (val : τ → α) (inj : Function.Injective val) (h : Nat.card ι < Nat.card τ) :
    ∃ t, ∀ s, Ok s → ∀ fuel s', call fuel s ≠ .ok (val t, s') := by
  by_contra hc
  push Not at hc
  choose s hs fuel s' hr using hc
  choose i hi using fun t => cover (s t) (hs t)
  have inj' : Function.Injective i := fun t u e => inj (by
    have e1 : s t = s u := by rw [← hi t, ← hi u, e]
    have h1 := hr t
    rw [e1] at h1
    exact (Prod.mk.inj ((grow (s u)).unique h1 (hr u))).1)
  have := Nat.card_le_card_of_injective i inj'
  omega

theorem shuffleMisses_of {ι : Type} [Finite ι] (src : Source σ) (Ok : σ → Prop) (f : ι → σ) (cover : ∀ s, Ok s → ∃ i, f i = s)
    (n : Nat) (hn : n < 2 ^ 63) (h : Nat.card ι < n.factorial) : ShuffleMisses src Ok n := by
  classical
  intro α data hl hd
  have hc : Nat.card {p : List α // p ∈ data.permutations.toFinset} = n.factorial := by
    rw [Nat.card_eq_fintype_card, Fintype.card_coe, List.toFinset_card_of_nodup (List.nodup_permutations _ hd), List.length_permutations, hl]
  obtain ⟨t, ht⟩ := missed Ok f cover (fun fuel s => shuffleSlice src fuel data s) (grows_shuffleSlice src data)
    (fun t : {p : List α // p ∈ data.permutations.toFinset} => t.1) Subtype.val_injective (by rw [hc]; exact h)
  have hp := t.2
  rw [List.mem_toFinset, List.mem_permutations] at hp
  refine ⟨t.1, hp, fun s hs fuel s' => ⟨ht s hs fuel s', ?_⟩⟩
  rw [C29_swapper_slice src fuel data (by omega)]
  exact ht s hs fuel s'

theorem stringMisses_of {ι : Type} [Finite ι] (src : Source σ) (Ok : σ → Prop) (f : ι → σ) (cover : ∀ s, Ok s → ∃ i, f i = s)
    (a n : Nat) (h : Nat.card ι < a ^ n) : StringMisses src Ok a n := by
  intro alphabet ha hd
  let text : (Fin n → Fin a) → List Nat := fun w => List.ofFn fun i => (runes alphabet)[(w i).val]'(by rw [ha]; exact (w i).isLt)
  have mem : ∀ w, ∀ r ∈ text w, r ∈ runes alphabet := fun w r hr => by
    obtain ⟨i, rfl⟩ := (List.mem_ofFn' _ _).1 hr
    exact List.getElem_mem _
  have inj : Function.Injective fun w => stringOf (text w) := fun w w' e => by
    have e1 := congrArg runes e
    beta_reduce at e1
    rw [runes_stringOf _ (fun r hr => runesAux_valid _ _ r (mem w r hr)), runes_stringOf _ (fun r hr => runesAux_valid _ _ r (mem w' r hr))] at e1
    funext i
    have e2 := congrFun (List.ofFn_injective e1) i
    exact Fin.ext ((List.Nodup.getElem_inj_iff hd).1 e2)
  obtain ⟨w, hw⟩ := missed Ok f cover (fun fuel s => randString src fuel alphabet n s) (grows_randString src alphabet n)
    (fun w => stringOf (text w)) inj (by rw [Nat.card_fun, Nat.card_fin, Nat.card_fin]; exact h)
  exact ⟨text w, List.length_ofFn, mem w, hw⟩

theorem misses_of {ι : Type} [Finite ι] (src : Source σ) (Ok : σ → Prop) (f : ι → σ) (cover : ∀ s, Ok s → ∃ i, f i = s) (K : Nat)
    (hK : Nat.card ι ≤ K) : Misses src Ok K :=
  ⟨fun n hn h => shuffleMisses_of src Ok f cover n hn (by omega), fun a n h => stringMisses_of src Ok f cover a n (by omega)⟩

end

/-! ### All states -/

theorem C107_Xoroshiro : Misses Xoroshiro.source (fun _ => True) (2 ^ 128) :=
  misses_of (ι := U64 × U64) _ _ (fun p => ⟨p.1, p.2⟩) (fun s _ => ⟨(s.s0, s.s1), rfl⟩) _
    (by rw [Nat.card_prod, card_U64, ← Nat.pow_add])

theorem C107_Rexoroshiro : Misses Rexoroshiro.source (fun _ => True) (2 ^ 128) :=
  misses_of (ι := U64 × U64) _ _ (fun p => ⟨⟨p.1, p.2⟩⟩) (fun s _ => ⟨(s.xoro.s0, s.xoro.s1), rfl⟩) _
    (by rw [Nat.card_prod, card_U64, ← Nat.pow_add])

theorem C107_Xoshiro : Misses Xoshiro.source (fun _ => True) (2 ^ 256) :=
  misses_of (ι := U64 × U64 × U64 × U64) _ _ (fun p => ⟨p.1, p.2.1, p.2.2.1, p.2.2.2⟩) (fun s _ => ⟨(s.w, s.x, s.y, s.z), rfl⟩) _
    (by rw [Nat.card_prod, Nat.card_prod, Nat.card_prod, card_U64, ← Nat.pow_add, ← Nat.pow_add, ← Nat.pow_add])

theorem card_words (k : Nat) : Nat.card (Fin k → U64) = 2 ^ (64 * k) := by
  rw [Nat.card_fun, card_U64, Nat.card_fin, ← Nat.pow_mul]

/-- MT64: every state that any sequence of calls can lead to. -/
theorem C107_MT64 : Misses MT64.source (Reachable MT64.methods.api MT64.new) (2 ^ 19984) :=
  misses_of (ι := Fin 65536 × (Fin 312 → U64)) _ _ (fun p => ⟨p.1.val, Vector.ofFn p.2⟩) (fun s hs =>
    have hi := MT64.safe.reachable MT64.inv_new hs
    ⟨(⟨s.i, hi⟩, fun i => s.s[i]), by
      cases s
      refine congrArg (MT64.mk _) ?_
      ext i h
      simp⟩) _ (by
    rw [Nat.card_prod, card_words, Nat.card_fin, show 65536 = 2 ^ 16 by decide, ← Nat.pow_add])

/-- LFG likewise. -/
theorem C107_LFG : Misses LFG.source (Reachable LFG.methods.api LFG.new) (2 ^ 38858) :=
  misses_of (ι := Fin 607 × (Fin 607 → U64)) _ _ (fun p => ⟨(p.1.val + 334) % 607, p.1.val, Vector.ofFn p.2⟩) (fun s hs =>
    have hi := LFG.safe.reachable LFG.inv_new hs
    ⟨(⟨s.t, hi.1⟩, fun i => s.s[i]), by
      cases s
      refine congr (congrArg₂ LFG.mk hi.2.symm rfl) ?_
      ext i h
      simp⟩) _ (by
    rw [Nat.card_prod, card_words, Nat.card_fin, show 38858 = 10 + 64 * 607 by decide, Nat.pow_add 2 10]
    exact Nat.mul_le_mul_right _ (by decide))

/-! ### After `Seed` -/

/-- The states after `Seed`. -/
def Seeded {σ : Type} (seed : U64 → σ → Go σ) (s : σ) : Prop := ∃ x g, seed x g = .ok s

theorem misses_seeded {σ : Type} (src : Source σ) (seed : U64 → σ → Go σ) (h : ∀ x, ∃ s, ∀ g, seed x g = .ok s) :
    Misses src (Seeded seed) (2 ^ 64) := by
  choose f hf using h
  refine misses_of (ι := U64) src _ f ?_ _ (by rw [card_U64])
  rintro s ⟨x, g, hs⟩
  exact ⟨x, Except.ok.inj ((hf x g).symm.trans hs)⟩

theorem C107_Xoroshiro_seeded : Misses Xoroshiro.source (Seeded Xoroshiro.seed) (2 ^ 64) :=
  misses_seeded _ _ fun x => Xoroshiro.seedIV_total (le64 x)

theorem C107_Rexoroshiro_seeded : Misses Rexoroshiro.source (Seeded Rexoroshiro.seed) (2 ^ 64) :=
  misses_seeded _ _ fun x => by
    obtain ⟨s, h⟩ := Xoroshiro.seedIV_total (le64 x)
    exact ⟨⟨s⟩, fun g => by rw [Rexoroshiro.seed, Xoroshiro.seed, h]; rfl⟩

theorem C107_Xoshiro_seeded : Misses Xoshiro.source (Seeded Xoshiro.seed) (2 ^ 64) :=
  misses_seeded _ _ fun x => Xoshiro.seedIV_total (le64 x)

theorem C107_MT64_seeded : Misses MT64.source (Seeded MT64.seed) (2 ^ 64) := misses_seeded _ _ fun x => ⟨_, MT64.seed_eq x⟩

/-- `LFG.Seed` leads to 256 states only. -/
theorem C107_LFG_seeded : Misses LFG.source (Seeded LFG.seed) 256 := by
  have h : ∀ x, ∃ s, ∀ g, LFG.seed x g = .ok s := fun x => ⟨_, LFG.seedIV_eq (le64 x)⟩
  choose f hf using h
  refine misses_of (ι := Fin 256) _ _ (fun b => f (BitVec.ofNat 64 b.val)) ?_ _ (by rw [Nat.card_fin])
  rintro s ⟨x, g, hs⟩
  refine ⟨⟨x.toNat % 256, Nat.mod_lt _ (by decide)⟩, Except.ok.inj (ε := Panic) ?_⟩
  rw [← hf _ g, ← hs]
  refine C53_LFG_Seed _ _ ?_ g g
  rw [BitVec.toNat_ofNat]
  dsimp only
  omega

/-- C107: whatever a program does with an LFG it has seeded by `Seed`, there are at most 256 different outcomes. -/
theorem C107_LFG_256 {β : Type} (f : LFG → β) : {b | ∃ s, Seeded LFG.seed s ∧ f s = b}.Finite ∧ {b | ∃ s, Seeded LFG.seed s ∧ f s = b}.ncard ≤ 256 := by
  have h : ∀ x, ∃ s, ∀ g, LFG.seed x g = .ok s := fun x => ⟨_, LFG.seedIV_eq (le64 x)⟩
  choose F hF using h
  have sub : {b | ∃ s, Seeded LFG.seed s ∧ f s = b} ⊆ Set.range fun b : Fin 256 => f (F (BitVec.ofNat 64 b.val)) := by
    rintro b ⟨s, ⟨x, g, hs⟩, rfl⟩
    refine ⟨⟨x.toNat % 256, Nat.mod_lt _ (by decide)⟩, congrArg f (Except.ok.inj (ε := Panic) ?_)⟩
    rw [← hF _ g, ← hs]
    refine C53_LFG_Seed _ _ ?_ g g
    rw [BitVec.toNat_ofNat]
    dsimp only
    omega
  refine ⟨(Set.finite_range _).subset sub, (Set.ncard_le_ncard sub (Set.finite_range _)).trans ?_⟩
  rw [← Set.image_univ]
  exact (Set.ncard_image_le Set.finite_univ).trans (by rw [Set.ncard_univ, Nat.card_fin])

/-! ### The numbers -/

theorem lt_factorial {K n0 n : Nat} (h : K < n0.factorial) (hn : n0 ≤ n) : K < n.factorial := lt_of_lt_of_le h (Nat.factorial_le hn)

/-- C107: the lengths from which on some order never comes. -/
theorem C107_lengths :
    (∀ n, 35 ≤ n → n < 2 ^ 63 → ShuffleMisses Xoroshiro.source (fun _ => True) n ∧ ShuffleMisses Rexoroshiro.source (fun _ => True) n) ∧
    (∀ n, 58 ≤ n → n < 2 ^ 63 → ShuffleMisses Xoshiro.source (fun _ => True) n) ∧
    (∀ n, 2086 ≤ n → n < 2 ^ 63 → ShuffleMisses MT64.source (Reachable MT64.methods.api MT64.new) n) ∧
    (∀ n, 3729 ≤ n → n < 2 ^ 63 → ShuffleMisses LFG.source (Reachable LFG.methods.api LFG.new) n) ∧
    (∀ n, 21 ≤ n → n < 2 ^ 63 → ShuffleMisses Xoroshiro.source (Seeded Xoroshiro.seed) n ∧
      ShuffleMisses Rexoroshiro.source (Seeded Rexoroshiro.seed) n ∧ ShuffleMisses Xoshiro.source (Seeded Xoshiro.seed) n ∧
      ShuffleMisses MT64.source (Seeded MT64.seed) n) ∧
    (∀ n, 6 ≤ n → n < 2 ^ 63 → ShuffleMisses LFG.source (Seeded LFG.seed) n) := by
  have h35 : 2 ^ 128 < (35).factorial := by decide +kernel
  have h58 : 2 ^ 256 < (58).factorial := by decide +kernel
  have h21 : 2 ^ 64 < (21).factorial := by decide +kernel
  have h6 : 256 < (6).factorial := by decide +kernel
  have hm : 2 ^ 19984 < (2086).factorial := by decide +kernel
  have hl : 2 ^ 38858 < (3729).factorial := by decide +kernel
  refine ⟨fun n h h' => ⟨?_, ?_⟩, fun n h h' => ?_, fun n h h' => ?_, fun n h h' => ?_, fun n h h' => ⟨?_, ?_, ?_, ?_⟩, fun n h h' => ?_⟩
  · exact C107_Xoroshiro.shuffle n h' (lt_factorial h35 h)
  · exact C107_Rexoroshiro.shuffle n h' (lt_factorial h35 h)
  · exact C107_Xoshiro.shuffle n h' (lt_factorial h58 h)
  · exact C107_MT64.shuffle n h' (lt_factorial hm h)
  · exact C107_LFG.shuffle n h' (lt_factorial hl h)
  · exact C107_Xoroshiro_seeded.shuffle n h' (lt_factorial h21 h)
  · exact C107_Rexoroshiro_seeded.shuffle n h' (lt_factorial h21 h)
  · exact C107_Xoshiro_seeded.shuffle n h' (lt_factorial h21 h)
  · exact C107_MT64_seeded.shuffle n h' (lt_factorial h21 h)
  · exact C107_LFG_seeded.shuffle n h' (lt_factorial h6 h)

/-- A deck of 52 cards and a Xoroshiro. -/
example : ∃ p : List Nat, p.Perm (List.range 52) ∧ ∀ g fuel g', shuffleSlice Xoroshiro.source fuel (List.range 52) g ≠ .ok (p, g') := by
  obtain ⟨p, h1, h2⟩ := (C107_lengths.1 52 (by decide) (by decide)).1 Nat (List.range 52) List.length_range List.nodup_range
  exact ⟨p, h1, fun g fuel g' => (h2 g trivial fuel g').1⟩

/-- Two letters of the alphabet "abcdefghijklmnopq" and an LFG after `Seed`. -/
example : StringMisses LFG.source (Seeded LFG.seed) 17 2 := C107_LFG_seeded.string 17 2 (by decide)

end Crazy
