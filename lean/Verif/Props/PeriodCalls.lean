/-
C112: random numbers, shuffles and random strings over a whole period of a generator.
-/
import Verif.Spec.PeriodCalls
import Verif.Props.PeriodDist
import Verif.Props.IdealUintn
import Mathlib.Algebra.Order.Ring.Pow
import Mathlib.Logic.Equiv.Fin.Basic
namespace Crazy

section
variable {σ τ : Type} {R : σ → τ → Prop} {src : Source σ} {src' : Source τ}

theorem sim_uintnLoop (max bad : U64) (h1 : SimR R (RNG.uint64 src) (RNG.uint64 src')) (n n' : Nat) (hn : n ≤ n') (x : U64) :
    SimR R (RNG.uintnLoop src max bad n x) (RNG.uintnLoop src' max bad n' x) := by
  induction n generalizing n' x with
  | zero =>
    intro a b hab r a' e
    rw [RNG.uintnLoop.eq_def] at e ⊢
    dsimp only at e ⊢
    by_cases hx : bad < x
    · rw [if_pos hx] at e; cases e
    · rw [if_neg hx] at e ⊢
      exact SimR.pure (x % max) a b hab r a' e
  | succ n ih =>
    obtain ⟨n', rfl⟩ : ∃ m, n' = m + 1 := ⟨n' - 1, by omega⟩
    intro a b hab r a' e
    rw [RNG.uintnLoop.eq_def] at e ⊢
    dsimp only at e ⊢
    by_cases hx : bad < x
    · rw [if_pos hx] at e ⊢
      exact (h1.bind (k := fun x s => RNG.uintnLoop src max bad n x s) (l := fun x s => RNG.uintnLoop src' max bad n' x s)
        fun x => ih n' (by omega) x) a b hab r a' e
    · rw [if_neg hx] at e ⊢
      exact SimR.pure (x % max) a b hab r a' e

theorem sim_uintn (max : U64) (h1 : SimR R (RNG.uint64 src) (RNG.uint64 src')) (n n' : Nat) (hn : n ≤ n') :
    SimR R (RNG.uintn src n max) (RNG.uintn src' n' max) := by
  intro a b hab r a' e
  unfold RNG.uintn at e ⊢
  by_cases h0 : max = 0#64
  · rw [if_pos h0] at e; cases e
  · rw [if_neg h0] at e ⊢
    exact (h1.bind (k := fun x s => RNG.uintnLoop src max _ n x s) (l := fun x s => RNG.uintnLoop src' max _ n' x s)
      fun x => sim_uintnLoop max _ h1 n n' hn x) a b hab r a' e

theorem sim_draws {next : σ → Go (U64 × σ)} {next' : τ → Go (U64 × τ)} (h : SimR R next next') (m : Nat) : SimR R (draws next m) (draws next' m) := by
  induction m with
  | zero => exact SimR.pure []
  | succ m ih =>
    exact h.bind (k := fun x s => draws next m s >>= fun q => .ok (x :: q.1, q.2)) (l := fun x s => draws next' m s >>= fun q => .ok (x :: q.1, q.2))
      fun x => ih.bind (k := fun xs s => .ok (x :: xs, s)) (l := fun xs s => .ok (x :: xs, s)) fun _ => SimR.pure _

end

/-- Without a rejection. -/
theorem lawDraws_returns (max : U64) (h0 : max ≠ 0#64) (B : Nat) (hB : LargestMultiple max.toNat B) (m : Nat) :
    lawDraws 0 max m (fun _ => True) = ((B + 1 : ℝ) / 2 ^ 64) ^ m := by
  classical
  induction m with
  | zero => rw [lawDraws_zero, if_pos trivial, pow_zero]
  | succ m ih =>
    rw [lawDraws_succ, ih, ← Finset.sum_mul]
    have h := law_sum 0 max (fun _ => True)
    rw [Finset.filter_true] at h
    rw [← h, law_zero max h0 B hB, pow_succ, mul_comm]
    congr 2
    unfold accepted
    simp only [if_true, Finset.sum_const, Finset.card_range, nsmul_eq_mul, mul_one]
    push_cast
    rfl

theorem lawDraws_most (max : U64) (h0 : max ≠ 0#64) (m : Nat) :
    1 - m * (max.toNat - 1 : ℝ) / 2 ^ 64 ≤ prob m (fun w => ∃ js rest, draws (RNG.uintn tape 0 max) m w = .ok (js, rest)) := by
  obtain ⟨B, hB⟩ := C10_B_exists max h0
  have h := lawDraws_returns max h0 B hB m
  unfold lawDraws at h
  simp only [and_true, Nat.zero_add, Nat.mul_one] at h
  rw [h]
  have hpos : 0 < max.toNat := Nat.pos_of_ne_zero fun h => h0 (BitVec.eq_of_toNat_eq h)
  have h1 : 2 ^ 64 ≤ B + max.toNat := by
    by_contra hlt
    have := hB.2.2 (B + max.toNat) (Nat.dvd_add hB.1 (Nat.dvd_refl _)) (by omega)
    omega
  have h2 : (2 : ℝ) ^ 64 ≤ B + max.toNat := by exact_mod_cast h1
  have hb := one_add_mul_le_pow (a := ((B + 1 : ℝ) / 2 ^ 64 - 1)) (by
    have : (0 : ℝ) ≤ (B + 1 : ℝ) / 2 ^ 64 := by positivity
    linarith) m
  rw [add_sub_cancel] at hb
  refine le_trans ?_ hb
  have h3 : -((max.toNat - 1 : ℝ) / 2 ^ 64) ≤ (B + 1 : ℝ) / 2 ^ 64 - 1 := by
    rw [← neg_div, le_sub_iff_add_le, ← div_self (show (2 : ℝ) ^ 64 ≠ 0 by norm_num), ← add_div]
    exact div_le_div_of_nonneg_right (by linarith) (by norm_num)
  have := mul_le_mul_of_nonneg_left h3 (Nat.cast_nonneg (α := ℝ) m)
  rw [mul_div_assoc]
  linarith

section
variable {σ : Type}

theorem shareOf_congr (next : σ → Go (U64 × σ)) (s : σ) (P : Nat) {A B : σ → Prop} (h : ∀ t, A t ↔ B t) : shareOf next s P A = shareOf next s P B := by
  have : A = B := funext fun t => propext (h t)
  rw [this]

theorem returnsSome_iff {α β : Type} {c : Nat → σ → Go (α × σ)} {d : Nat → σ → Go (β × σ)} {S : α → Prop} {T : β → Prop}
    (h : ∀ n t, (∃ r t', c n t = .ok (r, t') ∧ S r) ↔ ∃ r t', d n t = .ok (r, t') ∧ T r) (t : σ) : ReturnsSome c S t ↔ ReturnsSome d T t :=
  exists_congr fun n => h n t

/-- The arithmetic. -/
theorem calls_arith (m M x : ℝ) (hm : 1 ≤ m) (hx : x ≤ 1 / 2 ^ 127) : m * (1 / 2 ^ 63) + m * (M - 1) / 2 ^ 64 + x ≤ m * (M + 2) / 2 ^ 64 := by
  have h1 : m * (M + 2) / 2 ^ 64 = m * (1 / 2 ^ 63) + m * (M - 1) / 2 ^ 64 + m / 2 ^ 64 := by ring
  have h2 : (1 : ℝ) / 2 ^ 64 ≤ m / 2 ^ 64 := div_le_div_of_nonneg_right hm (by norm_num)
  have h3 : (1 : ℝ) / 2 ^ 127 ≤ 1 / 2 ^ 64 := by norm_num
  linarith

theorem uintn_over {next : σ → Go (U64 × σ)} {src : Source σ} {s : σ} {N D : Nat} (h : EvenReads next src s N D) (hN : 128 ≤ N) (h64 : 64 * D ≤ N)
    (max : U64) (h0 : max ≠ 0#64) (m : Nat) (hm : 0 < m) (hD : m ≤ D) (S : List Nat → Prop) :
    |shareOf next s (2 ^ N - 1) (ReturnsSome (fun retries => draws (RNG.uintn src retries max) m) fun js => S (js.map BitVec.toNat)) -
      uniformShare max.toNat m S| ≤ m * (max.toNat + 2) / 2 ^ 64 := by
  have := share_close (f := 0) h hD (by omega) (by omega) (fun n => draws (RNG.uintn tape n max) m) (fun n => draws (RNG.uintn src n max) m)
    (fun n s' => sim_draws (sim_uintn max (sim_tape_uint64 src s') n n le_rfl) m)
    (fun n n' hn => sim_draws (sim_uintn max (sim_self _) n n' hn) m)
    (fun n n' hn => sim_draws (sim_uintn max (sim_self _) n n' hn) m)
    (fun n => m * (n + 1)) (fun n _ => Nat.le_mul_of_pos_right m (by omega)) (fun n => reads_draws (n + 1) _ (reads_uintn n max) m)
    (fun js => S (js.map BitVec.toNat)) _ (m * (1 / 2 ^ 63)) (m * (max.toNat - 1 : ℝ) / 2 ^ 64) (1 / 2) m (by norm_num) (by norm_num) (Nat.cast_nonneg m)
    (fun n => (C73_draws n max h0 m S).trans (by
      rw [mul_add, add_le_add_iff_left]
      refine mul_le_mul_of_nonneg_left ?_ (Nat.cast_nonneg m)
      rw [one_div_pow]
      exact one_div_le_one_div_of_le (by positivity) (pow_le_pow_right₀ (by norm_num) (by omega)))) (lawDraws_most max h0 m)
  exact this.trans (calls_arith m max.toNat _ (by exact_mod_cast hm) (inv_period hN))

theorem calls_over {next : σ → Go (U64 × σ)} {src : Source σ} {s : σ} {N D : Nat} (h : EvenReads next src s N D) (hN : 128 ≤ N) (h64 : 64 * D ≤ N)
    (hD : D < 2 ^ 46) : CallsOver next src s N D where
  uintn := uintn_over h hN h64
  shuffle {α} data hd hl T := by
    have hpos : 0 < data.length := List.length_pos_iff.mpr hd
    have hof : (BitVec.ofNat 64 data.length).toNat = data.length := by rw [BitVec.toNat_ofNat]; omega
    have hne : BitVec.ofNat 64 data.length ≠ 0#64 := fun h => by
      have := congrArg BitVec.toNat h
      rw [hof] at this
      have : data.length = 0 := this
      omega
    have hu := uintn_over h hN h64 (BitVec.ofNat 64 data.length) hne data.length hpos hl
      (fun l => ∃ j : Fin data.length → Fin data.length, l = List.ofFn (fun i => (j i).val) ∧ T (permuted data (shufflePerm j)))
    rw [hof, uniformShare_fn, shufflePartners_card] at hu
    rw [shareOf_congr next s _ (returnsSome_iff fun n t => shuffle_event src n data (by omega) T t)]
    exact hu
  randString alphabet h0 ha ts hts hl := by
    have hle := runes_length_le alphabet
    have hpos : 0 < (runes alphabet).length := List.length_pos_iff.mpr (mt (runes_eq_nil alphabet).mp h0)
    have hof : (BitVec.ofNat 64 (runes alphabet).length).toNat = (runes alphabet).length := by rw [BitVec.toNat_ofNat]; omega
    have hne : BitVec.ofNat 64 (runes alphabet).length ≠ 0#64 := fun h => by
      have := congrArg BitVec.toNat h
      rw [hof] at this
      have : (runes alphabet).length = 0 := this
      omega
    have hu := uintn_over h hN h64 (BitVec.ofNat 64 (runes alphabet).length) hne ts.length (List.length_pos_iff.mpr hts) hl
      (fun l => l.map (fun x => (runes alphabet)[x]?) = ts.map some)
    rw [hof, uniformShare_map] at hu
    rw [shareOf_congr next s _ (returnsSome_iff fun n t => randString_event src n alphabet ha ts (by omega) t)]
    exact hu

/-! ### Every result occurs -/

theorem occurs_words {next : σ → Go (U64 × σ)} {src : Source σ} {s : σ} {N D : Nat} (h : EvenReads next src s N D) (w : List U64) (hl : w.length ≤ D)
    (hw : w ≠ List.replicate w.length 0#64) :
    ∃ n < 2 ^ N - 1, ∃ ws t t', draws next n s = .ok (ws, t) ∧ draws (RNG.uint64 src) w.length t = .ok (w, t') := by
  have e := h.words w.length hl (· = w)
  have hc : Nat.card {ws : List U64 // ws.length = w.length ∧ ws = w} = 1 := by
    rw [Nat.card_eq_one_iff_unique]
    exact ⟨⟨fun a b => Subtype.ext (a.2.2.trans b.2.2.symm)⟩, ⟨⟨w, rfl, rfl⟩⟩⟩
  rw [hc, Nat.mul_one, if_neg fun h => hw h.symm, Nat.add_zero] at e
  have hp : 0 < places next s (2 ^ N - 1) (fun t => ∃ ws t', draws (RNG.uint64 src) w.length t = .ok (ws, t') ∧ ws = w) := by
    rw [e]; exact Nat.two_pow_pos _
  obtain ⟨⟨n, hn, ws, t, h1, v, t', h2, h3⟩⟩ := (Nat.card_pos_iff.mp hp).1
  exact ⟨n, hn, ws, t, t', h1, h3 ▸ h2⟩

theorem tape_shifted (max : U64) (hm : max.toNat < 2 ^ 62) (js : List U64) (hj : ∀ j ∈ js, j.toNat < max.toNat) :
    draws (RNG.uintn tape 0 max) js.length (js.map (· + max)) = .ok (js, []) := by
  induction js with
  | nil => rfl
  | cons j js ih =>
    have hj0 := hj j (List.mem_cons_self ..)
    have h0 : max ≠ 0#64 := fun h => by rw [h] at hj0; exact Nat.not_lt_zero _ hj0
    obtain ⟨B, hB⟩ := C10_B_exists max h0
    have h1 : 2 ^ 64 ≤ B + max.toNat := by
      by_contra hlt
      have := hB.2.2 (B + max.toNat) (Nat.dvd_add hB.1 (Nat.dvd_refl _)) (by omega)
      omega
    have h2 : (j + max).toNat = j.toNat + max.toNat := by rw [BitVec.toNat_add]; omega
    have h3 := (uintn_cons 0 max h0 B hB (j + max) (js.map (· + max))).1 (by omega)
    have h4 : (j + max) % max = j := by
      apply BitVec.eq_of_toNat_eq
      rw [BitVec.toNat_umod, h2, Nat.add_mod_right, Nat.mod_eq_of_lt hj0]
    rw [h4] at h3
    exact (draws_succ_ok _ _ _ _ _).mpr ⟨j, _, js, h3, ih fun i hi => hj i (List.mem_cons_of_mem _ hi), rfl⟩

theorem occurs_uintn {next : σ → Go (U64 × σ)} {src : Source σ} {s : σ} {N D : Nat} (h : EvenReads next src s N D) (hN : 0 < N) (max : U64)
    (js : List U64) (hm : max.toNat < 2 ^ 62) (hj : ∀ j ∈ js, j.toNat < max.toNat) (hl : js.length ≤ D) :
    ∃ n < 2 ^ N - 1, ∃ ws t t', draws next n s = .ok (ws, t) ∧ draws (RNG.uintn src 0 max) js.length t = .ok (js, t') := by
  cases js with
  | nil =>
    have := Nat.one_lt_two_pow hN.ne'
    exact ⟨0, by omega, [], s, s, rfl, rfl⟩
  | cons j js =>
    have hlen : ((j :: js).map (· + max)).length = (j :: js).length := List.length_map ..
    obtain ⟨n, hn, ws, t, t', h1, h2⟩ := occurs_words h ((j :: js).map (· + max)) (hlen.trans_le hl) (by
      intro e
      have hj0 := hj j (List.mem_cons_self ..)
      rw [hlen, List.length_cons, List.replicate_succ, List.map_cons, List.cons.injEq] at e
      have h2 : (j + max).toNat = j.toNat + max.toNat := by rw [BitVec.toNat_add]; omega
      rw [e.1] at h2
      have : (0#64).toNat = 0 := rfl
      omega)
    obtain ⟨b, h3, -⟩ := sim_draws (sim_uintn max (sim_tape_uint64 src t') 0 0 le_rfl) (j :: js).length _ t h2 _ _ (tape_shifted max hm (j :: js) hj)
    exact ⟨n, hn, ws, t, b, h1, h3⟩

theorem perm_places {α : Type} {l m : List α} (h : l.Perm m) : ∃ e : Fin l.length ≃ Fin m.length, ∀ i, l.get i = m.get (e i) := by
  induction h with
  | nil => exact ⟨Equiv.refl _, fun i => rfl⟩
  | @cons x l m _ ih =>
    obtain ⟨e, he⟩ := ih
    refine ⟨(finSuccEquiv _).trans ((Equiv.optionCongr e).trans (finSuccEquiv _).symm), fun i => ?_⟩
    refine Fin.cases ?_ (fun i => ?_) i
    · simp
    · simpa using he i
  | swap x y l =>
    refine ⟨Equiv.swap (⟨0, by simp⟩ : Fin (l.length + 2)) ⟨1, by simp⟩, fun i => ?_⟩
    rcases i with ⟨_ | _ | i, hi⟩
    · have : Equiv.swap (⟨0, by simp⟩ : Fin (l.length + 2)) ⟨1, by simp⟩ ⟨0, hi⟩ = ⟨1, by simp⟩ := Equiv.swap_apply_left _ _
      rw [this]; rfl
    · have : Equiv.swap (⟨0, by simp⟩ : Fin (l.length + 2)) ⟨1, by simp⟩ ⟨1, hi⟩ = ⟨0, by simp⟩ := Equiv.swap_apply_right _ _
      exact Eq.trans rfl (congrArg (List.get (x :: y :: l)) this).symm
    · have : Equiv.swap (⟨0, by simp⟩ : Fin (l.length + 2)) ⟨1, by simp⟩ ⟨i + 2, hi⟩ = ⟨i + 2, hi⟩ :=
        Equiv.swap_apply_of_ne_of_ne (by simp [Fin.ext_iff]) (by simp [Fin.ext_iff])
      exact Eq.trans rfl (congrArg (List.get (x :: y :: l)) this).symm
  | trans _ _ ih1 ih2 =>
    obtain ⟨e, he⟩ := ih1
    obtain ⟨f, hf⟩ := ih2
    exact ⟨e.trans f, fun i => (he i).trans (hf _)⟩

theorem perm_permuted {α : Type} {data out : List α} (h : out.Perm data) : ∃ π : Equiv.Perm (Fin data.length), permuted data π = out := by
  obtain ⟨e, he⟩ := perm_places h
  refine ⟨(finCongr h.length_eq.symm).trans e, ?_⟩
  apply List.ext_getElem
  · simp [permuted, h.length_eq]
  · intro i h1 h2
    have := he ⟨i, h2⟩
    simp only [permuted, List.getElem_ofFn]
    exact this.symm

theorem occurs_all {next : σ → Go (U64 × σ)} {src : Source σ} {s : σ} {N D : Nat} (h : EvenReads next src s N D) (hN : 0 < N) (hD : D < 2 ^ 46) :
    AllOccur next src s (2 ^ N - 1) D where
  uintn := occurs_uintn h hN
  shuffle {α} data out hp hl := by
    obtain ⟨π, hπ⟩ := perm_permuted hp
    obtain ⟨j, hj⟩ := C30_perm π
    have hof : (BitVec.ofNat 64 data.length).toNat = data.length := by rw [BitVec.toNat_ofNat]; omega
    obtain ⟨n, hn, ws, t, t', h1, h2⟩ := occurs_uintn h hN (BitVec.ofNat 64 data.length) (List.ofFn fun i => BitVec.ofNat 64 (j i).val) (by omega) (by
      intro i hi
      obtain ⟨k, rfl⟩ := (List.mem_ofFn' _ _).mp hi
      rw [hof, BitVec.toNat_ofNat]
      have := (j k).isLt
      omega) (by rw [List.length_ofFn]; exact hl)
    rw [List.length_ofFn] at h2
    obtain ⟨out', t'', h3, h4⟩ := (shuffle_event src 0 data (by omega) (· = out) t).mpr ⟨_, t', h2, j, by
      rw [List.map_ofFn]
      refine List.ofFn_inj.mpr (funext fun i => ?_)
      have := (j i).isLt
      rw [Function.comp_apply, BitVec.toNat_ofNat]
      omega, by rw [hj, hπ]⟩
    exact ⟨n, hn, ws, t, t'', h1, h4 ▸ h3⟩
  randString alphabet ts ha hts hl := by
    have hle := runes_length_le alphabet
    have hof : (BitVec.ofNat 64 (runes alphabet).length).toNat = (runes alphabet).length := by rw [BitVec.toNat_ofNat]; omega
    obtain ⟨n, hn, ws, t, t', h1, h2⟩ := occurs_uintn h hN (BitVec.ofNat 64 (runes alphabet).length)
      (ts.map fun t => BitVec.ofNat 64 ((runes alphabet).idxOf t)) (by omega) (by
        intro i hi
        obtain ⟨k, hk, rfl⟩ := List.mem_map.mp hi
        have := List.idxOf_lt_length_of_mem (hts k hk)
        rw [hof, BitVec.toNat_ofNat]
        omega) (by rw [List.length_map]; exact hl)
    rw [List.length_map] at h2
    obtain ⟨out', t'', h3, h4⟩ := (randString_event src 0 alphabet (by omega) ts (by omega) t).mpr ⟨_, t', h2, by
      rw [List.map_map, List.map_map]
      refine List.map_congr_left fun k hk => ?_
      have := List.idxOf_lt_length_of_mem (hts k hk)
      rw [Function.comp_apply, Function.comp_apply, BitVec.toNat_ofNat, Nat.mod_eq_of_lt (by omega), List.getElem?_eq_getElem this, List.getElem_idxOf]⟩
    exact ⟨n, hn, ws, t, out', t'', h1, h3, h4⟩

end

/-- C112: over a period of MT64, up to 311 numbers, orders of up to 311 elements and texts of up to 311 letters. -/
theorem C112_MT64 (g : MT64) (hg : g.Alive) (hi : g.Begun) : CallsOver MT64.uint64 MT64.source g 19937 311 :=
  calls_over (C108_MT64 g hg hi) (by decide) (by decide) (by decide)

theorem C112_MT64_all (g : MT64) (hg : g.Alive) (hi : g.Begun) : AllOccur MT64.uint64 MT64.source g (2 ^ 19937 - 1) 311 :=
  occurs_all (C108_MT64 g hg hi) (by decide) (by decide)

/-- C112: over a period of Xoshiro, up to 4. -/
theorem C112_Xoshiro (g : Xoshiro) (hg : g ≠ ⟨0#64, 0#64, 0#64, 0#64⟩) : CallsOver Xoshiro.uint64 Xoshiro.source g 256 4 :=
  calls_over (C108_Xoshiro g hg) (by decide) (by decide) (by decide)

theorem C112_Xoshiro_all (g : Xoshiro) (hg : g ≠ ⟨0#64, 0#64, 0#64, 0#64⟩) : AllOccur Xoshiro.uint64 Xoshiro.source g (2 ^ 256 - 1) 4 :=
  occurs_all (C108_Xoshiro g hg) (by decide) (by decide)

/-! ### Non-vacuity -/

/-- Every order of a pack of 52 cards occurs in the period of a seeded MT64. -/
example (x : U64) (g : MT64) (out : List Nat) (h : out.Perm (List.range 52)) : ∃ s, g.seed x = .ok s ∧ ∃ n < 2 ^ 19937 - 1, ∃ ws t t',
    draws MT64.uint64 n s = .ok (ws, t) ∧ shuffleSlice MT64.source 0 (List.range 52) t = .ok (out, t') := by
  obtain ⟨s, h1, h2, h3⟩ := C61_MT64_Seed_alive x g
  exact ⟨s, h1, (C112_MT64_all s h2 h3).shuffle (List.range 52) out h (by rw [List.length_range]; decide)⟩

/-- Of the states in the period of a seeded Xoshiro, the share from which `RandString("aab", 2)` gives "aa" is 4/9 up to `10/2^64`. -/
example (x : U64) (g : Xoshiro) : ∃ s, g.seed x = .ok s ∧ |shareOf Xoshiro.uint64 s (2 ^ 256 - 1)
    (ReturnsSome (fun retries => randString Xoshiro.source retries [0x61, 0x61, 0x62] (2 : Nat)) fun out => runes out = [0x61, 0x61]) - 4 / 9| ≤ 10 / 2 ^ 64 := by
  obtain ⟨s, h1, h2⟩ := C51_Xoshiro_Seed_alive x g
  refine ⟨s, h1, ?_⟩
  have h := (C112_Xoshiro s h2).randString [0x61, 0x61, 0x62] (by decide) (by decide) [0x61, 0x61] (by decide) (by decide)
  have e : runes [0x61, 0x61, 0x62] = [0x61, 0x61, 0x62] := by decide +kernel
  rw [e] at h
  have e2 : (List.map (fun t => ((List.count t [0x61, 0x61, 0x62] : Nat) : ℝ) / ([0x61, 0x61, 0x62] : List Nat).length) [0x61, 0x61]).prod = 4 / 9 := by
    rw [List.map_cons, List.map_singleton, List.prod_cons, List.prod_singleton, show List.count 0x61 [0x61, 0x61, 0x62] = 2 by decide]
    norm_num
  rw [e2] at h
  have e3 : (([0x61, 0x61] : List Nat).length : ℝ) * ((([0x61, 0x61, 0x62] : List Nat).length : ℝ) + 2) / 2 ^ 64 = 10 / 2 ^ 64 := by
    have h1 : ([0x61, 0x61] : List Nat).length = 2 := rfl
    have h2 : ([0x61, 0x61, 0x62] : List Nat).length = 3 := rfl
    rw [h1, h2]
    norm_num
  rw [e3] at h
  exact h

end Crazy
