/-
C108: reads and big numbers over a whole period.
-/
import Verif.Spec.EvenReads
import Verif.Props.EvenTuples
import Verif.Props.BignLaw
import Verif.Props.Compose2
import Verif.Props.SeedRef
import Verif.Props.DeadState
set_option exponentiation.threshold 2200
namespace Crazy

/-- Words as bytes. -/
theorem bytes_bij (D : Nat) : Function.Bijective (fun w : Fin D → U64 =>
    (⟨bytesOf (List.ofFn w), by rw [bytesOf_length, List.length_ofFn]⟩ : {b : List Byte // b.length = 8 * D})) := by
  refine ⟨fun v w h => List.ofFn_injective (bytesOf_inj _ _ (by simp) (congrArg Subtype.val h)), fun b => ?_⟩
  obtain ⟨ws, h⟩ := whole_words b.1 ⟨D, b.2⟩
  have hl : ws.length = D := by
    have := b.2
    rw [h, bytesOf_length] at this
    omega
  subst hl
  exact ⟨ws.get, Subtype.ext (by show bytesOf (List.ofFn ws.get) = b.1; rw [List.ofFn_get, h])⟩

theorem card_prefix (M n : Nat) (h : n ≤ M) (q : List Byte) (hq : q.length = n) :
    Nat.card {b : {b : List Byte // b.length = M} // b.1.take n = q} = 256 ^ (M - n) := by
  rw [← card_bytes (M - n)]
  refine Nat.card_congr ⟨fun b => ⟨b.1.1.drop n, by rw [List.length_drop, b.1.2]⟩, fun c => ⟨⟨q ++ c.1, by rw [List.length_append, hq, c.2]; omega⟩,
    List.take_left' hq⟩, ?_, ?_⟩
  · rintro ⟨⟨b, hb⟩, hp⟩
    refine Subtype.ext (Subtype.ext ?_)
    show q ++ b.drop n = b
    rw [← hp, List.take_append_drop]
  · rintro ⟨c, hc⟩
    refine Subtype.ext ?_
    show (q ++ c).drop n = c
    rw [← hq, List.drop_left]

theorem card_read (D n : Nat) (h : n ≤ 8 * D) (q : List Byte) (hq : q.length = n) :
    Nat.card {w : Fin D → U64 // (bytesOf (List.ofFn w)).take n = q} = 2 ^ (64 * D - 8 * n) := by
  have e := (Equiv.ofBijective _ (bytes_bij D)).subtypeEquiv (p := fun w => (bytesOf (List.ofFn w)).take n = q) (q := fun b => b.1.take n = q)
    fun w => Iff.rfl
  rw [Nat.card_congr e, card_prefix _ n h q hq, show (256 : Nat) = 2 ^ 8 from rfl, ← pow_mul]
  exact congrArg _ (by omega)

theorem bytesOf_zeros (D : Nat) : bytesOf (List.replicate D 0#64) = zeros (8 * D) := by
  induction D with
  | zero => rfl
  | succ D ih =>
    rw [List.replicate_succ, bytesOf_cons, ih, show le64 0#64 = zeros 8 from by decide]
    unfold zeros
    rw [List.replicate_append_replicate]
    exact congrArg₂ _ (by omega) rfl

section
variable {σ : Type}

theorem places_pure {next : σ → Go (U64 × σ)} {out : σ → U64} {step : σ → σ} (h : ∀ s, next s = .ok (out s, step s)) (s : σ) (P : Nat) (A : σ → Prop) :
    places next s P A = Nat.card {n : Nat // n < P ∧ A (step^[n] s)} := by
  unfold places
  refine Nat.card_congr (Equiv.subtypeEquivRight fun n => and_congr_right fun _ => ?_)
  rw [draws_pure h]
  constructor
  · rintro ⟨ws, t, h1, h2⟩
    have := (Prod.mk.inj (Except.ok.inj h1)).2
    rwa [this]
  · exact fun h => ⟨_, _, rfl, h⟩

theorem evenReads_of (next : σ → Go (U64 × σ)) (src : Source σ) (s : σ) (N D : Nat) (hN : 64 * D ≤ N) (hD : D < 2 ^ 40) (out : σ → U64) (step : σ → σ)
    (hp : ∀ s, next s = .ok (out s, step s))
    (hr : ∀ (p : List Byte) t, p.length ≤ 8 * D → ∃ t',
      src.read p t = .ok (⟨(bytesOf (List.ofFn fun i : Fin D => out (step^[i.val] t))).take p.length, p.length, none⟩, t'))
    (hw : ∀ l ≤ D, ∀ t, ∃ t', draws (RNG.uint64 src) l t = .ok ((List.ofFn fun i : Fin D => out (step^[i.val] t)).take l, t'))
    (ev : EvenWordTuples out step s N D) : EvenReads next src s N D := by
  classical
  have it : ∀ n, (fun i : Fin D => out (step^[i.val] (step^[n] s))) = fun i : Fin D => out (step^[n + i.val] s) := fun n => by
    funext i
    rw [← Function.iterate_add_apply, Nat.add_comm]
  have main := even_fibres (fun n => fun i : Fin D => out (step^[n + i.val] s)) (fun _ => 0#64) (2 ^ N - 1) (2 ^ (N - 64 * D)) (Nat.two_pow_pos _) ev
  have zer : (List.ofFn fun _ : Fin D => 0#64) = List.replicate D 0#64 := List.ofFn_const _ _
  have pos : ∀ k, 0 < 2 ^ k := Nat.two_pow_pos
  have rd : ∀ (n : Nat) (q : List Byte), q.length = n → n ≤ 8 * D →
      Nat.card {m : Nat // m < 2 ^ N - 1 ∧ (bytesOf (List.ofFn fun i : Fin D => out (step^[m + i.val] s))).take n = q} =
        if q = zeros n then 2 ^ (N - 8 * n) - 1 else 2 ^ (N - 8 * n) := fun n q hq hn => by
    have h := main fun w => (bytesOf (List.ofFn w)).take n = q
    rw [card_read D n hn q hq, ← pow_add, show 64 * D - 8 * n + (N - 64 * D) = N - 8 * n by omega, zer, bytesOf_zeros] at h
    have e : ((zeros (8 * D)).take n = q) ↔ q = zeros n := by
      unfold zeros
      rw [List.take_replicate, Nat.min_eq_left hn]
      exact eq_comm
    simp only [e] at h
    have := pos (N - 8 * n)
    split
    · rename_i h0
      rw [if_pos h0] at h
      omega
    · rename_i h0
      rw [if_neg h0] at h
      omega
  have rdz : ∀ (q : List Byte) n, q.length = n → ((∀ b ∈ q, b = 0#8) ↔ q = zeros n) := fun q n hq => by
    unfold zeros
    rw [List.eq_replicate_iff]
    exact ⟨fun h => ⟨hq, h⟩, fun h => h.2⟩
  have rdr : ∀ (p q : List Byte), p.length ≤ 8 * D → ∀ t, (∃ t', src.read p t = .ok (⟨q, p.length, none⟩, t')) ↔
      (bytesOf (List.ofFn fun i : Fin D => out (step^[i.val] t))).take p.length = q := fun p q hpl t => by
    obtain ⟨t', h⟩ := hr p t hpl
    rw [h]
    constructor
    · rintro ⟨t'', h1⟩
      exact congrArg ReadRes.buf (Prod.mk.inj (Except.ok.inj h1)).1
    · rintro rfl
      exact ⟨_, rfl⟩
  -- numbers, from the bytes read
  have bg : ∀ nbits v k : Nat, 0 < nbits → nbits ≤ 64 * D → k ≤ nbits → RNG.bigBits nbits = k → v < 2 ^ k →
      places next s (2 ^ N - 1) (fun t => ∃ t', RNG.big src nbits t = .ok ((v : Int), t')) =
        if v = 0 then 2 ^ (N - k) - 1 else 2 ^ (N - k) := fun nbits v k h0 hn hk hb hv => by
    have hm : (nbits + 7) / 8 ≤ RNG.maxAlloc := by
      have : RNG.maxAlloc = 2 ^ 48 := rfl
      omega
    have hl : (nbits + 7) / 8 ≤ 8 * D := by omega
    obtain ⟨len, hlen⟩ : ∃ len, len = (nbits + 7) / 8 := ⟨_, rfl⟩
    rw [← hlen] at hm hl
    have bl : ∀ m, ((bytesOf (List.ofFn fun i : Fin D => out (step^[m + i.val] s))).take len).length = len := fun m => by
      rw [List.length_take, bytesOf_length, List.length_ofFn]
      omega
    have bigv : ∀ m, (∃ t', RNG.big src nbits (step^[m] s) = .ok ((v : Int), t')) ↔
        RNG.setBytes ((bytesOf (List.ofFn fun i : Fin D => out (step^[m + i.val] s))).take len) % 2 ^ k = v := fun m => by
      obtain ⟨t', h⟩ := hr (zeros len) (step^[m] s) (by rw [zeros_length]; exact hl)
      rw [RNG.big_eq src nbits h0 (hlen ▸ hm), ← hlen, h, hb, it, zeros_length]
      constructor
      · rintro ⟨t'', h1⟩
        exact Int.ofNat_inj.1 (Prod.mk.inj (Except.ok.inj h1)).1
      · intro h1
        refine ⟨t', ?_⟩
        simp only [Except.map]
        rw [h1]
    have fin : Finite {b : List Byte // b.length = len} := Nat.finite_of_card_ne_zero (by rw [card_bytes]; exact (pow_pos (by decide) _).ne')
    have h := even_fibres (τ := {b : List Byte // b.length = len}) (fun m => ⟨_, bl m⟩) ⟨zeros len, zeros_length _⟩ (2 ^ N - 1) (2 ^ (N - 8 * len)) (pos _)
      (fun q => by
        simp only [Subtype.ext_iff]
        exact rd len q.1 q.2 hl) (fun b => RNG.setBytes b.1 % 2 ^ k = v)
    have cz : RNG.setBytes (zeros len) % 2 ^ k = v ↔ v = 0 := by
      have (len : Nat) : RNG.setBytes (zeros len) = 0 := by
        induction len with
        | zero => rfl
        | succ n ih =>
          unfold RNG.setBytes zeros at *
          rw [List.replicate_succ, List.foldl_cons]
          exact ih
      rw [this, Nat.zero_mod]
      exact eq_comm
    have cc : Nat.card {b : {b : List Byte // b.length = len} // RNG.setBytes b.1 % 2 ^ k = v} = 2 ^ (8 * len - k) := by
      rw [← countBytes_mod len k v (by omega) hv]
      exact Nat.card_congr (Equiv.subtypeSubtypeEquivSubtypeInter _ fun b => RNG.setBytes b % 2 ^ k = v)
    rw [cc, ← pow_add, show 8 * len - k + (N - 8 * len) = N - k by omega] at h
    simp only [cz] at h
    rw [places_pure hp]
    simp only [bigv]
    have := pos (N - k)
    split
    · rename_i h0
      rw [if_pos h0] at h
      omega
    · rename_i h0
      rw [if_neg h0] at h
      omega
  refine ⟨fun p q hq hl => ?_, fun nbits v h8 hn hv => ?_, fun nbits v h0 h8 hn hv => ?_, fun l hl S => ?_⟩
  · rw [places_pure hp]
    simp only [rdr p q hl, it]
    rw [rd _ q hq hl]
    exact if_congr (rdz q _ hq).symm rfl rfl
  · exact bg nbits v nbits (by omega) hn (Nat.le_refl _) (by rw [RNG.bigBits_eq nbits (by omega), if_neg h8]) hv
  · rw [bg nbits v (nbits - 8) h0 hn (by omega) (by rw [RNG.bigBits_eq nbits h0, if_pos h8]) hv, show N - (nbits - 8) = N - nbits + 8 by omega]
  · rw [places_pure hp]
    have h := main fun w => S ((List.ofFn w).take l)
    have e1 : ∀ t, (∃ ws t', draws (RNG.uint64 src) l t = .ok (ws, t') ∧ S ws) ↔ S ((List.ofFn fun i : Fin D => out (step^[i.val] t)).take l) := fun t => by
      obtain ⟨t', h⟩ := hw l hl t
      rw [h]
      constructor
      · rintro ⟨ws, t'', h1, h2⟩
        rwa [(Prod.mk.inj (Except.ok.inj h1)).1]
      · exact fun h => ⟨_, _, rfl, h⟩
    have e2 : (List.replicate D 0#64).take l = List.replicate l 0#64 := by rw [List.take_replicate, Nat.min_eq_left hl]
    have e3 : Nat.card {w : Fin D → U64 // S ((List.ofFn w).take l)} = 2 ^ (64 * (D - l)) * Nat.card {ws : List U64 // ws.length = l ∧ S ws} := by
      have e : {w : Fin D → U64 // S ((List.ofFn w).take l)} ≃ (Fin (D - l) → U64) × {ws : List U64 // ws.length = l ∧ S ws} := by
        refine ⟨fun w => (fun i => w.1 ⟨l + i.val, by omega⟩, ⟨(List.ofFn w.1).take l, by rw [List.length_take, List.length_ofFn]; omega, w.2⟩),
          fun x => ⟨fun i => if h : i.val < l then x.2.1.get ⟨i.val, by rw [x.2.2.1]; exact h⟩ else x.1 ⟨i.val - l, by omega⟩, ?_⟩, ?_, ?_⟩
        · have : (List.ofFn fun i : Fin D => if h : i.val < l then x.2.1.get ⟨i.val, by rw [x.2.2.1]; exact h⟩ else x.1 ⟨i.val - l, by omega⟩).take l = x.2.1 := by
            refine List.ext_getElem (by rw [List.length_take, List.length_ofFn, x.2.2.1]; omega) fun i h1 h2 => ?_
            rw [List.getElem_take, List.getElem_ofFn, dif_pos (by rw [x.2.2.1] at h2; exact h2)]
            rfl
          rw [this]
          exact x.2.2.2
        · rintro ⟨w, h⟩
          refine Subtype.ext (funext fun i => ?_)
          dsimp only
          split
          · rename_i h1
            show ((List.ofFn w).take l)[i.val]'_ = _
            rw [List.getElem_take, List.getElem_ofFn]
          · rename_i h1
            refine congrArg w (Fin.ext ?_)
            dsimp only
            omega
        · rintro ⟨x, ⟨ws, h1, h2⟩⟩
          refine Prod.ext (funext fun i => ?_) (Subtype.ext ?_)
          · dsimp only
            rw [dif_neg (by omega)]
            refine congrArg x (Fin.ext ?_)
            dsimp only
            omega
          · dsimp only
            refine List.ext_getElem (by rw [List.length_take, List.length_ofFn, h1]; omega) fun i h3 h4 => ?_
            rw [List.getElem_take, List.getElem_ofFn, dif_pos (by rw [h1] at h4; exact h4)]
            rfl
      rw [Nat.card_congr e, Nat.card_prod, Nat.card_fun, Nat.card_fin, card_U64, ← pow_mul]
    rw [zer, e2, e3] at h
    simp only [e1, it]
    rw [h, Nat.mul_right_comm, ← pow_add, show 64 * (D - l) + (N - 64 * D) = N - 64 * l by omega]

/-- A source that reads with `readGt`. -/
theorem readGt_ofFn {next : σ → Go (U64 × σ)} {out : σ → U64} {step : σ → σ} (h : ∀ s, next s = .ok (out s, step s)) (D : Nat) (hD : 0 < D) (p : List Byte)
    (t : σ) (hp : p.length ≤ 8 * D) : ∃ t',
    readGt next p t = .ok ((bytesOf (List.ofFn fun i : Fin D => out (step^[i.val] t))).take p.length, t') := by
  rw [readGt_eq, draws_pure h]
  refine ⟨step^[wordsGt p.length] t, congrArg Except.ok (Prod.ext ?_ rfl)⟩
  show (bytesOf ((List.range (wordsGt p.length)).map fun k => out (step^[k] t))).take p.length = _
  have hw : wordsGt p.length ≤ D ∧ p.length ≤ 8 * wordsGt p.length := by
    unfold wordsGt
    omega
  generalize wordsGt p.length = k at hw
  have e : (List.ofFn fun i : Fin D => out (step^[i.val] t)) = (List.range D).map fun k => out (step^[k] t) :=
    List.ext_getElem (by simp) fun i h1 h2 => by simp
  obtain ⟨r, rfl⟩ := Nat.exists_eq_add_of_le hw.1
  rw [e, List.range_add, List.map_append, bytesOf_append, List.take_append_of_le_length]
  rw [bytesOf_length, List.length_map, List.length_range]
  exact hw.2

theorem draws_ofFn {next : σ → Go (U64 × σ)} {out : σ → U64} {step : σ → σ} (h : ∀ s, next s = .ok (out s, step s)) (D l : Nat) (hl : l ≤ D) (t : σ) :
    ∃ t', draws next l t = .ok ((List.ofFn fun i : Fin D => out (step^[i.val] t)).take l, t') := by
  rw [draws_pure h]
  refine ⟨_, congrArg Except.ok (Prod.ext (List.ext_getElem (by simp; omega) fun i h1 h2 => ?_) rfl)⟩
  simp

theorem rng_uint64_of (src : Source σ) (out : σ → U64) (step : σ → σ) (h : ReadsOut src out step 8) (s : σ) : RNG.uint64 src s = .ok (out s, step s) := by
  rw [RNG.uint64_eq, h s]
  simp only [Except.map]
  rw [leNat_take_le64 _ 8 (by decide), Nat.mod_eq_of_lt (by exact (out s).isLt), BitVec.ofNat_toNat, BitVec.setWidth_eq]

end

/-- C108: from the states of a period of Xoshiro every result of a read of up to 32 bytes comes equally often. -/
theorem C108_Xoshiro (g : Xoshiro) (hg : g ≠ ⟨0#64, 0#64, 0#64, 0#64⟩) : EvenReads Xoshiro.uint64 Xoshiro.source g 256 4 :=
  evenReads_of _ _ _ _ _ (by decide) (by decide) _ _ Xoshiro.uint64_pure (fun p t hp => by
      obtain ⟨t', h⟩ := readGt_ofFn Xoshiro.uint64_pure 4 (by decide) p t hp
      refine ⟨t', ?_⟩
      have : Xoshiro.source.read p t = (do let (q, g) ← readGt Xoshiro.uint64 p t; return (⟨q, p.length, none⟩, g)) := rfl
      rw [this, h]
      rfl)
    (fun l hl t => draws_ofFn (rng_uint64_of _ _ _ (Xoshiro.readsOut 8 (by decide))) 4 l hl t) (Xoshiro.evenWordTuples g hg)

/-- C108: from the states of a period of MT64 every result of a read of up to 2488 bytes. -/
theorem C108_MT64 (g : MT64) (hg : g.Alive) (hi : g.Begun) : EvenReads MT64.uint64 MT64.source g 19937 311 :=
  evenReads_of _ _ _ _ _ (by decide) (by decide) _ _ MT64.uint64_eq (fun p t hp => by
      obtain ⟨t', h⟩ := readGt_ofFn MT64.uint64_eq 311 (by decide) p t hp
      refine ⟨t', ?_⟩
      have : MT64.source.read p t = (do let (q, g) ← readGt MT64.uint64 p t; return (⟨q, p.length, none⟩, g)) := rfl
      rw [this, h]
      rfl)
    (fun l hl t => draws_ofFn (rng_uint64_of _ _ _ (MT64.readsOut 8 (by decide))) 311 l hl t) (MT64.evenWordTuples g hg hi)

/-- Single words as tuples of length one. -/
theorem evenWords_one {σ : Type} {out : σ → U64} {step : σ → σ} {s : σ} {N : Nat} (h : EvenWords out step s N) : EvenWordTuples out step s N 1 := fun w => by
  classical
  have e : ∀ n, ((fun i : Fin 1 => out (step^[n + i.val] s)) = w) ↔ out (step^[n] s) = w 0 := fun n => by
    simp [funext_iff, Fin.forall_fin_one]
  have z : (w = fun _ => 0#64) ↔ w 0 = 0#64 := by simp [funext_iff, Fin.forall_fin_one]
  simp only [e, z]
  exact h _

/-- C108: Rexoroshiro, reads of up to eight bytes. -/
theorem C108_Rexoroshiro (g : Rexoroshiro) (hg : g ≠ ⟨⟨0#64, 0#64⟩⟩) : EvenReads Rexoroshiro.uint64 Rexoroshiro.source g 128 1 := by
  have h : EvenWords (fun g : Rexoroshiro => reverseBytes64 g.xoro.out) (fun g => ⟨g.xoro.step⟩) g 128 := fun w => by
    have := C49_Rexoroshiro_equidistributed g hg w
    simp only [emits_one Rexoroshiro.uint64_pure] at this
    exact this
  exact evenReads_of _ _ _ _ _ (by decide) (by decide) _ _ Rexoroshiro.uint64_pure (fun p t hp => by
      obtain ⟨t', h⟩ := readGt_ofFn Rexoroshiro.uint64_pure 1 (by decide) p t hp
      refine ⟨t', ?_⟩
      have : Rexoroshiro.source.read p t = (do let (q, g) ← readGt Rexoroshiro.uint64 p t; return (⟨q, p.length, none⟩, g)) := rfl
      rw [this, h]
      rfl)
    (fun l hl t => draws_ofFn (rng_uint64_of _ _ _ (Rexoroshiro.readsOut 8 (by decide))) 1 l hl t) (evenWords_one h)

/-- C108: Xoroshiro, reads of up to eight bytes. -/
theorem C108_Xoroshiro (g : Xoroshiro) (hg : g ≠ ⟨0#64, 0#64⟩) : EvenReads Xoroshiro.uint64 Xoroshiro.source g 128 1 := by
  have h : EvenWords Xoroshiro.out Xoroshiro.step g 128 := fun w => by
    rw [Xoroshiro.cycle.card_visits hg (fun s => s.out = w), Xoroshiro.card_out_nz]
  refine evenReads_of _ _ _ _ _ (by decide) (by decide) _ _ Xoroshiro.uint64_pure (fun p t hp => ?_) (fun l hl t => ?_) (evenWords_one h)
  · have hd := draws_pure Xoroshiro.uint64_pure (p.length / 8 + 1) t
    refine ⟨Xoroshiro.step^[p.length / 8 + 1] t, ?_⟩
    show Xoroshiro.read p t = _
    rw [Xoroshiro.read, xoroReadBytes_eq, hd]
    show Except.ok (ReadRes.mk ((bytesOf ((List.range (p.length / 8 + 1)).map fun k => Xoroshiro.out (Xoroshiro.step^[k] t))).take p.length) p.length none, _) = _
    have e : (List.ofFn fun i : Fin 1 => Xoroshiro.out (Xoroshiro.step^[i.val] t)) = [t.out] := rfl
    rw [e, List.range_succ_eq_map, List.map_cons, bytesOf_cons, List.take_append_of_le_length (by rw [le64_length]; omega), bytesOf_one]
    rfl
  · have e : (List.ofFn fun i : Fin 1 => Xoroshiro.out (Xoroshiro.step^[i.val] t)) = [t.out] := rfl
    rw [e]
    have hp := rng_uint64_of _ _ _ Xoroshiro.readsOut8
    rw [draws_pure hp]
    refine ⟨_, congrArg Except.ok (Prod.ext ?_ rfl)⟩
    obtain rfl | rfl : l = 0 ∨ l = 1 := by omega
    · rfl
    · rfl

/-- C108: `Big(200)` returns 2026 from exactly `2^64` of the states a seeded Xoshiro goes through. -/
example (x : U64) (g : Xoshiro) : ∃ s, g.seed x = .ok s ∧ places Xoshiro.uint64 s (2 ^ 256 - 1)
    (fun t => ∃ t', RNG.big Xoshiro.source 200 t = .ok (2026, t')) = 2 ^ 64 := by
  obtain ⟨s, h1, h2⟩ := C51_Xoshiro_Seed_alive x g
  refine ⟨s, h1, ?_⟩
  have h := (C108_Xoshiro s h2).big8 200 2026 (by decide) (by decide) (by decide) (by decide)
  rw [if_neg (by decide)] at h
  exact h

end Crazy
