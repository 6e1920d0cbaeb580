/-
C19: XorCompose is the XOR of its sources. C20: SelectCompose picks every bit from A or B.
C21: XOR with fixed data is a bijection; a generator XORed with its own copy is all zeros.
-/
import Verif.Model.Util
import Verif.Props.Read
import Verif.Spec.CountBytes
namespace Crazy

variable {σ : Type}

theorem bget_eq {p : List Byte} {i : Nat} (h : i < p.length) : bget p i = .ok p[i] := by
  simp [bget, h]

theorem bset_eq {p : List Byte} {i : Nat} (h : i < p.length) (x : Byte) : bset p i x = .ok (p.set i x) := by
  simp [bset, h]

/-- The loop `for i, v := range buf { p[i] ^= v }`. -/
theorem xorLoop_eq (pre p buf : List Byte) (h : p.length = buf.length) :
    forRange (fun i v p => do
      let x ← bget p i
      bset p i (x ^^^ v)) pre.length buf (pre ++ p) = .ok (pre ++ List.zipWith (· ^^^ ·) p buf) := by
  induction buf generalizing pre p with
  | nil =>
    have : p = [] := List.eq_nil_of_length_eq_zero h
    subst this; rfl
  | cons v buf ih =>
    cases p with
    | nil => simp at h
    | cons x p =>
      have h1 : bget (pre ++ x :: p) pre.length = .ok x := by rw [bget_eq (by simp)]; simp
      have h2 : bset (pre ++ x :: p) pre.length (x ^^^ v) = .ok ((pre ++ [x ^^^ v]) ++ p) := by
        rw [bset_eq (by simp)]; simp
      have h3 := ih (pre ++ [x ^^^ v]) p (by simpa using h)
      rw [List.length_append, List.length_singleton] at h3
      simp only [forRange, h1, bind, Except.bind, h2]
      simp only [bind, Except.bind] at h3
      rw [h3]; simp

/-- A loop that replaces element after element of `p`, the new value depending on the index and the old value only. -/
theorem replaceLoop_eq (p : List Byte) (f : Nat → Byte → Byte) (k : Nat) (hk : k ≤ p.length) (body : Nat → List Byte → Go (List Byte))
    (hbody : ∀ i, i < p.length → ∀ q : List Byte, (hq : q.length = p.length) → body i q = .ok (q.set i (f i (q[i]?.getD 0)))) :
    forIdx k body p = .ok (p.mapIdx fun i x => if i < k then f i x else x) := by
  induction k with
  | zero => simp [forIdx]; exact List.ext_getElem (by simp) (by simp)
  | succ k ih =>
    simp only [forIdx, ih (by omega), bind, Except.bind]
    rw [hbody k (by omega) _ (by simp)]
    refine congrArg Except.ok ?_
    apply List.ext_getElem
    · simp
    · intro i h1 h2
      simp only [List.length_mapIdx] at h2
      simp only [List.getElem_set, List.getElem_mapIdx, List.getElem?_mapIdx]
      by_cases hi : k = i
      · subst hi; simp [List.getElem?_eq_getElem h2]
      · rw [if_neg hi]
        by_cases hlt : i < k
        · rw [if_pos hlt, if_pos (by omega)]
        · rw [if_neg hlt, if_neg (by omega)]

/-- C19: `A` is read into `p`, then `B` into a zeroed buffer of the same length; each byte of the result is the XOR of
the two bytes, and `len(p), nil` is returned whatever `A` and `B` returned. A panic of either source comes through. -/
theorem C19_xorCompose (A B : Source σ) (p : List Byte) (s : σ) :
    (∀ ra s1 rb s2, A.read p s = .ok (ra, s1) → B.read (List.replicate p.length 0#8) s1 = .ok (rb, s2) →
      ∃ q, xorCompose A B p s = .ok (⟨q, p.length, none⟩, s2) ∧ q.length = p.length ∧
        ∀ i < p.length, ∃ a b, ra.buf[i]? = some a ∧ rb.buf[i]? = some b ∧ q[i]? = some (a ^^^ b)) ∧
    (∀ e, A.read p s = .error e → xorCompose A B p s = .error e) ∧
    (∀ ra s1 e, A.read p s = .ok (ra, s1) → B.read (List.replicate p.length 0#8) s1 = .error e →
      xorCompose A B p s = .error e) := by
  refine ⟨fun ra s1 rb s2 ha hb => ?_, fun e ha => ?_, fun ra s1 e ha hb => ?_⟩
  · have la := A.len_buf _ _ _ _ ha
    have lb := B.len_buf _ _ _ _ hb
    rw [List.length_replicate] at lb
    refine ⟨List.zipWith (· ^^^ ·) ra.buf rb.buf, ?_, by simp [la, lb], fun i hi => ?_⟩
    · have hx := xorLoop_eq [] ra.buf rb.buf (by omega)
      simp only [List.nil_append, List.length_nil] at hx
      simp only [bind, Except.bind] at hx
      simp only [xorCompose, bind, Except.bind, ha, zeros, hb, pure, Except.pure, hx]
      simp [la, lb]
    · refine ⟨ra.buf[i]'(by omega), rb.buf[i]'(by omega), by simp, by simp, ?_⟩
      simp [List.getElem?_zipWith, List.getElem?_eq_getElem (show i < ra.buf.length by omega),
        List.getElem?_eq_getElem (show i < rb.buf.length by omega)]
  · simp only [xorCompose, bind, Except.bind, ha]
  · simp only [xorCompose, bind, Except.bind, ha, zeros, hb]

theorem xorCompose_ok {A B : Source σ} {p : List Byte} {s s1 s2 : σ} {ra rb : ReadRes}
    (ha : A.read p s = .ok (ra, s1)) (hb : B.read (zeros p.length) s1 = .ok (rb, s2)) :
    xorCompose A B p s = .ok (⟨List.zipWith (· ^^^ ·) ra.buf rb.buf, p.length, none⟩, s2) := by
  have la := A.len_buf _ _ _ _ ha
  have lb := B.len_buf _ _ _ _ hb
  rw [zeros_length] at lb
  have hx := xorLoop_eq [] ra.buf rb.buf (by omega)
  simp only [List.nil_append, List.length_nil] at hx
  simp only [bind, Except.bind] at hx
  simp only [xorCompose, bind, Except.bind, ha, hb, pure, Except.pure, hx]
  simp [la, lb]

/-- C19, one source in both places: two consecutive reads of it. (`XorCompose{g, g}` is `zipWith xor` of the first and
the second read.) -/
theorem C19_shared (A : Source σ) (p : List Byte) (s s1 s2 : σ) (r1 r2 : ReadRes)
    (h1 : A.read p s = .ok (r1, s1)) (h2 : A.read (List.replicate p.length 0#8) s1 = .ok (r2, s2)) :
    xorCompose A A p s = .ok (⟨List.zipWith (· ^^^ ·) r1.buf r2.buf, p.length, none⟩, s2) :=
  xorCompose_ok h1 h2

/-- Non-vacuity of C19: two reads of one tape. -/
example : (xorCompose byteTape byteTape (zeros 2) [0x0f#8, 0xf0#8, 0x11#8, 0x33#8]).map (·.1.buf) = .ok [0x1e#8, 0xc3#8] := by
  rfl

/-- C20: `S`, `A`, `B` are read in this order (`S` and `B` into zeroed buffers, `A` into `p`); every bit of the result
is `B`'s bit where `S`'s is 1 and `A`'s bit where it is 0; `len(p), nil` is returned. A panic of a source comes
through. -/
theorem C20_selectCompose (S A B : Source σ) (p : List Byte) (s : σ) :
    (∀ rs s1 ra s2 rb s3, S.read (List.replicate p.length 0#8) s = .ok (rs, s1) → A.read p s1 = .ok (ra, s2) →
      B.read (List.replicate p.length 0#8) s2 = .ok (rb, s3) →
      ∃ q, selectCompose S A B p s = .ok (⟨q, p.length, none⟩, s3) ∧ q.length = p.length ∧
        ∀ i < p.length, ∃ c a b o, rs.buf[i]? = some c ∧ ra.buf[i]? = some a ∧ rb.buf[i]? = some b ∧ q[i]? = some o ∧
          ∀ j < 8, o.getLsbD j = if c.getLsbD j then b.getLsbD j else a.getLsbD j) ∧
    (∀ e, S.read (List.replicate p.length 0#8) s = .error e → selectCompose S A B p s = .error e) ∧
    (∀ rs s1 e, S.read (List.replicate p.length 0#8) s = .ok (rs, s1) → A.read p s1 = .error e →
      selectCompose S A B p s = .error e) ∧
    (∀ rs s1 ra s2 e, S.read (List.replicate p.length 0#8) s = .ok (rs, s1) → A.read p s1 = .ok (ra, s2) →
      B.read (List.replicate p.length 0#8) s2 = .error e → selectCompose S A B p s = .error e) := by
  refine ⟨fun rs s1 ra s2 rb s3 hs ha hb => ?_, fun e hs => ?_, fun rs s1 e hs ha => ?_, fun rs s1 ra s2 e hs ha hb => ?_⟩
  · have ls := S.len_buf _ _ _ _ hs
    have la := A.len_buf _ _ _ _ ha
    have lb := B.len_buf _ _ _ _ hb
    rw [List.length_replicate] at ls lb
    have hl := replaceLoop_eq ra.buf
      (fun i x => x ^^^ ((x ^^^ rb.buf[i]?.getD 0) &&& rs.buf[i]?.getD 0)) ra.buf.length (Nat.le_refl _)
      (fun i q => do
        let x ← bget q i
        let y ← bget rb.buf i
        let z ← bget rs.buf i
        bset q i (x ^^^ ((x ^^^ y) &&& z)))
      (fun i hi q hq => by
        simp only [bget_eq (show i < q.length by omega), bget_eq (show i < rb.buf.length by omega),
          bget_eq (show i < rs.buf.length by omega), bind, Except.bind, bset_eq (show i < q.length by omega)]
        simp [List.getElem?_eq_getElem (show i < q.length by omega),
          List.getElem?_eq_getElem (show i < rb.buf.length by omega),
          List.getElem?_eq_getElem (show i < rs.buf.length by omega)])
    refine ⟨ra.buf.mapIdx fun i x => if i < ra.buf.length then
        (x ^^^ ((x ^^^ rb.buf[i]?.getD 0) &&& rs.buf[i]?.getD 0)) else x, ?_, ?_, ?_⟩
    · simp only [bind, Except.bind] at hl
      simp only [selectCompose, bind, Except.bind, zeros, hs, ha, hb, hl, pure, Except.pure]
      simp [la]
    · simp [la]
    · intro i hi
      refine ⟨rs.buf[i]'(by omega), ra.buf[i]'(by omega), rb.buf[i]'(by omega),
        ra.buf[i]'(by omega) ^^^ ((ra.buf[i]'(by omega) ^^^ rb.buf[i]'(by omega)) &&& rs.buf[i]'(by omega)),
        by simp, by simp, by simp, ?_, fun j hj => ?_⟩
      · simp [List.getElem?_eq_getElem (show i < ra.buf.length by omega),
          List.getElem?_eq_getElem (show i < rb.buf.length by omega),
          List.getElem?_eq_getElem (show i < rs.buf.length by omega), List.getElem?_mapIdx]
        omega
      · simp only [BitVec.getLsbD_xor, BitVec.getLsbD_and]
        cases (rs.buf[i]'(by omega)).getLsbD j <;> cases (ra.buf[i]'(by omega)).getLsbD j <;>
          cases (rb.buf[i]'(by omega)).getLsbD j <;> rfl
  · simp only [selectCompose, bind, Except.bind, zeros, hs]
  · simp only [selectCompose, bind, Except.bind, zeros, hs, ha]
  · simp only [selectCompose, bind, Except.bind, zeros, hs, ha, hb]

/-- A source that always delivers the bytes `b` (as far as they go) and keeps its state. -/
def constSource (σ : Type) (b : Byte) : Source σ where
  read p s := .ok (⟨List.replicate p.length b, p.length, none⟩, s)
  len_buf p s r s' h := by
    simp only [Except.ok.injEq, Prod.mk.injEq] at h
    rw [← h.1]; simp

/-- Non-vacuity of C20. -/
example : (selectCompose (constSource Unit 0x0f#8) (constSource Unit 0x33#8) (constSource Unit 0x55#8) (zeros 3) ()).map
    (·.1.buf) = .ok [0x35#8, 0x35#8, 0x35#8] := by rfl

/-! ### C21 -/

/-- A source that delivers exactly `b` to a read of that many bytes and zeroes otherwise. -/
def fixedSource (b : List Byte) : Source Unit where
  read p s := .ok (⟨if b.length = p.length then b else zeros p.length, p.length, none⟩, s)
  len_buf p s r s' h := by
    simp only [Except.ok.injEq, Prod.mk.injEq] at h
    rw [← h.1]
    by_cases hl : b.length = p.length
    · simp [hl]
    · simp [hl, zeros]

/-- C21: with `B`'s bytes held fixed, for every `n`-byte output there is exactly one `n`-byte string `a` which, when
delivered by `A`, gives that output (a bijection of `A`'s byte strings). -/
theorem C21_bijection (b : List Byte) (out : List Byte) (hl : out.length = b.length) (p : List Byte)
    (hp : p.length = b.length) :
    ∃! a : List Byte, a.length = b.length ∧
      xorCompose (fixedSource a) (fixedSource b) p () = .ok (⟨out, p.length, none⟩, ()) := by
  have key : ∀ a : List Byte, a.length = b.length → xorCompose (fixedSource a) (fixedSource b) p () =
      .ok (⟨List.zipWith (· ^^^ ·) a b, p.length, none⟩, ()) := by
    intro a ha
    have h1 : (fixedSource a).read p () = .ok (⟨a, p.length, none⟩, ()) := by
      simp only [fixedSource]; rw [if_pos (by omega)]
    have h2 : (fixedSource b).read (zeros p.length) () = .ok (⟨b, p.length, none⟩, ()) := by
      simp only [fixedSource, zeros_length]; rw [if_pos (by omega)]
    rw [xorCompose_ok h1 h2]
  refine ⟨List.zipWith (· ^^^ ·) out b, ⟨by simp [hl], ?_⟩, ?_⟩
  · rw [key _ (by simp [hl])]
    refine congrArg (fun q => Except.ok (ReadRes.mk q p.length none, ())) ?_
    apply List.ext_getElem
    · simp [hl]
    · intro i h1 h2
      simp [BitVec.xor_assoc]
  · rintro a ⟨ha, h⟩
    rw [key a ha] at h
    have hz : List.zipWith (· ^^^ ·) a b = out := by
      have := congrArg (fun r => match r with | Except.ok (r : ReadRes × Unit) => r.1.buf | .error _ => []) h
      exact this
    rw [← hz]
    apply List.ext_getElem
    · simp [ha]
    · intro i h1 h2
      simp [BitVec.xor_assoc]

/-- Two generators side by side: the source that is the left one, and the source that is the right one. -/
def Source.left {τ : Type} (A : Source σ) : Source (σ × τ) where
  read p s := (A.read p s.1).map fun r => (r.1, (r.2, s.2))
  len_buf p s r s' h := by
    cases hr : A.read p s.1 with
    | error e => rw [hr] at h; contradiction
    | ok v =>
      rw [hr] at h
      simp only [Except.map, Except.ok.injEq, Prod.mk.injEq] at h
      rw [← h.1]; exact A.len_buf p s.1 v.1 v.2 hr

def Source.right {τ : Type} (B : Source τ) : Source (σ × τ) where
  read p s := (B.read p s.2).map fun r => (r.1, (s.1, r.2))
  len_buf p s r s' h := by
    cases hr : B.read p s.2 with
    | error e => rw [hr] at h; contradiction
    | ok v =>
      rw [hr] at h
      simp only [Except.map, Except.ok.injEq, Prod.mk.injEq] at h
      rw [← h.1]; exact B.len_buf p s.2 v.1 v.2 hr

/-- `XorCompose{g, g.Copy()}`: every read gives zero bytes only, and both advance. -/
def CopyCancels (A : Source σ) (s : σ) : Prop :=
  ∀ p : List Byte, ∃ s', xorCompose (A.left (τ := σ)) A.right p (s, s) =
    .ok (⟨List.replicate p.length 0#8, p.length, none⟩, (s', s'))

theorem copyCancels_of {A : Source σ} {uint64 : σ → Go (U64 × σ)} {words : Nat → Nat} {s : σ}
    (h : ReadsStream uint64 A.read words s) : CopyCancels A s := by
  intro p
  obtain ⟨ws, s', hd, hl, hle, hr⟩ := h p
  obtain ⟨ws2, s'', hd2, hl2, hle2, hr2⟩ := h (zeros p.length)
  rw [zeros_length] at hd2 hr2
  rw [hd] at hd2
  simp only [Except.ok.injEq, Prod.mk.injEq] at hd2
  obtain ⟨rfl, rfl⟩ := hd2
  refine ⟨s', ?_⟩
  have h1 : (A.left (τ := σ)).read p (s, s) = .ok (⟨(bytesOf ws).take p.length, p.length, none⟩, (s', s)) := by
    simp only [Source.left, hr, Except.map]
  have h2 : (A.right (σ := σ)).read (zeros p.length) (s', s) =
      .ok (⟨(bytesOf ws).take p.length, p.length, none⟩, (s', s')) := by
    simp only [Source.right, hr2, Except.map]
  rw [xorCompose_ok h1 h2]
  refine congrArg (fun q => Except.ok (ReadRes.mk q p.length none, (s', s'))) ?_
  apply List.ext_getElem
  · simp only [List.length_zipWith, List.length_take, bytesOf_length, List.length_replicate]; omega
  · intro i h1 h2
    simp

theorem C21_copy_LFG (g : LFG) (h : Reachable LFG.methods.api LFG.new g) : CopyCancels LFG.source g :=
  copyCancels_of (C04_LFG g h)
theorem C21_copy_MT64 (g : MT64) : CopyCancels MT64.source g := copyCancels_of (C04_MT64 g)
theorem C21_copy_Xoroshiro (g : Xoroshiro) : CopyCancels Xoroshiro.source g := copyCancels_of (C04_Xoroshiro g)
theorem C21_copy_Rexoroshiro (g : Rexoroshiro) : CopyCancels Rexoroshiro.source g := copyCancels_of (C04_Rexoroshiro g)
theorem C21_copy_Xoshiro (g : Xoshiro) : CopyCancels Xoshiro.source g := copyCancels_of (C04_Xoshiro g)

end Crazy
