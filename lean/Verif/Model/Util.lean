/-
Model of `util.go`: composed sources, adapters, shuffles, seeding helpers. (`RandString` is in `RandString.lean`, the
yielders are in `Yield.lean`.)
-/
import Verif.Model.RNG
import Verif.Model.GenSources
namespace Crazy

variable {σ : Type}

/-- `p[i]` on a byte slice; panics when out of range. -/
def bget (p : List Byte) (i : Nat) : Go Byte :=
  match p[i]? with
  | some b => .ok b
  | none => .error .index

/-- `p[i] = x` on a byte slice; panics when out of range. -/
def bset (p : List Byte) (i : Nat) (x : Byte) : Go (List Byte) :=
  if i < p.length then .ok (p.set i x) else .error .index

/-! ### Composed sources -/

/-- `util.go` 14-23: `XorCompose.Read`. `A` and `B` live in the same world, so they may be (or share) the same source.
`len(p)` cannot exceed what `make` accepts, as `p` itself exists. -/
def xorCompose (A B : Source σ) (p : List Byte) (s : σ) : Go (ReadRes × σ) := do
  let buf := zeros p.length
  let (ra, s) ← A.read p s
  let p := ra.buf
  let (rb, s) ← B.read buf s
  let buf := rb.buf
  let p ← forRange (fun i v p => do
    let x ← bget p i
    bset p i (x ^^^ v)) 0 buf p
  return (⟨p, p.length, none⟩, s)

/-- `util.go` 31-41: `SelectCompose.Read`. -/
def selectCompose (S A B : Source σ) (p : List Byte) (s : σ) : Go (ReadRes × σ) := do
  let sb := zeros p.length
  let b := zeros p.length
  let (rs, s) ← S.read sb s
  let sb := rs.buf
  let (ra, s) ← A.read p s
  let p := ra.buf
  let (rb, s) ← B.read b s
  let b := rb.buf
  let p ← forIdx p.length (fun i p => do
    let x ← bget p i
    let y ← bget b i
    let z ← bget sb i
    bset p i (x ^^^ ((x ^^^ y) &&& z))) p
  return (⟨p, p.length, none⟩, s)

/-! ### Adapters -/

/-- An interface value as far as the adapters can see it: which of the five methods its dynamic type has (`none`: it
lacks the method), acting on a world `σ`. `int64` arguments and results are bit patterns. -/
structure Obj (σ : Type) where
  read? : Option (List Byte → σ → Go (ReadRes × σ))
  seedIV? : Option (List Byte → σ → Go σ)
  int63? : Option (σ → Go (U64 × σ))
  uint64? : Option (σ → Go (U64 × σ))
  seed? : Option (U64 → σ → Go σ)
  /-- a `Read` method cannot change the length of the caller's slice -/
  len_buf : ∀ f, read? = some f → ∀ p s r s', f p s = .ok (r, s') → r.buf.length = p.length

namespace Obj

/-- `source.go` 12-19: the type has the methods of `Seeder`. -/
def IsSeeder (o : Obj σ) : Prop := o.read?.isSome ∧ o.seedIV?.isSome
/-- `math/rand.Source`: the type has `Int63` and `Seed`. -/
def IsSource (o : Obj σ) : Prop := o.int63?.isSome ∧ o.seed?.isSome
/-- `math/rand.Source64`: the type has `Int63`, `Seed` and `Uint64`. -/
def IsSource64 (o : Obj σ) : Prop := o.IsSource ∧ o.uint64?.isSome

instance (o : Obj σ) : Decidable o.IsSeeder := inferInstanceAs (Decidable (_ ∧ _))
instance (o : Obj σ) : Decidable o.IsSource := inferInstanceAs (Decidable (_ ∧ _))
instance (o : Obj σ) : Decidable o.IsSource64 := inferInstanceAs (Decidable ((_ ∧ _) ∧ _))

/-- Calling a method of an interface value. A missing method cannot be called in Go (the compiler refuses); the model
then answers with an error that no Go panic corresponds to. -/
def noMethod {α : Type} : Go α := .error (.explicit "no such method")

def int63 (o : Obj σ) (s : σ) : Go (U64 × σ) := match o.int63? with | some f => f s | none => noMethod
def uint64 (o : Obj σ) (s : σ) : Go (U64 × σ) := match o.uint64? with | some f => f s | none => noMethod
def seed (o : Obj σ) (x : U64) (s : σ) : Go σ := match o.seed? with | some f => f x s | none => noMethod
def seedIV (o : Obj σ) (iv : List Byte) (s : σ) : Go σ := match o.seedIV? with | some f => f iv s | none => noMethod
def read (o : Obj σ) (p : List Byte) (s : σ) : Go (ReadRes × σ) := match o.read? with | some f => f p s | none => noMethod

/-- The value as a `Source`. -/
def toSource (o : Obj σ) : Source σ where
  read := o.read
  len_buf p s r s' h := by
    unfold read at h
    cases hf : o.read? with
    | none => rw [hf] at h; contradiction
    | some f => rw [hf] at h; exact o.len_buf f hf p s r s' h

end Obj

/-- `util.go` 81 and 85: the words `math2crazy.Read` uses: for every full word before the last one
`uint64(m.Int63() ^ m.Int63()<<1)`, for the last one `uint64(m.Int63())`. The first call's result is the left operand.
The body of the `Read` methods, written like `readGt` with different words for the two uses. -/
def readMath (int63 : σ → Go (U64 × σ)) : List Byte → σ → Go (List Byte × σ)
  | _ :: _ :: _ :: _ :: _ :: _ :: _ :: _ :: b8 :: p, s => do
    let (x, s) ← int63 s
    let (y, s) ← int63 s
    let (q, s) ← readMath int63 (b8 :: p) s
    return (le64 (x ^^^ (y <<< 1)) ++ q, s)
  | p, s => do
    let (x, s) ← int63 s
    return (copyInto p (le64 x), s)

theorem readMath_length (int63 : σ → Go (U64 × σ)) (p : List Byte) (s : σ) (q : List Byte) (s' : σ)
    (h : readMath int63 p s = .ok (q, s')) : q.length = p.length := by
  induction p, s using readMath.induct generalizing q s' with
  | case1 _ _ _ _ _ _ _ _ b8 p s ih =>
    simp only [readMath, bind, Except.bind, pure, Except.pure] at h
    split at h
    · contradiction
    split at h
    · contradiction
    split at h
    · contradiction
    rename_i x hx
    simp only [Except.ok.injEq, Prod.mk.injEq] at h
    rw [← h.1, List.length_append, le64_length, ih _ x.1 x.2 hx]
    simp only [List.length_cons]
    omega
  | case2 p s hp =>
    rw [readMath] at h
    · simp only [bind, Except.bind, pure, Except.pure] at h
      split at h
      · contradiction
      simp only [Except.ok.injEq, Prod.mk.injEq] at h
      rw [← h.1, copyInto_length]
    · exact hp

/-- `util.go` 102-112: `SeedIV` of both `math/rand` adapters. -/
def mathSeedIV (seed : U64 → σ → Go σ) (iv : List Byte) (s : σ) : Go σ := do
  let b := copyInto (zeros 8) iv
  seed (← u64le b) s

/-- `util.go` 44-46, 78-88, 102-106: `math2crazy{src}`. The struct embeds the interface `mathrand.Source`, so only
`Int63` and `Seed` are promoted. -/
def math2crazy (src : Obj σ) : Obj σ where
  read? := some fun p s => do
    let (q, s) ← readMath src.int63 p s
    return (⟨q, p.length, none⟩, s)
  seedIV? := some (mathSeedIV src.seed)
  int63? := some src.int63
  uint64? := none
  seed? := some src.seed
  len_buf f hf p s r s' h := by
    simp only [Option.some.injEq] at hf
    subst hf
    simp only [bind, Except.bind, pure, Except.pure] at h
    split at h
    · contradiction
    rename_i v hv
    simp only [Except.ok.injEq, Prod.mk.injEq] at h
    rw [← h.1]
    exact readMath_length _ _ _ v.1 v.2 hv

/-- `util.go` 48-50, 90-100, 108-112: `math642crazy{src}`; `Int63`, `Uint64` and `Seed` are promoted. -/
def math642crazy (src : Obj σ) : Obj σ where
  read? := some fun p s => do
    let (q, s) ← readGt src.uint64 p s
    return (⟨q, p.length, none⟩, s)
  seedIV? := some (mathSeedIV src.seed)
  int63? := some src.int63
  uint64? := some src.uint64
  seed? := some src.seed
  len_buf f hf p s r s' h := by
    simp only [Option.some.injEq] at hf
    subst hf
    exact readGt_len_buf h

/-- `util.go` 53-68: `AdaptRand`. -/
def adaptRand (src : Obj σ) : Obj σ :=
  if src.IsSeeder then src
  else if src.IsSource64 then math642crazy src
  else math2crazy src

/-- `util.go` 70-76: `AdaptRand64`. -/
def adaptRand64 (src : Obj σ) : Obj σ :=
  if src.IsSeeder then src else math642crazy src

/-- `util.go` 225-231: `SeedInt64`. -/
def seedInt64 (src : Obj σ) (x : U64) (s : σ) : Go σ := do
  let b ← putU64 (zeros 8) x
  src.seedIV b s

/-- `util.go` 114-116, 127-137: `crazy2math{src}`. The struct embeds the interface `Seeder`, so `Read` and `SeedIV` are
promoted. -/
def crazy2math (src : Obj σ) : Obj σ where
  read? := some src.read
  seedIV? := some src.seedIV
  int63? := some fun s => do
    let (x, s) ← RNG.uint64 src.toSource s
    return (x >>> 1, s)
  uint64? := some (RNG.uint64 src.toSource)
  seed? := some (seedInt64 src)
  len_buf f hf p s r s' h := by
    simp only [Option.some.injEq] at hf
    subst hf
    exact src.toSource.len_buf p s r s' h

/-- `util.go` 118-125: `AdaptCrazy`. -/
def adaptCrazy (src : Obj σ) : Obj σ :=
  if src.IsSource64 then src else crazy2math src

/-- `util.go` 233-240: `CryptoSeeded`, with `crypto/rand.Reader` as a source of the same world. It returns `src`. -/
def cryptoSeeded (crypto : Source σ) (src : Obj σ) (n : Int) (s : σ) : Go (Obj σ × σ) := do
  if n < 0 then .error .makeslice
  let iv ← RNG.makeBytes n.toNat
  let (r, s) ← crypto.read iv s
  let s ← src.seedIV r.buf s
  return (src, s)

/-! ### Shuffles -/

/-- `util.go` 152-157: a `Swapper`. -/
structure Swapper (δ : Type) where
  len : δ → Go (Int × δ)
  swap : Int → Int → δ → Go δ

/-- `util.go` 159-165: `Shuffle`; `fuel` bounds the rejected draws of each `Uintn` call. Simplification: the data and
the random source do not share state. -/
def shuffle {δ : Type} (data : Swapper δ) (src : Source σ) (fuel : Nat) (d : δ) (s : σ) : Go (δ × σ) := do
  let (n, d) ← data.len d
  forIdx n.toNat (fun i (d, s) => do
    let (k, s) ← RNG.uintn src fuel (BitVec.ofInt 64 n) s
    let d ← data.swap i k.toInt d
    return (d, s)) (d, s)

/-- `data[i]` on a slice; panics when out of range. -/
def lget {α : Type} (p : List α) (i : Int) : Go α :=
  if i < 0 then .error .index
  else match p[i.toNat]? with
    | some b => .ok b
    | none => .error .index

/-- `data[i] = x` on a slice; panics when out of range. -/
def lset {α : Type} (p : List α) (i : Int) (x : α) : Go (List α) :=
  if 0 ≤ i ∧ i < p.length then .ok (p.set i.toNat x) else .error .index

/-- `util.go` 167-189: `ShuffleFloat64s`, `ShuffleInts` and `ShuffleStrings`, which differ only in the element type. In
`data[i], data[k] = data[k], data[i]` both elements are read before either is written. -/
def shuffleSlice {α : Type} (src : Source σ) (fuel : Nat) (data : List α) (s : σ) : Go (List α × σ) :=
  forIdx data.length (fun i (d, s) => do
    let (k, s) ← RNG.intn src fuel data.length s
    let x ← lget d k
    let y ← lget d i
    let d ← lset d i x
    let d ← lset d k y
    return (d, s)) (data, s)

end Crazy
