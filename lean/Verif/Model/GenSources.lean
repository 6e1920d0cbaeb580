/-
The five generators as `Source`s (`source.go` 5-10: their `Read` methods).
-/
import Verif.Model.LFG
import Verif.Model.MT64
import Verif.Model.Xoshiro
import Verif.Proofs.Stream
namespace Crazy

theorem readGt_length {σ : Type} {next : σ → Go (U64 × σ)} {p : List Byte} {s : σ} {q s'}
    (h : readGt next p s = .ok (q, s')) : q.length = p.length := by
  rw [readGt_eq] at h
  simp only [bind, Except.bind, pure, Except.pure] at h
  split at h
  · contradiction
  rename_i r hr
  have hl := draws_length (show draws next (wordsGt p.length) s = .ok (r.1, r.2) from hr)
  simp only [Except.ok.injEq, Prod.mk.injEq] at h
  rw [← h.1, List.length_take, bytesOf_length, hl]
  simp only [wordsGt]; omega

theorem readGt_len_buf {σ : Type} {next : σ → Go (U64 × σ)} {p : List Byte} {s : σ} {r : ReadRes} {s' : σ}
    (h : (do let (q, g) ← readGt next p s; return (ReadRes.mk q p.length none, g)) = (.ok (r, s') : Go (ReadRes × σ))) :
    r.buf.length = p.length := by
  simp only [bind, Except.bind, pure, Except.pure] at h
  split at h
  · contradiction
  rename_i q hq
  simp only [Except.ok.injEq, Prod.mk.injEq] at h
  rw [← h.1]
  exact readGt_length (show readGt next p s = .ok (q.1, q.2) from hq)

/-- `lfg.go` 75-87. -/
def LFG.source : Source LFG where
  read := LFG.read
  len_buf _ _ _ _ h := readGt_len_buf h

/-- `mt64-19937.go` 110-122. -/
def MT64.source : Source MT64 where
  read := MT64.read
  len_buf _ _ _ _ h := readGt_len_buf h

/-- `xoroshiro.go` 173-184. -/
def Rexoroshiro.source : Source Rexoroshiro where
  read := Rexoroshiro.read
  len_buf _ _ _ _ h := readGt_len_buf h

/-- `xoshiro.go` 253-265. -/
def Xoshiro.source : Source Xoshiro where
  read := Xoshiro.read
  len_buf _ _ _ _ h := readGt_len_buf h

/-- `xoroshiro.go` 94-106. -/
def Xoroshiro.source : Source Xoroshiro where
  read := Xoroshiro.read
  len_buf p s r s' h := by
    simp only [Xoroshiro.read, xoroReadBytes_eq, bind, Except.bind, pure, Except.pure] at h
    split at h
    · contradiction
    rename_i q hq
    split at hq
    · contradiction
    rename_i w hw
    have hl := draws_length (show draws _ _ s = .ok (w.1, w.2) from hw)
    simp only [Except.ok.injEq, Prod.mk.injEq] at h hq
    rw [← h.1]
    simp only []
    rw [← hq]
    simp only [List.length_take, bytesOf_length, hl]
    omega

end Crazy
