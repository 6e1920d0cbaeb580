/-
C79, continued: `MT64.SeedIV` is not the published `init_by_array64`.
-/
import Verif.Props.MtArray
namespace Crazy
namespace MTRef

/-- `k v`, written so that the kernel evaluates `v` first. -/
def force {α : Type} (v : Nat) (k : Nat → α) : α := Nat.rec (k 0) (fun m _ => k (m + 1)) v

theorem force_eq {α : Type} (v : Nat) (k : Nat → α) : force v k = k v := by cases v <;> rfl

/-- Word `n` of `arr` from the list of the words before it, the last first. -/
def arrVal (mix : U64 → U64 → U64 → U64) (key : List U64) (n1 n : Nat) (l : List U64) : U64 :=
  if n < 311 then
    let p := if n = 0 then 19650218#64 else l.getD 0 0#64
    6364136223846793005#64 * (p ^^^ (p >>> 62)) + BitVec.ofNat 64 (n + 1)
  else
    let old := l.getD 310 0#64
    let prev := if n = 311 then 19650218#64 else l.getD 0 0#64
    let j := (n - 311) % key.length
    if n - 311 < n1 then mix 3935559000370003845#64 old prev + key.getD j 0#64 + BitVec.ofNat 64 j
    else mix 2862933555777941757#64 old prev - BitVec.ofNat 64 (1 + n % 311)

/-- The words up to number `N`, the last first. -/
def arrRun (mix : U64 → U64 → U64 → U64) (key : List U64) (n1 N : Nat) : Nat → List U64 → List U64
  | 0, l => l
  | f + 1, l => force (arrVal mix key n1 (N - 1 - f) l).toNat fun v => arrRun mix key n1 N f (BitVec.ofNat 64 v :: l)

/-- The words before number `n`, the last first. -/
def arrBack (mix : U64 → U64 → U64 → U64) (key : List U64) (n1 : Nat) : Nat → List U64
  | 0 => []
  | n + 1 => arr mix key n1 n :: arrBack mix key n1 n

theorem arrBack_get (mix : U64 → U64 → U64 → U64) (key : List U64) (n1 n k : Nat) (h : k < n) :
    (arrBack mix key n1 n).getD k 0#64 = arr mix key n1 (n - 1 - k) := by
  induction n generalizing k with
  | zero => omega
  | succ n ih =>
    cases k with
    | zero => rfl
    | succ k =>
      rw [arrBack, List.getD_cons_succ, ih k (by omega)]
      exact congrArg _ (by omega)

theorem x_zero : x 19650218#64 0 = 19650218#64 := by rw [x, if_pos rfl]

theorem arrVal_eq (mix : U64 → U64 → U64 → U64) (key : List U64) (n1 n : Nat) :
    arrVal mix key n1 n (arrBack mix key n1 n) = arr mix key n1 n := by
  unfold arrVal
  by_cases h : n < 311
  · rw [if_pos h, arr, dif_pos h, x.eq_def 19650218#64 (n + 1), if_neg (show ¬ n + 1 = 0 by omega), if_pos (show n + 1 < 312 by omega), Nat.add_sub_cancel]
    simp only []
    by_cases h0 : n = 0
    · subst h0
      rw [if_pos rfl, x_zero]
    · rw [if_neg h0, arrBack_get _ _ _ _ _ (by omega), arr, dif_pos (by omega), show n - 1 - 0 + 1 = n by omega]
  · rw [if_neg h, arr, dif_neg h]
    simp only []
    have e1 : (arrBack mix key n1 n).getD 310 0#64 = arr mix key n1 (n - 311) := by
      rw [arrBack_get _ _ _ _ _ (by omega)]
      exact congrArg _ (by omega)
    have e2 : (arrBack mix key n1 n).getD 0 0#64 = arr mix key n1 (n - 1) := arrBack_get _ _ _ _ _ (by omega)
    rw [e1, e2, x_zero]

theorem arrRun_eq (mix : U64 → U64 → U64 → U64) (key : List U64) (n1 N f : Nat) (h : f ≤ N) :
    arrRun mix key n1 N f (arrBack mix key n1 (N - f)) = arrBack mix key n1 N := by
  induction f with
  | zero => rfl
  | succ f ih =>
    rw [arrRun, force_eq, show N - (f + 1) = N - 1 - f by omega, arrVal_eq, BitVec.ofNat_toNat, BitVec.setWidth_eq]
    have e : arr mix key n1 (N - 1 - f) :: arrBack mix key n1 (N - 1 - f) = arrBack mix key n1 (N - f) := by
      rw [show N - f = (N - 1 - f) + 1 by omega]
      rfl
    rw [e, ih (by omega)]

theorem arr_run (mix : U64 → U64 → U64 → U64) (key : List U64) (n1 N k : Nat) (h : k < N) :
    arr mix key n1 k = (arrRun mix key n1 N N []).getD (N - 1 - k) 0#64 := by
  have := arrRun_eq mix key n1 N N (Nat.le_refl N)
  rw [Nat.sub_self] at this
  rw [show ([] : List U64) = arrBack mix key n1 0 from rfl, this, arrBack_get _ _ _ _ _ (by omega)]
  exact congrArg _ (by omega)

/-- The key of the published test program. -/
def testKey : List U64 := [0x12345#64, 0x23456#64, 0x34567#64, 0x45678#64]

/-- Three of the words, after looking at the list once. -/
def pick : List U64 → U64 × U64 × U64
  | a :: b :: r => (b, a, r.getD 154 0#64)
  | _ => (0#64, 0#64, 0#64)

theorem pick_eq (l : List U64) (h : 2 ≤ l.length) : pick l = (l.getD 1 0#64, l.getD 0 0#64, l.getD 156 0#64) := by
  match l, h with
  | a :: b :: r, _ => rfl

theorem run_code : pick (arrRun mixCode testKey 312 934 934 []) =
    (17538996868078938856#64, 2312828227043108160#64, 3539495868653479910#64) := by
  decide +kernel

theorem run_pub : pick (arrRun mixPub testKey 312 934 934 []) =
    (9341456266356607437#64, 11906848963885322876#64, 1094714902621613987#64) := by
  decide +kernel

theorem arrBack_length (mix : U64 → U64 → U64 → U64) (key : List U64) (n1 n : Nat) : (arrBack mix key n1 n).length = n := by
  induction n with
  | zero => rfl
  | succ n ih => rw [arrBack, List.length_cons, ih]

theorem arr_pick (mix : U64 → U64 → U64 → U64) (key : List U64) (n1 N : Nat) (h : 157 ≤ N) (a b c : U64)
    (hp : pick (arrRun mix key n1 N N []) = (a, b, c)) :
    arr mix key n1 (N - 2) = a ∧ arr mix key n1 (N - 1) = b ∧ arr mix key n1 (N - 157) = c := by
  have := arrRun_eq mix key n1 N N (Nat.le_refl N)
  rw [Nat.sub_self, show arrBack mix key n1 0 = [] from rfl] at this
  rw [this, pick_eq _ (by rw [arrBack_length]; omega), arrBack_get _ _ _ _ _ (by omega), arrBack_get _ _ _ _ _ (by omega),
    arrBack_get _ _ _ _ _ (by omega), Prod.mk.injEq, Prod.mk.injEq] at hp
  rw [show N - 1 - 1 = N - 2 by omega, show N - 1 - 0 = N - 1 by omega, show N - 1 - 156 = N - 157 by omega] at hp
  exact hp

theorem arr_code : arr mixCode testKey 312 932 = 17538996868078938856#64 ∧ arr mixCode testKey 312 933 = 2312828227043108160#64 ∧
    arr mixCode testKey 312 777 = 3539495868653479910#64 := by
  have h := arr_pick _ _ _ 934 (by decide) _ _ _ run_code
  rw [show 934 - 2 = 932 from rfl, show 934 - 1 = 933 from rfl, show 934 - 157 = 777 from rfl] at h
  exact h

theorem arr_pub : arr mixPub testKey 312 933 = 11906848963885322876#64 ∧ arr mixPub testKey 312 777 = 1094714902621613987#64 := by
  have h := arr_pick _ _ _ 934 (by decide) _ _ _ run_pub
  rw [show 934 - 2 = 932 from rfl, show 934 - 1 = 933 from rfl, show 934 - 157 = 777 from rfl] at h
  exact h.2

theorem gen_312 (w : Nat → U64) : gen w 312 =
    w 156 ^^^ (if ((w 0).extractLsb' 31 33 ++ (w 1).extractLsb' 0 31 : BitVec 64).getLsbD 0 then
      (((w 0).extractLsb' 31 33 ++ (w 1).extractLsb' 0 31 : BitVec 64) >>> 1) ^^^ 0xB5026F5AA96619E9#64
      else ((w 0).extractLsb' 31 33 ++ (w 1).extractLsb' 0 31 : BitVec 64) >>> 1) := by
  rw [gen, if_neg (by decide), gen.eq_def w (312 - 312), gen.eq_def w (312 - 311), gen.eq_def w (312 - 156), if_pos (by decide),
    if_pos (by decide), if_pos (by decide)]

/-- The sequence of Spec/MTSeed.lean for the published function has the first number of the published test output. -/
theorem pub_first : temper (gen (pubWords testKey) 312) = 7266447313870364031#64 := by
  have e1 : pubWords testKey 1 = 11906848963885322876#64 := by
    have e : max 312 testKey.length = 312 := by decide
    unfold pubWords
    rw [e]
    simp only []
    rw [if_neg (by decide)]
    exact (congrArg _ (by decide)).trans arr_pub.1
  have e2 : pubWords testKey 156 = 1094714902621613987#64 := by
    have e : max 312 testKey.length = 312 := by decide
    unfold pubWords
    rw [e]
    simp only []
    rw [if_neg (by decide)]
    exact (congrArg _ (by decide)).trans arr_pub.2
  have e0 : pubWords testKey 0 = 0x8000000000000000#64 := rfl
  rw [gen_312, e0, e1, e2]
  decide +kernel

end MTRef

/-- C79: seeding with the key 0x12345, 0x23456, 0x34567, 0x45678 of the published test program is not what the published `init_by_array64` is:
the first output is 466416663805837154, and the published one 7266447313870364031. -/
theorem C79_not_published (g : MT64) : ∃ s t, g.seedIV (bytesOf MTRef.testKey) = .ok s ∧ s.uint64 = .ok (466416663805837154#64, t) ∧
    MTRef.temper (MTRef.gen (MTRef.pubWords MTRef.testKey) 312) = 7266447313870364031#64 := by
  have hz : bytesOf MTRef.testKey ++ List.replicate ((8 - (bytesOf MTRef.testKey).length % 8) % 8) 0#8 = bytesOf MTRef.testKey := by
    rw [bytesOf_length, Nat.mul_mod_right]
    exact List.append_nil _
  have hn : bytesOf MTRef.testKey ≠ [] := by
    intro h
    have := congrArg List.length h
    rw [bytesOf_length] at this
    exact absurd this (by decide)
  have hm : max 312 (8 * MTRef.testKey.length) = 312 := by decide
  obtain ⟨s, w, h1, h2, h3, h4⟩ := C79_MT64_words (bytesOf MTRef.testKey) hn MTRef.testKey hz g
  rw [hm] at h4
  obtain ⟨t, h5⟩ := C79_MT64_outputs s w h2 1
  have e1 := h4 933 (by decide) (by decide)
  have e0 := h4 932 (by decide) (by decide)
  have e2 := h4 777 (by decide) (by decide)
  rw [MTRef.arr_code.2.1, show 1 + 933 % 311 = 1 by decide] at e1
  rw [MTRef.arr_code.1, show 1 + 932 % 311 = 311 by decide] at e0
  rw [MTRef.arr_code.2.2, show 1 + 777 % 311 = 156 by decide] at e2
  rw [e0] at h3
  have e : MTRef.temper (MTRef.gen w 312) = 466416663805837154#64 := by
    rw [MTRef.gen_312, h3, e1, e2]
    decide +kernel
  refine ⟨s, t, h1, ?_, MTRef.pub_first⟩
  rw [show List.range 1 = [0] from rfl, List.map_cons, List.map_nil, Nat.add_zero, e, draws] at h5
  clear h1 h2 h3 h4 e0 e1 e2 e
  cases hu : s.uint64 with
  | error z => rw [hu] at h5; exact absurd h5 (by intro h; cases h)
  | ok p =>
    rw [hu] at h5
    obtain ⟨a, b⟩ := p
    simp only [bind, Except.bind, draws, pure, Except.pure, Except.ok.injEq, Prod.mk.injEq, List.cons.injEq, and_true] at h5
    rw [h5.1, h5.2]

end Crazy
