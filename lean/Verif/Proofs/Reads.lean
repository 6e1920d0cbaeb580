/-
Functions that read at most a given number of words from the front of a tape and leave the others; successive such functions act
on independent words.
-/
import Verif.Spec.Trials
import Verif.Proofs.Prob
import Verif.Model.Distr
import Verif.Model.RandString
namespace Crazy

/-- `f` reads at most `m` words from the front of the tape, and what it does depends on these only. -/
structure Reads {α : Type} (m : Nat) (f : List U64 → Go (α × List U64)) : Prop where
  ext : ∀ p r, f p = .ok (r, []) → ∀ v, f (p ++ v) = .ok (r, v)
  cut : ∀ w r rest, f w = .ok (r, rest) → ∃ p, p.length ≤ m ∧ w = p ++ rest ∧ f p = .ok (r, [])

namespace Reads

variable {α β : Type}

theorem mono {m m' : Nat} {f : List U64 → Go (α × List U64)} (h : Reads m f) (hm : m ≤ m') : Reads m' f where
  ext := h.ext
  cut w r rest e := by
    obtain ⟨p, h1, h2⟩ := h.cut w r rest e
    exact ⟨p, h1.trans hm, h2⟩

theorem error (e : Panic) : Reads 0 (fun _ : List U64 => (.error e : Go (α × List U64))) where
  ext _ _ h := by cases h
  cut _ _ _ h := by cases h

theorem pure (a : α) : Reads 0 (fun s : List U64 => (.ok (a, s) : Go (α × List U64))) where
  ext p r h v := by
    simp only [Except.ok.injEq, Prod.mk.injEq] at h
    rw [h.1, h.2]
    rfl
  cut w r rest h := by
    simp only [Except.ok.injEq, Prod.mk.injEq] at h
    refine ⟨[], Nat.le_refl _, h.2, ?_⟩
    rw [h.1]

theorem bind {m k : Nat} {f : List U64 → Go (α × List U64)} {g : α → List U64 → Go (β × List U64)} (hf : Reads m f)
    (hg : ∀ a, Reads k (g a)) : Reads (m + k) (fun s => f s >>= fun q => g q.1 q.2) where
  ext p r h v := by
    cases e : f p with
    | error x => simp only [e, Bind.bind, Except.bind] at h; cases h
    | ok q =>
      obtain ⟨a, rest⟩ := q
      simp only [e, Bind.bind, Except.bind] at h
      obtain ⟨p1, -, h2, h3⟩ := hf.cut p a rest e
      have h4 := hf.ext p1 a h3 (rest ++ v)
      rw [← List.append_assoc, ← h2] at h4
      simp only [h4, Bind.bind, Except.bind]
      exact (hg a).ext rest r h v
  cut w r rest h := by
    cases e : f w with
    | error x => simp only [e, Bind.bind, Except.bind] at h; cases h
    | ok q =>
      obtain ⟨a, w1⟩ := q
      simp only [e, Bind.bind, Except.bind] at h
      obtain ⟨p1, h1, h2, h3⟩ := hf.cut w a w1 e
      obtain ⟨p2, k1, k2, k3⟩ := (hg a).cut w1 r rest h
      refine ⟨p1 ++ p2, by rw [List.length_append]; omega, by rw [h2, k2, List.append_assoc], ?_⟩
      have h4 := hf.ext p1 a h3 p2
      simp only [h4, Bind.bind, Except.bind]
      exact k3

theorem map {m : Nat} {f : List U64 → Go (α × List U64)} (hf : Reads m f) (g : α → β) :
    Reads m (fun s => f s >>= fun q => .ok (g q.1, q.2)) :=
  hf.bind (k := 0) fun a => Reads.pure (g a)

/-- With `m` words it has all it will ever read. -/
theorem returns_iff {m : Nat} {f : List U64 → Go (α × List U64)} (hf : Reads m f) (P : α → Prop) (w v : List U64) (hw : w.length = m) :
    (∃ r rest, f (w ++ v) = .ok (r, rest) ∧ P r) ↔ ∃ r rest, f w = .ok (r, rest) ∧ P r := by
  constructor
  · rintro ⟨r, rest, h, hP⟩
    obtain ⟨p, h1, h2, h3⟩ := hf.cut _ _ _ h
    have h4 : p <+: w := List.prefix_of_prefix_length_le ⟨rest, h2.symm⟩ (List.prefix_append w v) (by omega)
    obtain ⟨q, rfl⟩ := h4
    exact ⟨r, q, hf.ext p r h3 q, hP⟩
  · rintro ⟨r, rest, h, hP⟩
    obtain ⟨p, h1, h2, h3⟩ := hf.cut _ _ _ h
    rw [h2, List.append_assoc]
    exact ⟨r, _, hf.ext p r h3 _, hP⟩

end Reads

/-- The first word is drawn independently of the others. -/
theorem prob_append (m k : Nat) (P : List U64 → Prop) (h : ∀ w v, w.length = m → (P (w ++ v) ↔ P w)) : prob (m + k) P = prob m P := by
  induction m generalizing P with
  | zero =>
    have h0 : ∀ v, P v ↔ P [] := fun v => h [] v rfl
    by_cases hp : P []
    · rw [prob_congr (Q := fun _ => True) fun t _ => ⟨fun _ => trivial, fun _ => (h0 t).mpr hp⟩, prob_true,
        prob_congr (Q := fun _ => True) fun t _ => ⟨fun _ => trivial, fun _ => (h0 t).mpr hp⟩, prob_true]
    · rw [prob_congr (Q := fun _ => False) fun t _ => ⟨fun q => hp ((h0 t).mp q), False.elim⟩, prob_false,
        prob_congr (Q := fun _ => False) fun t _ => ⟨fun q => hp ((h0 t).mp q), False.elim⟩, prob_false]
  | succ m ih =>
    rw [Nat.add_right_comm, prob_succ, prob_succ]
    exact avg_congr fun x _ => ih _ fun w v hw => h (BitVec.ofNat 64 x :: w) v (by simp [hw])

/-- What is drawn by `f` and what is done with the words it leaves are independent. -/
theorem Reads.indep {α : Type} (m k : Nat) (f : List U64 → Go (α × List U64)) (hf : Reads m f) (P : α → Prop) (Q : List U64 → Prop)
    (hQ : ∀ w v, w.length = k → (Q (w ++ v) ↔ Q w)) :
    prob (m + k) (fun w => ∃ r rest, f w = .ok (r, rest) ∧ P r ∧ Q rest) =
      prob m (fun w => ∃ r rest, f w = .ok (r, rest) ∧ P r) * prob k Q := by
  induction m generalizing f with
  | zero =>
    rw [Nat.zero_add]
    cases e : f [] with
    | ok q =>
      obtain ⟨r, rest⟩ := q
      obtain ⟨p, h1, h2, h3⟩ := hf.cut _ _ _ e
      have hall : ∀ w, f w = .ok (r, w) := fun w => by
        have := hf.ext p r h3 w
        rwa [List.length_eq_zero_iff.mp (Nat.le_zero.mp h1)] at this
      by_cases hP : P r
      · rw [prob_congr (P := fun w => ∃ r rest, f w = .ok (r, rest) ∧ P r) (Q := fun _ => True) fun t _ =>
            ⟨fun _ => trivial, fun _ => ⟨r, t, hall t, hP⟩⟩, prob_true, one_mul]
        refine prob_congr fun t _ => ⟨?_, fun h => ⟨r, t, hall t, hP, h⟩⟩
        rintro ⟨r', rest', h, -, hq⟩
        rw [hall t, Except.ok.injEq, Prod.mk.injEq] at h
        rwa [h.2]
      · rw [prob_congr (P := fun w => ∃ r rest, f w = .ok (r, rest) ∧ P r) (Q := fun _ => False) fun t _ => ⟨?_, False.elim⟩, prob_false,
          zero_mul, prob_congr (Q := fun _ => False) fun t _ => ⟨?_, False.elim⟩, prob_false]
        · rintro ⟨r', rest', h, h2, -⟩
          rw [hall t, Except.ok.injEq, Prod.mk.injEq] at h
          rw [h.1] at hP
          exact hP h2
        · rintro ⟨r', rest', h, h2⟩
          rw [hall t, Except.ok.injEq, Prod.mk.injEq] at h
          rw [h.1] at hP
          exact hP h2
    | error x =>
      have hno : ∀ w r rest, f w ≠ .ok (r, rest) := by
        intro w r rest h
        obtain ⟨p, h1, h2, h3⟩ := hf.cut _ _ _ h
        rw [List.length_eq_zero_iff.mp (Nat.le_zero.mp h1), e] at h3
        cases h3
      rw [prob_congr (P := fun w => ∃ r rest, f w = .ok (r, rest) ∧ P r) (Q := fun _ => False) fun t _ => ⟨?_, False.elim⟩, prob_false,
          zero_mul, prob_congr (Q := fun _ => False) fun t _ => ⟨?_, False.elim⟩, prob_false]
      · rintro ⟨r', rest', h, -⟩; exact hno _ _ _ h
      · rintro ⟨r', rest', h, -⟩; exact hno _ _ _ h
  | succ m ih =>
    cases e : f [] with
    | ok q =>
      obtain ⟨r, rest⟩ := q
      obtain ⟨p, h1, h2, h3⟩ := hf.cut _ _ _ e
      have hp : p = [] := by
        have := congrArg List.length h2
        rw [List.length_append, List.length_nil] at this
        exact List.length_eq_zero_iff.mp (by omega)
      have h0 : Reads m f := {
        ext := hf.ext
        cut := fun w r' rest' h => by
          have := hf.ext p r h3 w
          rw [hp, List.nil_append, h, Except.ok.injEq, Prod.mk.injEq] at this
          refine ⟨[], Nat.zero_le _, by rw [this.2]; rfl, ?_⟩
          rw [this.1]
          rw [hp] at h3
          exact h3 }
      have hl := ih f h0
      have e1 : prob (m + 1 + k) (fun w => ∃ r rest, f w = .ok (r, rest) ∧ P r ∧ Q rest) =
          prob (m + k) (fun w => ∃ r rest, f w = .ok (r, rest) ∧ P r ∧ Q rest) := by
        rw [Nat.add_right_comm]
        refine prob_append (m + k) 1 _ fun w v hw => ?_
        have hall : ∀ w, f w = .ok (r, w) := fun w => by
          have := hf.ext p r h3 w
          rwa [hp] at this
        have : ∀ w, (∃ r rest, f w = .ok (r, rest) ∧ P r ∧ Q rest) ↔ P r ∧ Q w := by
          intro w
          constructor
          · rintro ⟨r', rest', h, h5⟩
            rw [hall w, Except.ok.injEq, Prod.mk.injEq] at h
            rw [h.1, h.2]
            exact h5
          · exact fun h => ⟨r, w, hall w, h⟩
        rw [this, this]
        refine and_congr_right fun _ => ?_
        have hk : w = w.take k ++ w.drop k := (List.take_append_drop k w).symm
        have hlk : (w.take k).length = k := by rw [List.length_take]; omega
        rw [hk, List.append_assoc, hQ _ _ hlk, hQ _ _ hlk]
      have e2 : prob (m + 1) (fun w => ∃ r rest, f w = .ok (r, rest) ∧ P r) = prob m (fun w => ∃ r rest, f w = .ok (r, rest) ∧ P r) :=
        prob_append m 1 _ fun w v hw => h0.returns_iff P w v hw
      rw [e1, e2, hl]
    | error x =>
      rw [Nat.add_right_comm, prob_succ, prob_succ, ← avg_mul_right]
      refine avg_congr fun y _ => ih (fun t => f (BitVec.ofNat 64 y :: t)) ⟨fun p r h v => hf.ext _ r h v, fun w r rest h => ?_⟩
      obtain ⟨p, h1, h2, h3⟩ := hf.cut _ _ _ h
      cases p with
      | nil => rw [e] at h3; cases h3
      | cons z p =>
        rw [List.cons_append, List.cons.injEq] at h2
        exact ⟨p, by rw [List.length_cons] at h1; omega, h2.2, by rw [h2.1]; exact h3⟩

/-! ### The package's functions on a tape -/

theorem reads_tape (p : List Byte) : Reads 1 (fun s => tape.read p s) where
  ext q r h v := by
    cases q with
    | nil => cases h
    | cons x xs =>
      have h' : (Except.ok (⟨copyInto p (le64 x), p.length, none⟩, xs) : Go (ReadRes × List U64)) = .ok (r, []) := h
      rw [Except.ok.injEq, Prod.mk.injEq] at h'
      show (Except.ok (⟨copyInto p (le64 x), p.length, none⟩, xs ++ v) : Go (ReadRes × List U64)) = .ok (r, v)
      rw [h'.1, h'.2]
      rfl
  cut w r rest h := by
    cases w with
    | nil => cases h
    | cons x xs =>
      have h' : (Except.ok (⟨copyInto p (le64 x), p.length, none⟩, xs) : Go (ReadRes × List U64)) = .ok (r, rest) := h
      rw [Except.ok.injEq, Prod.mk.injEq] at h'
      refine ⟨[x], Nat.le_refl _, by rw [h'.2]; rfl, ?_⟩
      show (Except.ok (⟨copyInto p (le64 x), p.length, none⟩, []) : Go (ReadRes × List U64)) = .ok (r, [])
      rw [h'.1]

theorem reads_lift {α : Type} (x : Go α) : Reads 0 (fun s : List U64 => x >>= fun a => (.ok (a, s) : Go (α × List U64))) := by
  cases x with
  | error e => exact Reads.error e
  | ok a => exact Reads.pure a

theorem reads_lift_bind {α β : Type} {m : Nat} (x : Go α) (g : α → List U64 → Go (β × List U64)) (h : ∀ a, Reads m (g a)) :
    Reads m (fun s => x >>= fun a => g a s) := by
  cases x with
  | error e => exact (Reads.error e).mono (Nat.zero_le _)
  | ok a => exact h a

theorem reads_uint64 : Reads 1 (RNG.uint64 tape) :=
  (reads_tape (zeros 8)).bind (k := 0) fun r => reads_lift (u64le r.buf)

theorem reads_uint32 : Reads 1 (RNG.uint32 tape) :=
  (reads_tape (zeros 4)).bind (k := 0) fun r => reads_lift (u32le r.buf)

theorem reads_uint16 : Reads 1 (RNG.uint16 tape) :=
  (reads_tape (zeros 2)).bind (k := 0) fun r => reads_lift (u16le r.buf)

theorem reads_uintnLoop (max bad : U64) (fuel : Nat) (x : U64) : Reads fuel (RNG.uintnLoop tape max bad fuel x) := by
  induction fuel generalizing x with
  | zero =>
    by_cases h : bad < x
    · have : RNG.uintnLoop tape max bad 0 x = fun _ => .error .fuel := by
        funext s; rw [RNG.uintnLoop.eq_def]; simp only [if_pos h]
      rw [this]
      exact Reads.error _
    · have : RNG.uintnLoop tape max bad 0 x = fun s => .ok (x % max, s) := by
        funext s; rw [RNG.uintnLoop.eq_def]; simp only [if_neg h]
      rw [this]
      exact Reads.pure _
  | succ fuel ih =>
    by_cases h : bad < x
    · have : RNG.uintnLoop tape max bad (fuel + 1) x =
          fun s => RNG.uint64 tape s >>= fun q => RNG.uintnLoop tape max bad fuel q.1 q.2 := by
        funext s; rw [RNG.uintnLoop.eq_def]; simp only [if_pos h]
      rw [this, Nat.add_comm]
      exact reads_uint64.bind fun a => ih a
    · have : RNG.uintnLoop tape max bad (fuel + 1) x = fun s => .ok (x % max, s) := by
        funext s; rw [RNG.uintnLoop.eq_def]; simp only [if_neg h]
      rw [this]
      exact (Reads.pure _).mono (Nat.zero_le _)

theorem reads_uintn (fuel : Nat) (max : U64) : Reads (fuel + 1) (RNG.uintn tape fuel max) := by
  by_cases h : max = 0#64
  · have : RNG.uintn tape fuel max = fun _ => .error .divide := by
      funext s; unfold RNG.uintn; rw [if_pos h]; rfl
    rw [this]
    exact (Reads.error _).mono (Nat.zero_le _)
  · have : RNG.uintn tape fuel max =
        fun s => RNG.uint64 tape s >>= fun q => RNG.uintnLoop tape max (~~~0#64 - (~~~0#64) % max) fuel q.1 q.2 := by
      funext s; unfold RNG.uintn; simp only [if_neg h]
    rw [this, Nat.add_comm]
    exact reads_uint64.bind fun a => reads_uintnLoop _ _ _ a

theorem reads_intn (fuel : Nat) (max : Int) : Reads (fuel + 1) (RNG.intn tape fuel max) := by
  by_cases h : max < 0
  · have : RNG.intn tape fuel max = fun _ => .error (.explicit "maximum below zero") := by
      funext s; unfold RNG.intn; simp only [if_pos h]; rfl
    rw [this]
    exact (Reads.error _).mono (Nat.zero_le _)
  · have : RNG.intn tape fuel max =
        fun s => RNG.uintn tape fuel (BitVec.ofInt 64 max) s >>= fun q => .ok (q.1.toInt, q.2) := by
      funext s; unfold RNG.intn; simp only [if_neg h]; rfl
    rw [this]
    exact (reads_uintn fuel _).map _

theorem reads_uniform12 : Reads 1 (uniform12 tape) :=
  (reads_tape ((zeros 8).take 7)).bind (k := 0)
    (g := fun (r : ReadRes) s => u64le (r.buf ++ (zeros 8).drop 7) >>= fun a => .ok (F64.ofBits (a ||| 0x3ff0000000000000#64), s)) fun _ =>
      reads_lift_bind _ _ fun _ => Reads.pure _

theorem reads_uniform01 : Reads 1 (uniform01 tape) :=
  (reads_tape (zeros 8)).bind (k := 0)
    (g := fun (r : ReadRes) s => u64le r.buf >>= fun a =>
      .ok (F64.mul (F64.ofNat (a &&& 0x1fffffffffffff#64).toNat) (F64.ofDec 111022302462515654042 36), s)) fun _ =>
        reads_lift_bind _ _ fun _ => Reads.pure _

theorem reads_uniform (fused : Bool) (low high : F64) : Reads 1 (uniform fused low high tape) :=
  reads_uniform12.map fun u => F64.mulAdd fused high (F64.sub u (F64.ofNat 1)) low

theorem reads_ite {α : Type} {m : Nat} (c : Prop) [Decidable c] {f g : List U64 → Go (α × List U64)} (hf : Reads m f) (hg : Reads m g) :
    Reads m (fun s => if c then f s else g s) := by
  by_cases h : c
  · simp only [if_pos h]; exact hf
  · simp only [if_neg h]; exact hg

theorem reads_genNext (z : Ziggurat (List U64)) (hz : ∀ n, Reads (2 * n + 1) (z.tail tape n)) (fused : Bool) (n : Nat) :
    Reads (2 * n) (z.genNext fused tape n) := by
  induction n with
  | zero =>
    have : z.genNext fused tape 0 = fun _ => .error .fuel := by funext s; rw [Ziggurat.genNext.eq_def]
    rw [this]
    exact Reads.error _
  | succ n ih =>
    have key : Reads (1 + (1 + 2 * n)) (fun s => RNG.uint64 tape s >>= fun q =>
        (aget z.K (Ziggurat.split z.mirrored q.1).1) >>= fun k =>
          if Ziggurat.absj (Ziggurat.split z.mirrored q.1).2 < k then
            fget z.W (Ziggurat.split z.mirrored q.1).1 >>= fun w => .ok (F64.mul (F64.ofInt (Ziggurat.split z.mirrored q.1).2.toInt) w, q.2)
          else if (Ziggurat.split z.mirrored q.1).1 ≠ 0 then
            fget z.W (Ziggurat.split z.mirrored q.1).1 >>= fun w => uniform01 tape q.2 >>= fun u =>
              fget z.F (Ziggurat.split z.mirrored q.1).1 >>= fun fi => fget z.F ((Ziggurat.split z.mirrored q.1).1 - 1) >>= fun fp =>
                if F64.lt (F64.mulAdd fused u.1 (F64.sub fp fi) fi)
                  (z.pdf (F64.mul (F64.ofInt (Ziggurat.split z.mirrored q.1).2.toInt) w)) = true then
                    .ok (F64.mul (F64.ofInt (Ziggurat.split z.mirrored q.1).2.toInt) w, u.2)
                else z.genNext fused tape n u.2
          else z.tail tape n q.2 >>= fun x =>
            if (Ziggurat.split z.mirrored q.1).2.toInt < 0 then .ok (F64.neg x.1, x.2) else .ok (x.1, x.2)) := by
      refine reads_uint64.bind (g := fun x s => aget z.K (Ziggurat.split z.mirrored x).1 >>= fun k =>
          if Ziggurat.absj (Ziggurat.split z.mirrored x).2 < k then
            fget z.W (Ziggurat.split z.mirrored x).1 >>= fun w => .ok (F64.mul (F64.ofInt (Ziggurat.split z.mirrored x).2.toInt) w, s)
          else if (Ziggurat.split z.mirrored x).1 ≠ 0 then
            fget z.W (Ziggurat.split z.mirrored x).1 >>= fun w => uniform01 tape s >>= fun u =>
              fget z.F (Ziggurat.split z.mirrored x).1 >>= fun fi => fget z.F ((Ziggurat.split z.mirrored x).1 - 1) >>= fun fp =>
                if F64.lt (F64.mulAdd fused u.1 (F64.sub fp fi) fi)
                  (z.pdf (F64.mul (F64.ofInt (Ziggurat.split z.mirrored x).2.toInt) w)) = true then
                    .ok (F64.mul (F64.ofInt (Ziggurat.split z.mirrored x).2.toInt) w, u.2)
                else z.genNext fused tape n u.2
          else z.tail tape n s >>= fun y =>
            if (Ziggurat.split z.mirrored x).2.toInt < 0 then .ok (F64.neg y.1, y.2) else .ok (y.1, y.2)) fun x => ?_
      generalize (Ziggurat.split z.mirrored x).1 = i
      generalize (Ziggurat.split z.mirrored x).2 = j
      refine reads_lift_bind _ _ fun k => ?_
      refine reads_ite _ (reads_lift_bind _ _ fun w => (Reads.pure _).mono (Nat.zero_le _)) (reads_ite _ ?_ ?_)
      · refine reads_lift_bind _ _ fun w => reads_uniform01.bind (g := fun u s => fget z.F i >>= fun fi => fget z.F (i - 1) >>= fun fp =>
                if F64.lt (F64.mulAdd fused u (F64.sub fp fi) fi) (z.pdf (F64.mul (F64.ofInt j.toInt) w)) = true then
                    .ok (F64.mul (F64.ofInt j.toInt) w, s)
                else z.genNext fused tape n s) fun u => ?_
        refine reads_lift_bind _ _ fun fi => reads_lift_bind _ _ fun fp => ?_
        exact reads_ite _ ((Reads.pure _).mono (Nat.zero_le _)) ih
      · refine Reads.mono (m := 2 * n + 1 + 0) ?_ (by omega)
        refine (hz n).bind (g := fun y s => if j.toInt < 0 then .ok (F64.neg y, s) else .ok (y, s)) fun y => ?_
        exact reads_ite _ (Reads.pure _) (Reads.pure _)
    rw [show 2 * (n + 1) = 1 + (1 + 2 * n) by omega]
    refine Eq.mpr (congrArg (Reads _) (funext fun s => ?_)) key
    rw [Ziggurat.genNext.eq_def]
    simp only [bind, Except.bind, Bind.bind, Pure.pure, Except.pure]

theorem reads_expoTail (lib : MathLib) (n : Nat) : Reads 1 (expoTail lib tape n) :=
  reads_uniform01.map fun u => F64.sub expoR (lib.log u)

theorem reads_normalTail (lib : MathLib) (n : Nat) : Reads (2 * n) (normalTail lib tape n) := by
  induction n with
  | zero =>
    have : normalTail lib tape 0 = fun _ => .error .fuel := by funext s; rw [normalTail.eq_def]
    rw [this]
    exact Reads.error _
  | succ n ih =>
    have e : normalTail lib tape (n + 1) = fun s => uniform01 tape s >>= fun u => uniform01 tape u.2 >>= fun v =>
        if F64.le (F64.mul (F64.div (F64.neg (lib.log u.1)) normalR) (F64.div (F64.neg (lib.log u.1)) normalR))
          (F64.add (F64.neg (lib.log v.1)) (F64.neg (lib.log v.1))) = true then
            .ok (F64.add (F64.div (F64.neg (lib.log u.1)) normalR) normalR, v.2) else normalTail lib tape n v.2 := by
      funext s; rw [normalTail.eq_def]; rfl
    rw [e, show 2 * (n + 1) = 1 + (1 + 2 * n) by omega]
    refine reads_uniform01.bind (g := fun u s => uniform01 tape s >>= fun v =>
        if F64.le (F64.mul (F64.div (F64.neg (lib.log u)) normalR) (F64.div (F64.neg (lib.log u)) normalR))
          (F64.add (F64.neg (lib.log v.1)) (F64.neg (lib.log v.1))) = true then
            .ok (F64.add (F64.div (F64.neg (lib.log u)) normalR) normalR, v.2) else normalTail lib tape n v.2) fun u => ?_
    refine reads_uniform01.bind (g := fun v s =>
        if F64.le (F64.mul (F64.div (F64.neg (lib.log u)) normalR) (F64.div (F64.neg (lib.log u)) normalR))
          (F64.add (F64.neg (lib.log v)) (F64.neg (lib.log v))) = true then
            .ok (F64.add (F64.div (F64.neg (lib.log u)) normalR) normalR, s) else normalTail lib tape n s) fun v => ?_
    exact reads_ite _ ((Reads.pure _).mono (Nat.zero_le _)) ih

theorem reads_exponential (lib : MathLib) (fused : Bool) (rate : F64) (n : Nat) : Reads (2 * n) (exponential lib fused rate tape n) :=
  (reads_genNext (expoZig lib) (fun n => (reads_expoTail lib n).mono (Nat.le_add_left _ _)) fused n).map fun x => F64.div x rate

theorem reads_normal (lib : MathLib) (fused fused' : Bool) (mean stddev : F64) (n : Nat) :
    Reads (2 * n) (normal lib fused fused' mean stddev tape n) :=
  (reads_genNext (normalZig lib) (fun n => (reads_normalTail lib n).mono (Nat.le_succ _)) fused n).map
    fun x => F64.mulAdd fused' x stddev mean

theorem reads_forIdx {α : Type} (k : Nat) (body : Nat → α × List U64 → Go (α × List U64)) (h : ∀ i a, Reads k (fun s => body i (a, s)))
    (n : Nat) (a : α) : Reads (n * k) (fun s => forIdx n body (a, s)) := by
  induction n with
  | zero =>
    rw [Nat.zero_mul]
    exact Reads.pure a
  | succ n ih =>
    rw [Nat.succ_mul]
    exact ih.bind (g := fun a s => body n (a, s)) fun a => h n a

theorem reads_shuffleSlice {α : Type} (fuel : Nat) (data : List α) :
    Reads (data.length * (fuel + 1)) (shuffleSlice tape fuel data) := by
  refine reads_forIdx (fuel + 1) _ (fun i d => ?_) data.length data
  refine (reads_intn fuel data.length).bind (k := 0) (g := fun k s => lget d k >>= fun x => lget d i >>= fun y => lset d i x >>= fun d =>
    lset d k y >>= fun d => .ok (d, s)) fun k => ?_
  exact reads_lift_bind _ _ fun x => reads_lift_bind _ _ fun y => reads_lift_bind _ _ fun z => reads_lift_bind _ _ fun t => Reads.pure _

theorem reads_randString (fuel : Nat) (alphabet : List Byte) (length : Int) :
    Reads (length.toNat * (fuel + 1)) (randString tape fuel alphabet length) := by
  have e : randString tape fuel alphabet length = fun s => makeRunes length >>= fun p =>
      forIdx p.length (fun i (q : List Nat × List U64) => do
        let (k, s) ← RNG.uintn tape fuel (BitVec.ofNat 64 (runes alphabet).length) q.2
        let x ← lget (runes alphabet) k.toInt
        let p ← lset q.1 i x
        return (p, s)) (p, s) >>= fun q => .ok (stringOf q.1, q.2) := rfl
  rw [e]
  by_cases hl : length < 0 ∨ (RNG.maxAlloc : Int) < 4 * length
  · rw [show makeRunes length = .error .makeslice by unfold makeRunes; rw [if_pos hl]]
    exact (Reads.error _).mono (Nat.zero_le _)
  · rw [show makeRunes length = .ok (List.replicate length.toNat 0) by unfold makeRunes; rw [if_neg hl]]
    show Reads _ (fun s => forIdx (List.replicate length.toNat 0).length _ (List.replicate length.toNat 0, s) >>= fun q => .ok (stringOf q.1, q.2))
    rw [List.length_replicate]
    refine Reads.map (reads_forIdx (fuel + 1) _ (fun i d => ?_) length.toNat _) stringOf
    refine (reads_uintn fuel _).bind (k := 0) (g := fun k s => lget (runes alphabet) k.toInt >>= fun x => lset d i x >>= fun p => .ok (p, s))
      fun k => ?_
    exact reads_lift_bind _ _ fun x => reads_lift_bind _ _ fun y => Reads.pure _

/-! ### Several calls -/

/-- What a list of calls needs in words. -/
theorem allGood_append (ts : List (Trial (List U64) × Nat)) (h : ∀ t ∈ ts, Reads t.2 t.1.next) (w v : List U64)
    (hw : w.length = (ts.map (·.2)).sum) : AllGood (ts.map (·.1)) (w ++ v) ↔ AllGood (ts.map (·.1)) w := by
  induction ts generalizing w v with
  | nil => exact Iff.rfl
  | cons t ts ih =>
    have ht := h t (List.mem_cons_self ..)
    have ih := ih fun t h' => h t (List.mem_cons_of_mem _ h')
    rw [List.map_cons, List.sum_cons] at hw
    have split : ∀ q : List U64, t.2 ≤ q.length → ∀ p rest, p.length ≤ t.2 → q = p ++ rest → q.length - t.2 ≤ rest.length := by
      intro q h1 p rest h2 h3
      rw [h3, List.length_append]
      omega
    have key : ∀ rest : List U64, (ts.map (·.2)).sum ≤ rest.length →
        (AllGood (ts.map (·.1)) (rest ++ v) ↔ AllGood (ts.map (·.1)) rest) := by
      intro rest hr
      have e := List.take_append_drop (ts.map (·.2)).sum rest
      have hl : (rest.take (ts.map (·.2)).sum).length = (ts.map (·.2)).sum := by rw [List.length_take]; omega
      rw [← e, List.append_assoc, ih _ _ hl, ih _ _ hl]
    show (∃ r s', t.1.next (w ++ v) = .ok (r, s') ∧ t.1.good r ∧ AllGood (ts.map (·.1)) s') ↔
      ∃ r s', t.1.next w = .ok (r, s') ∧ t.1.good r ∧ AllGood (ts.map (·.1)) s'
    constructor
    · rintro ⟨r, s', h1, h2, h3⟩
      obtain ⟨p, k1, k2, k3⟩ := ht.cut _ _ _ h1
      have h4 : p <+: w := List.prefix_of_prefix_length_le ⟨s', k2.symm⟩ (List.prefix_append w v) (by omega)
      obtain ⟨q, rfl⟩ := h4
      rw [List.append_assoc, List.append_cancel_left_eq] at k2
      refine ⟨r, q, ht.ext p r k3 q, h2, ?_⟩
      rw [← k2] at h3
      refine (key q ?_).mp h3
      rw [List.length_append] at hw
      omega
    · rintro ⟨r, s', h1, h2, h3⟩
      obtain ⟨p, k1, k2, k3⟩ := ht.cut _ _ _ h1
      refine ⟨r, s' ++ v, ?_, h2, (key s' ?_).mpr h3⟩
      · rw [k2, List.append_assoc]
        exact ht.ext p r k3 _
      · rw [k2, List.length_append] at hw
        omega

/-- Calls made one after the other on independent words are independent. -/
theorem prob_allGood (ts : List (Trial (List U64) × Nat)) (h : ∀ t ∈ ts, Reads t.2 t.1.next) :
    prob (ts.map (·.2)).sum (AllGood (ts.map (·.1))) = (ts.map fun t => prob t.2 (AllGood [t.1])).prod := by
  induction ts with
  | nil =>
    show prob 0 (fun _ => True) = 1
    exact prob_true 0
  | cons t ts ih =>
    have ht := h t (List.mem_cons_self ..)
    have hts := fun t' h' => h t' (List.mem_cons_of_mem _ h')
    rw [List.map_cons, List.map_cons, List.map_cons, List.sum_cons, List.prod_cons, ← ih hts]
    have hi := Reads.indep t.2 (ts.map (·.2)).sum t.1.next ht t.1.good (AllGood (ts.map (·.1))) fun w v hw => allGood_append ts hts w v hw
    refine hi.trans ?_
    refine congrArg (fun x => x * _) (prob_congr fun w _ => ?_)
    show (∃ r s', t.1.next w = .ok (r, s') ∧ t.1.good r) ↔ ∃ r s', t.1.next w = .ok (r, s') ∧ t.1.good r ∧ True
    simp only [and_true]

end Crazy
