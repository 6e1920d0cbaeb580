/-
Two runs of the same code on related states: what the first returns, the second returns too.
-/
import Verif.Props.UniformDist
import Verif.Props.ZigSplit
import Verif.Proofs.Reads
namespace Crazy

/-- If `c` returns, `d` returns the same from related states, and the states stay related. -/
def SimR {σ τ α : Type} (R : σ → τ → Prop) (c : σ → Go (α × σ)) (d : τ → Go (α × τ)) : Prop :=
  ∀ a b, R a b → ∀ r a', c a = .ok (r, a') → ∃ b', d b = .ok (r, b') ∧ R a' b'

section
variable {σ τ α β : Type} {R : σ → τ → Prop}

theorem SimR.error (e : Panic) (d : τ → Go (α × τ)) : SimR R (fun _ : σ => (.error e : Go (α × σ))) d := fun _ _ _ _ _ h => by cases h

theorem SimR.pure (x : α) : SimR R (fun a : σ => (.ok (x, a) : Go (α × σ))) (fun b : τ => .ok (x, b)) := fun a b h r a' e => by
  simp only [Except.ok.injEq, Prod.mk.injEq] at e
  exact ⟨b, by rw [e.1], e.2 ▸ h⟩

theorem SimR.bind {c : σ → Go (α × σ)} {d : τ → Go (α × τ)} {k : α → σ → Go (β × σ)} {l : α → τ → Go (β × τ)} (h : SimR R c d)
    (hk : ∀ x, SimR R (k x) (l x)) : SimR R (fun a => c a >>= fun q => k q.1 q.2) (fun b => d b >>= fun q => l q.1 q.2) := fun a b hab r a' e => by
  cases e1 : c a with
  | error x => simp only [e1, Bind.bind, Except.bind] at e; cases e
  | ok q =>
    obtain ⟨x, a1⟩ := q
    simp only [e1, Bind.bind, Except.bind] at e
    obtain ⟨b1, h1, h2⟩ := h a b hab x a1 e1
    obtain ⟨b2, h3, h4⟩ := hk x a1 b1 h2 r a' e
    exact ⟨b2, by simp only [h1, Bind.bind, Except.bind]; exact h3, h4⟩

theorem SimR.lift (g : Go β) {k : β → σ → Go (α × σ)} {l : β → τ → Go (α × τ)} (h : ∀ x, SimR R (k x) (l x)) :
    SimR R (fun a => g >>= fun x => k x a) (fun b => g >>= fun x => l x b) := fun a b hab r a' e => by
  cases g with
  | error x => simp only [Bind.bind, Except.bind] at e; cases e
  | ok x =>
    simp only [Bind.bind, Except.bind] at e ⊢
    exact h x a b hab r a' e

theorem SimR.ite (p : Prop) [Decidable p] {c c' : σ → Go (α × σ)} {d d' : τ → Go (α × τ)} (h : SimR R c d) (h' : SimR R c' d') :
    SimR R (fun a => if p then c a else c' a) (fun b => if p then d b else d' b) := by
  by_cases hp : p
  · simp only [if_pos hp]; exact h
  · simp only [if_neg hp]; exact h'

/-- What `GenNext` does with a word. -/
def zbody (pdf : F64 → F64) (m : Bool) (K : Vector U64 1024) (W F : Vector F64 1024) (fused : Bool) (uni tl again : σ → Go (F64 × σ)) (x : U64)
    (s : σ) : Go (F64 × σ) :=
  aget K (Ziggurat.split m x).1 >>= fun k =>
    if Ziggurat.absj (Ziggurat.split m x).2 < k then
      fget W (Ziggurat.split m x).1 >>= fun w => .ok (F64.mul (F64.ofInt (Ziggurat.split m x).2.toInt) w, s)
    else if (Ziggurat.split m x).1 ≠ 0 then
      fget W (Ziggurat.split m x).1 >>= fun w => uni s >>= fun u =>
        fget F (Ziggurat.split m x).1 >>= fun fi => fget F ((Ziggurat.split m x).1 - 1) >>= fun fp =>
          if F64.lt (F64.mulAdd fused u.1 (F64.sub fp fi) fi) (pdf (F64.mul (F64.ofInt (Ziggurat.split m x).2.toInt) w)) = true then
              .ok (F64.mul (F64.ofInt (Ziggurat.split m x).2.toInt) w, u.2)
          else again u.2
    else tl s >>= fun y => if (Ziggurat.split m x).2.toInt < 0 then .ok (F64.neg y.1, y.2) else .ok (y.1, y.2)

theorem genNext_body (z : Ziggurat σ) (fused : Bool) (src : Source σ) (n : Nat) : z.genNext fused src (n + 1) = fun s =>
    RNG.uint64 src s >>= fun q => zbody z.pdf z.mirrored z.K z.W z.F fused (uniform01 src) (z.tail src n) (z.genNext fused src n) q.1 q.2 := by
  funext s
  rw [Ziggurat.genNext.eq_def]
  simp only [zbody, bind, Except.bind, Bind.bind, Pure.pure, Except.pure]

theorem sim_zbody (pdf : F64 → F64) (m : Bool) (K : Vector U64 1024) (W F : Vector F64 1024) (fused : Bool) {uni tl again : σ → Go (F64 × σ)}
    {uni' tl' again' : τ → Go (F64 × τ)} (hu : SimR R uni uni') (ht : SimR R tl tl') (ha : SimR R again again') (x : U64) :
    SimR R (zbody pdf m K W F fused uni tl again x) (zbody pdf m K W F fused uni' tl' again' x) := by
  unfold zbody
  generalize (Ziggurat.split m x).1 = i
  generalize (Ziggurat.split m x).2 = j
  refine SimR.lift _ fun k => SimR.ite _ (SimR.lift _ fun w => SimR.pure _) (SimR.ite _ (SimR.lift _ fun w => ?_) ?_)
  · refine hu.bind (k := fun u s => fget F i >>= fun fi => fget F (i - 1) >>= fun fp =>
          if F64.lt (F64.mulAdd fused u (F64.sub fp fi) fi) (pdf (F64.mul (F64.ofInt j.toInt) w)) = true then
              .ok (F64.mul (F64.ofInt j.toInt) w, s)
          else again s) (l := fun u s => fget F i >>= fun fi => fget F (i - 1) >>= fun fp =>
          if F64.lt (F64.mulAdd fused u (F64.sub fp fi) fi) (pdf (F64.mul (F64.ofInt j.toInt) w)) = true then
              .ok (F64.mul (F64.ofInt j.toInt) w, s)
          else again' s) fun u => ?_
    exact SimR.lift _ fun fi => SimR.lift _ fun fp => SimR.ite _ (SimR.pure _) ha
  · refine ht.bind (k := fun y s => if j.toInt < 0 then .ok (F64.neg y, s) else .ok (y, s))
      (l := fun y s => if j.toInt < 0 then .ok (F64.neg y, s) else .ok (y, s)) fun y => ?_
    exact SimR.ite _ (SimR.pure _) (SimR.pure _)

variable {src : Source σ} {src' : Source τ}

theorem sim_genNext (z : Ziggurat σ) (z' : Ziggurat τ) (hp : z.pdf = z'.pdf) (hm : z.mirrored = z'.mirrored) (hK : z.K = z'.K) (hW : z.W = z'.W)
    (hF : z.F = z'.F) (fused : Bool) (h1 : SimR R (RNG.uint64 src) (RNG.uint64 src')) (h2 : SimR R (uniform01 src) (uniform01 src'))
    (ht : ∀ n n', n ≤ n' → SimR R (z.tail src n) (z'.tail src' n')) (n n' : Nat) (hn : n ≤ n') :
    SimR R (z.genNext fused src n) (z'.genNext fused src' n') := by
  induction n generalizing n' with
  | zero =>
    have : z.genNext fused src 0 = fun _ => .error .fuel := by funext s; rw [Ziggurat.genNext.eq_def]
    rw [this]
    exact SimR.error _ _
  | succ n ih =>
    obtain ⟨n', rfl⟩ : ∃ m, n' = m + 1 := ⟨n' - 1, by omega⟩
    rw [genNext_body, genNext_body, ← hp, ← hm, ← hK, ← hW, ← hF]
    exact h1.bind (k := zbody z.pdf z.mirrored z.K z.W z.F fused (uniform01 src) (z.tail src n) (z.genNext fused src n))
      (l := zbody z.pdf z.mirrored z.K z.W z.F fused (uniform01 src') (z'.tail src' n') (z'.genNext fused src' n'))
      fun x => sim_zbody _ _ _ _ _ _ h2 (ht n n' (by omega)) (ih n' (by omega)) x

theorem sim_expoTail (lib : MathLib) (h2 : SimR R (uniform01 src) (uniform01 src')) (n n' : Nat) :
    SimR R (expoTail lib src n) (expoTail lib src' n') :=
  h2.bind (k := fun u s => .ok (F64.sub expoR (lib.log u), s)) (l := fun u s => .ok (F64.sub expoR (lib.log u), s)) fun _ => SimR.pure _

theorem sim_normalTail (lib : MathLib) (h2 : SimR R (uniform01 src) (uniform01 src')) (n n' : Nat) (hn : n ≤ n') :
    SimR R (normalTail lib src n) (normalTail lib src' n') := by
  induction n generalizing n' with
  | zero =>
    have : normalTail lib src 0 = fun _ => .error .fuel := by funext s; rw [normalTail.eq_def]
    rw [this]
    exact SimR.error _ _
  | succ n ih =>
    obtain ⟨n', rfl⟩ : ∃ m, n' = m + 1 := ⟨n' - 1, by omega⟩
    have e : ∀ {ρ : Type} (src : Source ρ) n, normalTail lib src (n + 1) = fun s => uniform01 src s >>= fun u => uniform01 src u.2 >>= fun v =>
        if F64.le (F64.mul (F64.div (F64.neg (lib.log u.1)) normalR) (F64.div (F64.neg (lib.log u.1)) normalR))
          (F64.add (F64.neg (lib.log v.1)) (F64.neg (lib.log v.1))) = true then
            .ok (F64.add (F64.div (F64.neg (lib.log u.1)) normalR) normalR, v.2) else normalTail lib src n v.2 := by
      intro ρ src n; funext s; rw [normalTail.eq_def]; rfl
    rw [e, e]
    refine h2.bind (k := fun u s => uniform01 src s >>= fun v =>
        if F64.le (F64.mul (F64.div (F64.neg (lib.log u)) normalR) (F64.div (F64.neg (lib.log u)) normalR))
          (F64.add (F64.neg (lib.log v.1)) (F64.neg (lib.log v.1))) = true then
            .ok (F64.add (F64.div (F64.neg (lib.log u)) normalR) normalR, v.2) else normalTail lib src n v.2)
      (l := fun u s => uniform01 src' s >>= fun v =>
        if F64.le (F64.mul (F64.div (F64.neg (lib.log u)) normalR) (F64.div (F64.neg (lib.log u)) normalR))
          (F64.add (F64.neg (lib.log v.1)) (F64.neg (lib.log v.1))) = true then
            .ok (F64.add (F64.div (F64.neg (lib.log u)) normalR) normalR, v.2) else normalTail lib src' n' v.2) fun u => ?_
    refine h2.bind (k := fun v s =>
        if F64.le (F64.mul (F64.div (F64.neg (lib.log u)) normalR) (F64.div (F64.neg (lib.log u)) normalR))
          (F64.add (F64.neg (lib.log v)) (F64.neg (lib.log v))) = true then
            .ok (F64.add (F64.div (F64.neg (lib.log u)) normalR) normalR, s) else normalTail lib src n s)
      (l := fun v s =>
        if F64.le (F64.mul (F64.div (F64.neg (lib.log u)) normalR) (F64.div (F64.neg (lib.log u)) normalR))
          (F64.add (F64.neg (lib.log v)) (F64.neg (lib.log v))) = true then
            .ok (F64.add (F64.div (F64.neg (lib.log u)) normalR) normalR, s) else normalTail lib src' n' s) fun v => ?_
    exact SimR.ite _ (SimR.pure _) (ih n' (by omega))

theorem sim_exponential (lib : MathLib) (fused : Bool) (rate : F64) (h1 : SimR R (RNG.uint64 src) (RNG.uint64 src'))
    (h2 : SimR R (uniform01 src) (uniform01 src')) (n n' : Nat) (hn : n ≤ n') :
    SimR R (exponential lib fused rate src n) (exponential lib fused rate src' n') := by
  have h : SimR R ((expoZig lib).genNext fused src n) ((expoZig lib).genNext fused src' n') :=
    sim_genNext (expoZig lib : Ziggurat σ) (expoZig lib : Ziggurat τ) rfl rfl rfl rfl rfl fused h1 h2 (fun n n' _ => sim_expoTail lib h2 n n') n n' hn
  exact h.bind (k := fun x s => .ok (F64.div x rate, s)) (l := fun x s => .ok (F64.div x rate, s)) fun _ => SimR.pure _

theorem sim_normal (lib : MathLib) (fused fused' : Bool) (mean stddev : F64) (h1 : SimR R (RNG.uint64 src) (RNG.uint64 src'))
    (h2 : SimR R (uniform01 src) (uniform01 src')) (n n' : Nat) (hn : n ≤ n') :
    SimR R (normal lib fused fused' mean stddev src n) (normal lib fused fused' mean stddev src' n') := by
  have h : SimR R ((normalZig lib).genNext fused src n) ((normalZig lib).genNext fused src' n') :=
    sim_genNext (normalZig lib : Ziggurat σ) (normalZig lib : Ziggurat τ) rfl rfl rfl rfl rfl fused h1 h2 (fun n n' h => sim_normalTail lib h2 n n' h) n n' hn
  exact h.bind (k := fun x s => .ok (F64.mulAdd fused' x stddev mean, s)) (l := fun x s => .ok (F64.mulAdd fused' x stddev mean, s)) fun _ => SimR.pure _

theorem sim_self (c : σ → Go (α × σ)) : SimR Eq c c := fun _ _ h _ a' e => ⟨a', h ▸ e, rfl⟩

/-- The words on the tape are the next ones of the source. -/
def Ahead (src : Source σ) (s' : σ) (w : List U64) (s : σ) : Prop := draws (RNG.uint64 src) w.length s = .ok (w, s')

theorem ahead_cons {src : Source σ} {s' : σ} {x : U64} {w : List U64} {s : σ} (h : Ahead src s' (x :: w) s) :
    ∃ s1, RNG.uint64 src s = .ok (x, s1) ∧ Ahead src s' w s1 := by
  unfold Ahead at h
  rw [List.length_cons, draws] at h
  cases h1 : RNG.uint64 src s with
  | error e => rw [h1] at h; cases h
  | ok r =>
    obtain ⟨y, s1⟩ := r
    rw [h1] at h
    cases h2 : draws (RNG.uint64 src) w.length s1 with
    | error e =>
      simp only [bind, Except.bind, h2] at h
      cases h
    | ok r =>
      obtain ⟨ys, s2⟩ := r
      simp only [bind, Except.bind, h2, Pure.pure, Except.pure, Except.ok.injEq, Prod.mk.injEq, List.cons.injEq] at h
      exact ⟨s1, by rw [h.1.1], by rw [Ahead, h2, h.1.2, h.2]⟩

theorem sim_tape_uint64 (src : Source σ) (s' : σ) : SimR (Ahead src s') (RNG.uint64 tape) (RNG.uint64 src) := fun w s h r w' e => by
  cases w with
  | nil => rw [RNG.uint64_eq] at e; cases e
  | cons x w =>
    rw [RNG_uint64_tape, Except.ok.injEq, Prod.mk.injEq] at e
    obtain ⟨s1, h1, h2⟩ := ahead_cons h
    exact ⟨s1, by rw [h1, e.1], e.2 ▸ h2⟩

theorem sim_tape_uniform01 (src : Source σ) (s' : σ) : SimR (Ahead src s') (uniform01 tape) (uniform01 src) := fun w s h r w' e => by
  cases w with
  | nil => rw [uniform01_error tape [] _ rfl] at e; cases e
  | cons x w =>
    rw [uniform01_eq tape (x :: w) w _ (tape_read x w), Except.ok.injEq, Prod.mk.injEq] at e
    obtain ⟨s1, h1, h2⟩ := ahead_cons h
    rw [RNG.uint64_eq] at h1
    cases h3 : src.read (zeros 8) s with
    | error e => rw [h3] at h1; cases h1
    | ok q =>
      obtain ⟨q, s2⟩ := q
      rw [h3] at h1
      simp only [Except.map, Except.ok.injEq, Prod.mk.injEq] at h1
      refine ⟨s1, ?_, e.2 ▸ h2⟩
      rw [uniform01_eq src s s2 q h3, ← e.1, ← h1.2]
      have hl := src.len_buf _ _ _ _ h3
      rw [zeros_length] at hl
      have hb := leNat_lt q.buf
      rw [hl] at hb
      have hx : leNat q.buf = x.toNat := by
        rw [← h1.1, BitVec.toNat_ofNat, Nat.mod_eq_of_lt]
        exact Nat.lt_of_lt_of_le hb (by decide)
      rw [hx]
      dsimp only
      rw [leNat_le64]

end

end Crazy
