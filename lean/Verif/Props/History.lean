/-
C110: whole histories of calls.
-/
import Verif.Spec.History
import Verif.Props.Period
import Verif.Props.State
namespace Crazy

section
variable {σ ε : Type}

/-- The words a generator has still to give. -/
def future (next : σ → Go (U64 × σ)) (s : σ) : Words
  | 0 => match next s with
    | .ok (x, _) => x
    | .error _ => 0#64
  | n + 1 => match next s with
    | .ok (_, t) => future next t n
    | .error _ => 0#64

theorem future_next {next : σ → Go (U64 × σ)} {s t : σ} {x : U64} (h : next s = .ok (x, t)) :
    future next s 0 = x ∧ future next t = fun n => future next s (n + 1) := by
  constructor
  · rw [future, h]
  · funext n
    rw [future, h]

theorem future_draws {next : σ → Go (U64 × σ)} (n : Nat) {s t : σ} {ws : List U64} (h : draws next n s = .ok (ws, t)) :
    ws = (List.range n).map (future next s) ∧ future next t = fun k => future next s (k + n) := by
  induction n generalizing s ws with
  | zero =>
    rw [draws] at h
    injection h with h
    injection h with h1 h2
    subst h1 h2
    exact ⟨rfl, rfl⟩
  | succ n ih =>
    rw [draws] at h
    cases h1 : next s with
    | error e => rw [h1] at h; cases h
    | ok r =>
      obtain ⟨x, s1⟩ := r
      rw [h1] at h
      cases h2 : draws next n s1 with
      | error e =>
        simp only [bind, Except.bind, h2] at h
        cases h
      | ok r =>
        obtain ⟨xs, s2⟩ := r
        simp only [bind, Except.bind, h2, pure, Except.pure] at h
        injection h with h
        injection h with h3 h4
        subst h3 h4
        obtain ⟨e1, e2⟩ := ih h2
        obtain ⟨e3, e4⟩ := future_next h1
        refine ⟨?_, ?_⟩
        · rw [List.range_succ_eq_map, List.map_cons, List.map_map, e3, e1, e4]
          rfl
        · rw [e2, e4]
          funext k
          rfl

variable {m : Methods σ ε} {J : σ → Prop}

theorem indist_future (hm : m.Safe J) (n : Nat) {s t : σ} (hs : J s) (ht : J t) (h : Indist m.api s t) : future m.uint64 s n = future m.uint64 t n := by
  have key : ∀ {s t : σ}, J s → J t → Indist m.api s t →
      ∃ x s' t', m.uint64 s = .ok (x, s') ∧ m.uint64 t = .ok (x, t') ∧ J s' ∧ J t' ∧ Indist m.api s' t' := fun {s t} hs ht h => by
    obtain ⟨x, s', h1, h2⟩ := hm.uint64 s hs
    obtain ⟨y, t', h3, h4⟩ := hm.uint64 t ht
    have c1 : m.api.call s .uint64 = .ok (.u64 x, s') := by simp [Methods.api, h1, bind, Except.bind, pure, Except.pure]
    have c2 : m.api.call t .uint64 = .ok (.u64 y, t') := by simp [Methods.api, h3, bind, Except.bind, pure, Except.pure]
    have h5 : ∀ ops, Obs.u64 x :: m.api.run s' ops = Obs.u64 y :: m.api.run t' ops := fun ops => by
      have := h (.uint64 :: ops)
      rwa [Api.run, Api.run, c1, c2] at this
    have hxy : x = y := by
      have := h5 []
      injection this with h6 _
      injection h6
    subst hxy
    exact ⟨x, s', t', h1, h3, h2, h4, fun ops => (List.cons.inj (h5 ops)).2⟩
  induction n generalizing s t with
  | zero =>
    obtain ⟨x, s', t', h1, h2, -⟩ := key hs ht h
    rw [(future_next h1).1, (future_next h2).1]
  | succ n ih =>
    obtain ⟨x, s', t', h1, h2, h3, h4, h5⟩ := key hs ht h
    have := ih h3 h4 h5
    rwa [(future_next h1).2, (future_next h2).2] at this

theorem history_ok (hm : m.Safe J) (init : σ) (hJ : J init) (R : Rules ε)
    (hread : ∀ s, Reachable m.api init s → ReadsStream m.uint64 m.read R.words s)
    (hseed : SeedingForgets m.api)
    (hsave : ∀ s, Reachable m.api init s → SaveRestores m.api s)
    (href : ∀ r s, R.refuses r → m.api.call s (.restore r) = .ok (.restored (r.reply R.size).n (r.reply R.size).err, s))
    (hext : ∀ e s, Reachable m.api init s → ∃ o s', m.ext e s = .ok (o, s') ∧ (∀ b n er, o ≠ .saved b n er) ∧
      R.ext e (future m.uint64 s) o (future m.uint64 s')) :
    HistoryOk m.api init R := by
  have seeds : ∀ op : Op ε, op.IsSeeding → ∃ W : Words, ∀ s, Reachable m.api init s → ∃ s', m.api.call s op = .ok (.unit, s') ∧ future m.uint64 s' = W := by
    intro op ho
    obtain ⟨-, t', -, h2, -⟩ := hseed op ho init init
    have hJt : J t' := by
      obtain ⟨o, s', h3, h4, -⟩ := hm.call init op hJ
      rw [h2] at h3
      have : t' = s' := congrArg Prod.snd (Except.ok.inj h3)
      rw [this]
      exact h4
    refine ⟨future m.uint64 t', fun s hs => ?_⟩
    obtain ⟨s', t2, h3, h4, h5⟩ := hseed op ho s init
    rw [h2] at h4
    have e := congrArg Prod.snd (Except.ok.inj h4)
    subst e
    have hJs : J s' := by
      obtain ⟨o, s2, h6, h7, -⟩ := hm.call s op (hm.reachable hJ hs)
      rw [h3] at h6
      have : s' = s2 := congrArg Prod.snd (Except.ok.inj h6)
      rw [this]
      exact h7
    exact ⟨s', h3, funext fun n => indist_future hm n hJs hJt h5⟩
  choose SV hSV using seeds
  refine ⟨future m.uint64 init, fun x => SV (.seed x) (Or.inr ⟨x, rfl⟩), fun iv => SV (.seedIV iv) (Or.inl ⟨iv, rfl⟩), fun ops => ?_⟩
  have main : ∀ (ops : List (Op ε)) (s : σ) (saved : List (List Byte × Words)), Reachable m.api init s →
      (∀ b T, (b, T) ∈ saved → ∃ t, Reachable m.api init t ∧ future m.uint64 t = T ∧ SavesAs m.api t b) →
      Follows R (fun x => SV (.seed x) (Or.inr ⟨x, rfl⟩)) (fun iv => SV (.seedIV iv) (Or.inl ⟨iv, rfl⟩)) saved (future m.uint64 s) ops (m.api.run s ops) := by
    intro ops
    induction ops with
    | nil => intro s saved _ _; rfl
    | cons op ops ih =>
      intro s saved hs hsv
      have hJs := hm.reachable hJ hs
      have step : ∀ {o s'}, m.api.call s op = .ok (o, s') → Reachable m.api init s' := fun {o s'} h => by
        obtain ⟨os, ho⟩ := hs
        refine ⟨os ++ [op], ?_⟩
        have app : ∀ (l : List (Op ε)) (u : σ), m.api.after u l = .ok s → m.api.after u (l ++ [op]) = .ok s' := fun l => by
          induction l with
          | nil =>
            intro u hu
            rw [Api.after] at hu
            injection hu with hu
            subst hu
            rw [List.nil_append, Api.after, h]
            rfl
          | cons a l ihl =>
            intro u hu
            rw [Api.after] at hu
            rw [List.cons_append, Api.after]
            cases hc : m.api.call u a with
            | error e => rw [hc] at hu; cases hu
            | ok r =>
              rw [hc] at hu
              exact ihl _ hu
        exact app os init ho
      have fin : ∀ {o s'}, m.api.call s op = .ok (o, s') →
          Turn R (fun x => SV (.seed x) (Or.inr ⟨x, rfl⟩)) (fun iv => SV (.seedIV iv) (Or.inl ⟨iv, rfl⟩)) saved (future m.uint64 s) op o (future m.uint64 s') →
          (∀ b n e, o = .saved b n e → SavesAs m.api s b) →
          Follows R (fun x => SV (.seed x) (Or.inr ⟨x, rfl⟩)) (fun iv => SV (.seedIV iv) (Or.inl ⟨iv, rfl⟩)) saved (future m.uint64 s) (op :: ops)
            (m.api.run s (op :: ops)) := fun {o s'} h ht hb => by
        refine ⟨o, m.api.run s' ops, future m.uint64 s', by rw [Api.run, h], ht, ih s' _ (step h) fun b T hbT => ?_⟩
        cases o with
        | saved b' n e =>
          rcases List.mem_cons.1 hbT with h1 | h1
          · injection h1 with h2 h3
            subst h2 h3
            exact ⟨s, hs, rfl, hb _ _ _ rfl⟩
          · exact hsv b T h1
        | _ => exact hsv b T hbT
      cases op with
      | uint64 =>
        obtain ⟨x, s', h1, -⟩ := hm.uint64 s hJs
        obtain ⟨e1, e2⟩ := future_next h1
        exact fin (o := .u64 x) (s' := s') (by simp [Methods.api, h1, bind, Except.bind, pure, Except.pure]) ⟨by rw [e1], e2⟩ (by simp)
      | read p =>
        obtain ⟨ws, s', h1, -, -, h2⟩ := hread s hs p
        obtain ⟨e1, e2⟩ := future_draws _ h1
        refine fin (o := .read ⟨(bytesOf ws).take p.length, p.length, none⟩) (s' := s') (by simp only [Methods.api, h2, bind, Except.bind, pure, Except.pure]) ⟨?_, e2⟩ (by simp)
        rw [← e1]
      | seed x =>
        obtain ⟨s', h1, h2⟩ := hSV (.seed x) (Or.inr ⟨x, rfl⟩) s hs
        exact fin h1 ⟨rfl, h2⟩ (by simp)
      | seedIV iv =>
        obtain ⟨s', h1, h2⟩ := hSV (.seedIV iv) (Or.inl ⟨iv, rfl⟩) s hs
        exact fin h1 ⟨rfl, h2⟩ (by simp)
      | save w =>
        obtain ⟨b, h1, -⟩ := hsave s hs
        refine fin (h1 w) ⟨⟨b, rfl⟩, rfl⟩ fun b' n e h => ?_
        injection h with h2 h3 h4
        subst h2
        exact h1
      | restore r =>
        obtain ⟨o, s', h1, h2, -⟩ := hm.call s (.restore r) hJs
        have ho : ∃ n e, o = .restored n e := by
          obtain ⟨x, s2, h3, -⟩ := hm.restore r s hJs
          have : m.api.call s (.restore r) = .ok (.restored x.1 x.2, s2) := by simp [Methods.api, h3, bind, Except.bind, pure, Except.pure]
          rw [this] at h1
          exact ⟨_, _, (congrArg Prod.fst (Except.ok.inj h1)).symm⟩
        obtain ⟨n, e, rfl⟩ := ho
        refine fin h1 ⟨fun b T hbT hr => ?_, fun hr => ?_⟩ (by simp)
        · obtain ⟨t, ht, hT, hst⟩ := hsv b T hbT
          obtain ⟨b', h3, h4⟩ := hsave t ht
          have hw : ∃ w : Writer, True := ⟨⟨fun _ => (0, none)⟩, trivial⟩
          obtain ⟨w, -⟩ := hw
          have h5 := (hst w).symm.trans (h3 w)
          have h6 := congrArg Prod.fst (Except.ok.inj h5)
          injection h6 with h6 _ _
          subst h6
          obtain ⟨t', h7, h8⟩ := h4 s r hr
          rw [h1] at h7
          have h9 := Except.ok.inj h7
          have e1 := congrArg Prod.fst h9
          have e2 := congrArg Prod.snd h9
          subst e2
          exact ⟨e1, by rw [← hT]; exact funext fun n => indist_future hm n h2 (hm.reachable hJ ht) h8⟩
        · have h3 := href r s hr
          rw [h1] at h3
          have h9 := Except.ok.inj h3
          have e2 := congrArg Prod.snd h9
          exact ⟨congrArg Prod.fst h9, by rw [show s' = s from e2]⟩
      | ext e =>
        obtain ⟨o, s', h1, h2, h3⟩ := hext e s hs
        exact fin (o := o) (s' := s') h1 h3 fun b n er h => absurd h (h2 b n er)
  exact main ops init [] ⟨[], rfl⟩ fun b T h => by cases h

end

/-- The generators with `Int63`. -/
theorem int63_ok {σ : Type} {m : Methods σ ExtInt63} {s t : σ} {x : U64} (h : m.uint64 s = .ok (x, t)) (e : ExtInt63)
    (he : m.ext e s = .ok (.u64 (x >>> 1), t)) : ∃ o s', m.ext e s = .ok (o, s') ∧ (∀ b n er, o ≠ .saved b n er) ∧
      int63Rule e (future m.uint64 s) o (future m.uint64 s') := by
  obtain ⟨e1, e2⟩ := future_next h
  refine ⟨_, t, he, by simp, ?_⟩
  cases e
  exact ⟨by rw [e1], e2⟩

/-! ### C110 -/

/-- C110: an `LFG`. -/
theorem C110_LFG : HistoryOk LFG.methods.api LFG.new
    { words := fun n => max 1 ((n + 7) / 8), size := 4856, refuses := fun r => (r.reply 4856).n < 4856, ext := int63Rule } :=
  history_ok LFG.safe _ LFG.inv_new _ C04_LFG C01_LFG C02_LFG (fun r s h => (C58_LFG r).1 h s) fun e s hs => by
    obtain ⟨x, s', h1, -⟩ := LFG.safe.uint64 s (LFG.safe.reachable LFG.inv_new hs)
    refine int63_ok h1 e ?_
    have h1 : LFG.uint64 s = .ok (x, s') := h1
    show (do let (x, g) ← s.int63; return (Obs.u64 x, g)) = _
    rw [LFG.int63, h1]
    rfl

/-- C110: an `MT64`. Its `Restore` looks only at the error. -/
theorem C110_MT64 : HistoryOk MT64.methods.api MT64.new
    { words := fun n => max 1 ((n + 7) / 8), size := 2498, refuses := fun r => (r.reply 2498).err ≠ none, ext := int63Rule } :=
  history_ok MT64.safe _ MT64.inv_new _ (fun s _ => C04_MT64 s) C01_MT64 C02_MT64 (fun r s h => by
    obtain ⟨e, he⟩ := Option.ne_none_iff_exists'.1 h
    have := C58_MT64_error r e he s
    rw [← he] at this
    exact this) fun e s hs => by
    obtain ⟨x, s', h1, -⟩ := MT64.safe.uint64 s (MT64.safe.reachable MT64.inv_new hs)
    refine int63_ok h1 e ?_
    have h1 : MT64.uint64 s = .ok (x, s') := h1
    show (do let (x, g) ← s.int63; return (Obs.u64 x, g)) = _
    rw [MT64.int63, h1]
    rfl

/-- C110: a `Xoroshiro`. Its `Read` uses `len/8 + 1` words. -/
theorem C110_Xoroshiro : HistoryOk Xoroshiro.methods.api Xoroshiro.new
    { words := fun n => n / 8 + 1, size := 16, refuses := fun r => (r.reply 16).n < 16, ext := int63Rule } :=
  history_ok Xoroshiro.safe _ trivial _ (fun s _ => C04_Xoroshiro s) C01_Xoroshiro (fun s _ => C02_Xoroshiro s) (fun r s h => (C58_Xoroshiro r).1 h s)
    fun e s hs => by
      obtain ⟨x, s', h1, -⟩ := Xoroshiro.safe.uint64 s trivial
      refine int63_ok h1 e ?_
      have h1 : Xoroshiro.uint64 s = .ok (x, s') := h1
      show (do let (x, g) ← s.int63; return (Obs.u64 x, g)) = _
      rw [Xoroshiro.int63, h1]
      rfl

/-- C110: a `Rexoroshiro`. Its `Int63` drops the highest bit, those of the others the lowest. -/
theorem C110_Rexoroshiro : HistoryOk Rexoroshiro.methods.api Rexoroshiro.new
    { words := fun n => max 1 ((n + 7) / 8), size := 16, refuses := fun r => (r.reply 16).n < 16, ext := int63MaskRule } :=
  history_ok Rexoroshiro.safe _ trivial _ (fun s _ => C04_Rexoroshiro s) C01_Rexoroshiro (fun s _ => C02_Rexoroshiro s)
    (fun r s h => (C58_Rexoroshiro r).1 h s) fun e s hs => by
      obtain ⟨x, s', h1, -⟩ := Rexoroshiro.safe.uint64 s trivial
      obtain ⟨e1, e2⟩ := future_next h1
      have h1 : Rexoroshiro.uint64 s = .ok (x, s') := h1
      refine ⟨.u64 (x &&& 0x7fffffffffffffff#64), s', ?_, by simp, ?_⟩
      · show (do let (x, g) ← s.int63; return (Obs.u64 x, g)) = _
        rw [Rexoroshiro.int63, h1]
        rfl
      · cases e
        exact ⟨by rw [e1], e2⟩

/-- C110: a `Xoshiro`. -/
theorem C110_Xoshiro : HistoryOk Xoshiro.methods.api Xoshiro.new
    { words := fun n => max 1 ((n + 7) / 8), size := 32, refuses := fun r => (r.reply 32).n < 32, ext := xoshiroRule } :=
  history_ok Xoshiro.safe _ trivial _ (fun s _ => C04_Xoshiro s) C01_Xoshiro (fun s _ => C02_Xoshiro s) (fun r s h => (C58_Xoshiro r).1 h s)
    fun e s hs => by
      cases e with
      | jump =>
        refine ⟨.unit, s.jump, rfl, by simp, rfl, ?_⟩
        obtain ⟨xs, hx⟩ := (C46_Xoshiro_Jump s _).1 rfl
        exact (future_draws _ hx).2
      | reverse =>
        refine ⟨.unit, s.reverse, rfl, by simp, rfl, ?_⟩
        obtain ⟨x, hx⟩ := (C43_one s).2
        exact (future_next hx).2

/-- C110: the word that `Reverse` puts back is the one that was taken last: after any history, `Uint64` and then `Reverse` leave no trace in
what is observed of the calls that follow, and a `Uint64` that follows gives the same word again. -/
theorem C110_Xoshiro_back (ops ops' : List (Op Xoshiro.Ext)) : ∃ x os,
    Xoshiro.methods.api.run Xoshiro.new (ops ++ ops') = Xoshiro.methods.api.run Xoshiro.new ops ++ os ∧
    Xoshiro.methods.api.run Xoshiro.new (ops ++ .uint64 :: .ext .reverse :: ops') = Xoshiro.methods.api.run Xoshiro.new ops ++ .u64 x :: .unit :: os ∧
    Xoshiro.methods.api.run Xoshiro.new (ops ++ [.uint64, .ext .reverse, .uint64]) = Xoshiro.methods.api.run Xoshiro.new ops ++ [.u64 x, .unit, .u64 x] := by
  generalize Xoshiro.new = s
  induction ops generalizing s with
  | nil =>
    obtain ⟨⟨x, g', h1, h2⟩, -⟩ := C43_one s
    have c1 : Xoshiro.methods.api.call s .uint64 = .ok (.u64 x, g') := by
      simp only [Methods.api]
      rw [show Xoshiro.methods.uint64 s = .ok (x, g') from h1]
      rfl
    have c2 : Xoshiro.methods.api.call g' (.ext .reverse) = .ok (.unit, s) := by
      conv => rhs; rw [← h2]
      rfl
    refine ⟨x, Xoshiro.methods.api.run s ops', rfl, ?_, ?_⟩
    · rw [List.nil_append, Api.run_ok _ c1, Api.run_ok _ c2]
      rfl
    · rw [List.nil_append, Api.run_ok _ c1, Api.run_ok _ c2, Api.run_ok _ c1]
      rfl
  | cons op ops ih =>
    obtain ⟨o, s', h, -⟩ := Xoshiro.safe.call s op trivial
    obtain ⟨x, os, e1, e2, e3⟩ := ih s'
    refine ⟨x, os, ?_, ?_, ?_⟩
    · rw [List.cons_append, Api.run_ok _ h, Api.run_ok _ h, e1, List.cons_append]
    · rw [List.cons_append, Api.run_ok _ h, Api.run_ok _ h, e2, List.cons_append]
    · rw [List.cons_append, Api.run_ok _ h, Api.run_ok _ h, e3, List.cons_append]

/-- Non-vacuity: a history with all kinds of calls, and what the rules say of its last. -/
example : ∃ os, Xoshiro.methods.api.run Xoshiro.new [.seed 5#64, .uint64, .save ⟨fun b => (b.length, none)⟩, .read (zeros 20), .ext .reverse, .ext .jump] = os ∧
    os.length = 6 := ⟨_, rfl, by decide +kernel⟩

end Crazy
