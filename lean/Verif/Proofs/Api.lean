import Verif.Spec.Api
namespace Crazy

variable {σ ε : Type}

theorem Api.run_ok {a : Api σ ε} {s s' : σ} {op : Op ε} {o : Obs} (ops : List (Op ε))
    (h : a.call s op = .ok (o, s')) : a.run s (op :: ops) = o :: a.run s' ops := by
  rw [Api.run, h]

theorem Api.run_err {a : Api σ ε} {s : σ} {op : Op ε} {p : Panic} (ops : List (Op ε))
    (h : a.call s op = .error p) : a.run s (op :: ops) = [.panic p] := by
  rw [Api.run, h]

theorem Api.after_ok {a : Api σ ε} {s s' : σ} {op : Op ε} {o : Obs} (ops : List (Op ε))
    (h : a.call s op = .ok (o, s')) : a.after s (op :: ops) = a.after s' ops := by
  rw [Api.after, h]

theorem Methods.call_uint64 {m : Methods σ ε} {s s' : σ} {x : U64} (h : m.uint64 s = .ok (x, s')) :
    m.api.call s .uint64 = .ok (.u64 x, s') := by
  simp [Methods.api, h, bind, Except.bind, pure, Except.pure]

theorem Methods.call_seedIV {m : Methods σ ε} {s s' : σ} {iv : List Byte} (h : m.seedIV iv s = .ok s') :
    m.api.call s (.seedIV iv) = .ok (.unit, s') := by
  simp [Methods.api, h, bind, Except.bind, pure, Except.pure]

theorem Indist.refl (a : Api σ ε) (s : σ) : Indist a s s := fun _ => rfl
theorem Indist.symm {a : Api σ ε} {s t : σ} (h : Indist a s t) : Indist a t s := fun o => (h o).symm
theorem Indist.trans {a : Api σ ε} {s t u : σ} (h : Indist a s t) (h' : Indist a t u) : Indist a s u :=
  fun o => (h o).trans (h' o)

/-- Bisimulation proof principle for `Indist`. -/
theorem Indist.of_bisim (a : Api σ ε) (R : σ → σ → Prop)
    (hR : ∀ s t op, R s t →
      (∃ p, a.call s op = .error p ∧ a.call t op = .error p) ∨
      (∃ o s' t', a.call s op = .ok (o, s') ∧ a.call t op = .ok (o, t') ∧ R s' t'))
    {s t : σ} (h : R s t) : Indist a s t := by
  intro ops
  induction ops generalizing s t with
  | nil => rfl
  | cons op ops ih =>
    rcases hR s t op h with ⟨p, h1, h2⟩ | ⟨o, s', t', h1, h2, h3⟩
    · simp only [Api.run, h1, h2]
    · simp only [Api.run, h1, h2, ih h3]

/-- Invariant proof principle. -/
theorem inv_after (a : Api σ ε) (I : σ → Prop)
    (hI : ∀ s op, I s → ∃ o s', a.call s op = .ok (o, s') ∧ I s')
    (ops : List (Op ε)) (s : σ) (h : I s) :
    (∃ s', a.after s ops = .ok s' ∧ I s') ∧ ∀ p, Obs.panic p ∉ a.run s ops ∨
      ∃ s op o s', I s ∧ a.call s op = .ok (o, s') ∧ o = .panic p := by
  induction ops generalizing s with
  | nil => exact ⟨⟨s, rfl, h⟩, fun p => .inl (by simp [Api.run])⟩
  | cons op ops ih =>
    obtain ⟨o, s', h1, h2⟩ := hI s op h
    obtain ⟨h3, h4⟩ := ih s' h2
    refine ⟨by simpa only [Api.after, h1] using h3, fun p => ?_⟩
    rcases h4 p with h5 | h5
    · by_cases ho : o = .panic p
      · exact .inr ⟨s, op, o, s', h, h1, ho⟩
      · left
        simp only [Api.run, h1, List.mem_cons, not_or]
        exact ⟨fun h => ho h.symm, h5⟩
    · exact .inr h5

theorem reachable_inv (a : Api σ ε) (I : σ → Prop)
    (hI : ∀ s op, I s → ∃ o s', a.call s op = .ok (o, s') ∧ I s')
    {init s : σ} (h : I init) (hr : Reachable a init s) : I s := by
  obtain ⟨ops, ho⟩ := hr
  obtain ⟨⟨s', h1, h2⟩, -⟩ := inv_after a I hI ops init h
  rw [ho] at h1
  exact Except.ok.inj h1 ▸ h2

/-- A method table none of whose methods panics on states satisfying `I`, and all of which keep `I`. -/
structure Methods.Safe (m : Methods σ ε) (I : σ → Prop) : Prop where
  uint64 : ∀ s, I s → ∃ x s', m.uint64 s = .ok (x, s') ∧ I s'
  read : ∀ p s, I s → ∃ r s', m.read p s = .ok (r, s') ∧ I s'
  seed : ∀ x s, I s → ∃ s', m.seed x s = .ok s' ∧ I s'
  seedIV : ∀ iv s, I s → ∃ s', m.seedIV iv s = .ok s' ∧ I s'
  save : ∀ s, I s → ∃ b, m.save s = .ok b
  restore : ∀ r s, I s → ∃ x s', m.restore r s = .ok (x, s') ∧ I s'
  ext : ∀ e s, I s → ∃ o s', m.ext e s = .ok (o, s') ∧ I s' ∧ ∀ p, o ≠ .panic p

theorem Methods.Safe.call {m : Methods σ ε} {I : σ → Prop} (hm : m.Safe I) (s : σ) (op : Op ε) (h : I s) :
    ∃ o s', m.api.call s op = .ok (o, s') ∧ I s' ∧ ∀ p, o ≠ .panic p := by
  cases op with
  | uint64 => obtain ⟨x, s', e, i⟩ := hm.uint64 s h
              exact ⟨.u64 x, s', by simp [Methods.api, e, bind, Except.bind, pure, Except.pure], i, by simp⟩
  | read p => obtain ⟨x, s', e, i⟩ := hm.read p s h
              exact ⟨.read x, s', by simp [Methods.api, e, bind, Except.bind, pure, Except.pure], i, by simp⟩
  | seed x => obtain ⟨s', e, i⟩ := hm.seed x s h
              exact ⟨.unit, s', by simp [Methods.api, e, bind, Except.bind, pure, Except.pure], i, by simp⟩
  | seedIV x => obtain ⟨s', e, i⟩ := hm.seedIV x s h
                exact ⟨.unit, s', by simp [Methods.api, e, bind, Except.bind, pure, Except.pure], i, by simp⟩
  | save w => obtain ⟨b, e⟩ := hm.save s h
              exact ⟨.saved b (w.reply b).1 (w.reply b).2, s, by simp [Methods.api, e, bind, Except.bind, pure, Except.pure], h, by simp⟩
  | restore r => obtain ⟨x, s', e, i⟩ := hm.restore r s h
                 exact ⟨.restored x.1 x.2, s', by simp [Methods.api, e, bind, Except.bind, pure, Except.pure], i, by simp⟩
  | ext e => exact hm.ext e s h

theorem Methods.Safe.neverPanics {m : Methods σ ε} {I : σ → Prop} (hm : m.Safe I) {init : σ} (h : I init) :
    NeverPanics m.api init := by
  intro ops p
  obtain ⟨-, h2⟩ := inv_after m.api I (fun s op hs => by
    obtain ⟨o, s', h1, h2, -⟩ := hm.call s op hs
    exact ⟨o, s', h1, h2⟩) ops init h
  rcases h2 p with h3 | ⟨s, op, o, s', h4, h5, h6⟩
  · exact h3
  · obtain ⟨o2, s2, h7, -, h8⟩ := hm.call s op h4
    rw [h5] at h7
    exact absurd h6 (by rw [show o = o2 from congrArg Prod.fst (Except.ok.inj h7)]; exact h8 p)

theorem Methods.Safe.reachable {m : Methods σ ε} {I : σ → Prop} (hm : m.Safe I) {init s : σ} (h : I init)
    (hr : Reachable m.api init s) : I s :=
  reachable_inv m.api I (fun s op hs => by
    obtain ⟨o, s', h1, h2, -⟩ := hm.call s op hs
    exact ⟨o, s', h1, h2⟩) h hr

end Crazy
