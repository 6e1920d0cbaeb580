/-
C03: Copy is an independent twin.
-/
import Verif.Model.Store
import Verif.Proofs.Gens
namespace Crazy

/-- The calls a program makes on the generator at address `id`, in order. -/
def callsOn {ε : Type} (id : Nat) : List (Cmd ε) → List (Op ε)
  | [] => []
  | .call j op :: cs => if j = id then op :: callsOn id cs else callsOn id cs
  | .copy _ :: cs => callsOn id cs

/-- What is observed of the generator at address `id`, in order. -/
def seenAt (id : Nat) (os : List (Nat × Obs)) : List Obs := (os.filter (·.1 = id)).map (·.2)

/-- C03 for one type: in every program that runs to completion, (1) what is observed of a generator present from the
start is what its own calls alone would give: no call on, and no copying of, any other generator (copies
and their originals included) influences it; (2) `Copy` allocates a new address, and what is observed there
afterwards is what those calls would have given on the original as it was when the copy was made. -/
def CopyIndependent {σ ε : Type} (a : Api σ ε) (copy : σ → σ) : Prop :=
  (∀ (H : List σ) (cs : List (Cmd ε)) (os : List (Nat × Obs)) (H' : List σ),
    Store.run a copy H cs = .ok (os, H') →
    ∀ id s, H[id]? = some s → seenAt id os = a.run s (callsOn id cs)) ∧
  (∀ (H : List σ) (id : Nat) (s : σ) (cs : List (Cmd ε)) (os : List (Nat × Obs)) (H' : List σ),
    H[id]? = some s →
    Store.run a copy H (.copy id :: cs) = .ok (os, H') →
    seenAt H.length os = a.run s (callsOn H.length cs) ∧ seenAt id os = a.run s (callsOn id cs))

theorem seenAt_append (id : Nat) (a b : List (Nat × Obs)) : seenAt id (a ++ b) = seenAt id a ++ seenAt id b := by
  simp [seenAt]

theorem store_frame {σ ε : Type} (a : Api σ ε) (copy : σ → σ) (cs : List (Cmd ε)) :
    ∀ (H : List σ) (os : List (Nat × Obs)) (H' : List σ), Store.run a copy H cs = .ok (os, H') →
      ∀ id s, H[id]? = some s → seenAt id os = a.run s (callsOn id cs) := by
  induction cs with
  | nil =>
    intro H os H' h id s _
    simp only [Store.run, Except.ok.injEq, Prod.mk.injEq] at h
    rw [← h.1]; rfl
  | cons c cs ih =>
    intro H os H' h id s hs
    simp only [Store.run, bind, Except.bind, pure, Except.pure] at h
    split at h
    · contradiction
    rename_i r hr
    split at h
    · contradiction
    rename_i r2 hr2
    simp only [Except.ok.injEq, Prod.mk.injEq] at h
    obtain ⟨h1, -⟩ := h
    have hid : id < H.length := by
      rw [List.getElem?_eq_some_iff] at hs; exact hs.1
    subst h1
    rw [seenAt_append]
    cases c with
    | copy j =>
      simp only [Store.exec] at hr
      split at hr
      · simp only [Except.ok.injEq] at hr; subst hr
        exact ih _ _ _ hr2 id s hs
      · simp only [Except.ok.injEq] at hr; subst hr
        refine ih _ _ _ hr2 id s ?_
        simp only []
        rw [List.getElem?_append_left hid, hs]
    | call j op =>
      simp only [Store.exec, bind, Except.bind, pure, Except.pure] at hr
      split at hr
      · rename_i hj
        simp only [Except.ok.injEq] at hr; subst hr
        have : j ≠ id := by rintro rfl; rw [hj] at hs; contradiction
        simp only [callsOn, if_neg this]
        exact ih _ _ _ hr2 id s hs
      · rename_i sj hj
        split at hr
        · contradiction
        rename_i r3 hr3
        simp only [Except.ok.injEq] at hr; subst hr
        simp only [] at hr2 ⊢
        by_cases hji : j = id
        · subst hji
          rw [hj] at hs
          obtain rfl := Option.some.inj hs
          simp only [callsOn, if_true]
          rw [show (r3 : Obs × σ) = (r3.1, r3.2) from rfl] at hr3
          rw [Api.run_ok _ hr3, ← ih _ _ _ hr2 j r3.2 (by rw [List.getElem?_set_self hid])]
          simp [seenAt]
        · simp only [callsOn, if_neg hji]
          rw [← ih _ _ _ hr2 id s (by rw [List.getElem?_set_ne hji, hs])]
          simp [seenAt, hji]

theorem copyIndependent {σ ε : Type} (a : Api σ ε) (copy : σ → σ) (hc : ∀ s, copy s = s) :
    CopyIndependent a copy := by
  refine ⟨fun H cs => store_frame a copy cs H, fun H id s cs os H' hs h => ?_⟩
  have hid : id < H.length := by
    rw [List.getElem?_eq_some_iff] at hs; exact hs.1
  refine ⟨?_, store_frame a copy _ H os H' h id s hs⟩
  simp only [Store.run, Store.exec, hs, bind, Except.bind, pure, Except.pure] at h
  split at h
  · contradiction
  rename_i r2 hr2
  simp only [Except.ok.injEq, Prod.mk.injEq] at h
  obtain ⟨h1, -⟩ := h
  subst h1
  exact store_frame a copy cs _ _ _ hr2 H.length s (by simp [hc])

theorem C03_Xoroshiro : CopyIndependent Xoroshiro.methods.api Xoroshiro.copy := copyIndependent _ _ fun _ => rfl
theorem C03_Rexoroshiro : CopyIndependent Rexoroshiro.methods.api Rexoroshiro.copy := copyIndependent _ _ fun _ => rfl
theorem C03_Xoshiro : CopyIndependent Xoshiro.methods.api Xoshiro.copy := copyIndependent _ _ fun _ => rfl
theorem C03_LFG : CopyIndependent LFG.methods.api LFG.copy := copyIndependent _ _ fun _ => rfl
theorem C03_MT64 : CopyIndependent MT64.methods.api MT64.copy := copyIndependent _ _ fun _ => rfl

/-- Programs over generators none of whose methods panics do run to completion. -/
theorem store_completes {σ ε : Type} {m : Methods σ ε} {I : σ → Prop} (hm : m.Safe I) (copy : σ → σ)
    (hc : ∀ s, copy s = s) (cs : List (Cmd ε)) :
    ∀ H : List σ, (∀ s ∈ H, I s) → ∃ os H', Store.run m.api copy H cs = .ok (os, H') := by
  induction cs with
  | nil => intro H _; exact ⟨[], H, rfl⟩
  | cons c cs ih =>
    intro H hH
    have : ∃ o H1, Store.exec m.api copy H c = .ok (o, H1) ∧ ∀ s ∈ H1, I s := by
      cases c with
      | copy j =>
        simp only [Store.exec]
        split
        · exact ⟨none, H, rfl, hH⟩
        · rename_i s hs
          refine ⟨none, _, rfl, ?_⟩
          intro t ht
          rw [List.mem_append, List.mem_singleton] at ht
          rcases ht with ht | rfl
          · exact hH t ht
          · rw [hc]; exact hH s (List.mem_of_getElem? hs)
      | call j op =>
        simp only [Store.exec]
        split
        · exact ⟨none, H, rfl, hH⟩
        · rename_i s hs
          obtain ⟨o, s', h1, h2, -⟩ := hm.call s op (hH s (List.mem_of_getElem? hs))
          refine ⟨some (j, o), H.set j s', by rw [h1]; rfl, ?_⟩
          intro t ht
          rcases List.mem_or_eq_of_mem_set ht with ht | rfl
          · exact hH t ht
          · exact h2
    obtain ⟨o, H1, h1, hI⟩ := this
    obtain ⟨os, H', h2⟩ := ih H1 hI
    exact ⟨o.toList ++ os, H', by simp only [Store.run, bind, Except.bind, h1, h2, pure, Except.pure]⟩

/-- C03: the hypothesis "runs to completion" of `CopyIndependent` is met by every program on constructed
generators (the cases differ only in which states exist: all of them, or those of `NewLFG`/`NewMT64`). -/
theorem C03_completes_Xoshiro (H : List Xoshiro) (cs : List (Cmd Xoshiro.Ext)) :
    ∃ os H', Store.run Xoshiro.methods.api Xoshiro.copy H cs = .ok (os, H') :=
  store_completes Xoshiro.safe _ (fun _ => rfl) cs H fun _ _ => trivial
theorem C03_completes_Xoroshiro (H : List Xoroshiro) (cs : List (Cmd ExtInt63)) :
    ∃ os H', Store.run Xoroshiro.methods.api Xoroshiro.copy H cs = .ok (os, H') :=
  store_completes Xoroshiro.safe _ (fun _ => rfl) cs H fun _ _ => trivial
theorem C03_completes_Rexoroshiro (H : List Rexoroshiro) (cs : List (Cmd ExtInt63)) :
    ∃ os H', Store.run Rexoroshiro.methods.api Rexoroshiro.copy H cs = .ok (os, H') :=
  store_completes Rexoroshiro.safe _ (fun _ => rfl) cs H fun _ _ => trivial
theorem C03_completes_LFG (k : Nat) (cs : List (Cmd ExtInt63)) :
    ∃ os H', Store.run LFG.methods.api LFG.copy (List.replicate k LFG.new) cs = .ok (os, H') :=
  store_completes LFG.safe _ (fun _ => rfl) cs _ fun s hs => by
    rw [(List.mem_replicate.mp hs).2]; exact LFG.inv_new
theorem C03_completes_MT64 (k : Nat) (cs : List (Cmd ExtInt63)) :
    ∃ os H', Store.run MT64.methods.api MT64.copy (List.replicate k MT64.new) cs = .ok (os, H') :=
  store_completes MT64.safe _ (fun _ => rfl) cs _ fun s hs => by
    rw [(List.mem_replicate.mp hs).2]; exact MT64.inv_new

/-- Non-vacuity: copying then drawing from both gives the same value twice. -/
example : Store.run Xoroshiro.methods.api Xoroshiro.copy [⟨1, 2⟩]
    [.copy 0, .call 0 .uint64, .call 1 .uint64, .call 0 .uint64] =
      .ok ([(0, .u64 3#64), (1, .u64 3#64), (0, .u64 0x8000300000C003#64)],
        [(⟨1, 2⟩ : Xoroshiro).step.step, (⟨1, 2⟩ : Xoroshiro).step]) := by rfl

end Crazy
