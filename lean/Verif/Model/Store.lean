/-
Several generators of one type living at distinct addresses, with `Copy`.
-/
import Verif.Model.Source
namespace Crazy

/-- What a program does with generators of one type through pointers: call a method on the generator at an
address, or `Copy` it, which allocates a new generator (`lfg.go` 125-129, `mt64-19937.go` 164-168, `xoroshiro.go` 142-146 and
212-216, `xoshiro.go` 299-303: `l := *lfg; return &l`). -/
inductive Cmd (ε : Type) where
  | call (id : Nat) (op : Op ε)
  | copy (id : Nat)

/-- The memory: the generator stored at address `id` is the `id`-th element. A command on an address that
does not exist does nothing (Go's type system excludes it). The result is the observation, if there is one,
tagged with the address. `Copy` uses the type's own `copy` function. -/
def Store.exec {σ ε : Type} (a : Api σ ε) (copy : σ → σ) (H : List σ) : Cmd ε → Go (Option (Nat × Obs) × List σ)
  | .call id op =>
    match H[id]? with
    | none => .ok (none, H)
    | some s => do
      let (o, s') ← a.call s op
      return (some (id, o), H.set id s')
  | .copy id =>
    match H[id]? with
    | none => .ok (none, H)
    | some s => .ok (none, H ++ [copy s])

/-- A program: a sequence of commands in the order in which they happen to be executed, i.e. any interleaving
of the calls made by its parts. A panic ends the program. -/
def Store.run {σ ε : Type} (a : Api σ ε) (copy : σ → σ) : List σ → List (Cmd ε) → Go (List (Nat × Obs) × List σ)
  | H, [] => .ok ([], H)
  | H, c :: cs => do
    let (o, H) ← Store.exec a copy H c
    let (os, H) ← Store.run a copy H cs
    return (o.toList ++ os, H)

end Crazy
