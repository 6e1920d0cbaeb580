/-
Specification vocabulary: what a caller sees of a whole history of calls. A generator is thought of as nothing but the sequence of words it has
still to give.
-/
import Verif.Spec.Api
import Verif.Spec.Stream
import Verif.Model.Xoshiro
import Verif.Model.Xoroshiro
namespace Crazy

/-- The words still to come. -/
abbrev Words := Nat → U64

/-- What differs from generator to generator. -/
structure Rules (ε : Type) where
  /-- how many words a `Read` of so many bytes uses up -/
  words : Nat → Nat
  /-- how many bytes `Restore` asks for -/
  size : Nat
  /-- the readers that `Restore` refuses -/
  refuses : Reader → Prop
  /-- what the extra methods return and do -/
  ext : ε → Words → Obs → Words → Prop

section
variable {ε : Type} (R : Rules ε) (S : U64 → Words) (V : List Byte → Words)

/-- One call: with the words `T` to come and the saved states `saved` (the bytes, with the words that were to come when they were saved), the
call `op` is observed as `o` and leaves the words `T'` to come. `S x` are the words that come after `Seed(x)`, `V iv` those after `SeedIV(iv)`. -/
def Turn (saved : List (List Byte × Words)) (T : Words) (op : Op ε) (o : Obs) (T' : Words) : Prop :=
  match op with
  | .uint64 => o = .u64 (T 0) ∧ T' = fun n => T (n + 1)
  | .read p => o = .read ⟨(bytesOf ((List.range (R.words p.length)).map T)).take p.length, p.length, none⟩ ∧ T' = fun n => T (n + R.words p.length)
  | .seed x => o = .unit ∧ T' = S x
  | .seedIV iv => o = .unit ∧ T' = V iv
  | .save w => (∃ b, o = .saved b (w.reply b).1 (w.reply b).2) ∧ T' = T
  | .restore r =>
    (∀ b T₁, (b, T₁) ∈ saved → r.Delivers b → o = .restored b.length none ∧ T' = T₁) ∧
    (R.refuses r → o = .restored (r.reply R.size).n (r.reply R.size).err ∧ T' = T)
  | .ext e => R.ext e T o T'

/-- Saved states are remembered. -/
def remember (saved : List (List Byte × Words)) (T : Words) : Obs → List (List Byte × Words)
  | .saved b _ _ => (b, T) :: saved
  | _ => saved

/-- The observations `os` of the calls `ops`, starting with the words `T` to come. -/
def Follows (saved : List (List Byte × Words)) (T : Words) : List (Op ε) → List Obs → Prop
  | [], os => os = []
  | op :: ops, os => ∃ o os' T', os = o :: os' ∧ Turn R S V saved T op o T' ∧ Follows (remember saved T o) T' ops os'

end

/-- `Int63` is the next word without its lowest bit. -/
def int63Rule : ExtInt63 → Words → Obs → Words → Prop
  | .int63, T, o, T' => o = .u64 (T 0 >>> 1) ∧ T' = fun n => T (n + 1)

/-- `Int63` is the next word without its highest bit. -/
def int63MaskRule : ExtInt63 → Words → Obs → Words → Prop
  | .int63, T, o, T' => o = .u64 (T 0 &&& 0x7fffffffffffffff#64) ∧ T' = fun n => T (n + 1)

/-- `Jump` skips `2^192` words, `Reverse` puts one back. -/
def xoshiroRule : Xoshiro.Ext → Words → Obs → Words → Prop
  | .jump, T, o, T' => o = .unit ∧ T' = fun n => T (n + 2 ^ 192)
  | .reverse, T, o, T' => o = .unit ∧ T = fun n => T' (n + 1)

/-- Every history of calls, starting from a new generator, is as the rules say. -/
def HistoryOk {σ ε : Type} (a : Api σ ε) (init : σ) (R : Rules ε) : Prop :=
  ∃ (T : Words) (S : U64 → Words) (V : List Byte → Words), ∀ ops : List (Op ε), Follows R S V [] T ops (a.run init ops)

end Crazy
