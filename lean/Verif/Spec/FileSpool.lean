import Verif.Model.SpoolSelect
import Verif.Spec.CoordManager
/-! # What a spool over a file promises -/
namespace Spec
open Verif

/-- `q` has all the samples of `p`, at the same places and with the same labels. -/
def WholeOf {α} (p q : PatchM α) : Prop :=
  ∃ red, Rearranged p q red ∧ ∀ d k c, p.cm.ents.get? d = some ([d], .one k c) → red d = List.range c.length

/-- The attributes `r` of a patch do not fit those of a row `c`: a text does not match (the one of the row being a pattern), or a number differs. -/
def Unlike (glob : String → String → Bool) (cols : List Key) (c r : TRow) : Prop :=
  ∃ k ∈ cols, k.suf = .plain ∧ ((∃ s t, c k = .str s ∧ s ≠ "" ∧ r k = .str t ∧ glob s t = false) ∨ ∃ x y, c k = .num x ∧ r k = .num y ∧ x ≠ y)

/-- Along some dimension all the labels of the patch lie outside the limits of the row (with the tolerance of selections). -/
def Elsewhere {α} (cols : List Key) (c : TRow) (p : PatchM α) : Prop :=
  ∃ d k cd lo hi, p.cm.ents.get? d = some ([d], .one k cd) ∧ (∀ s : Suffix, s ≠ .plain → (⟨d, s⟩ : Key) ∈ cols) ∧
    c ⟨d, .min⟩ = .num lo ∧ c ⟨d, .max⟩ = .num hi ∧
    ∀ i < cd.length, ∃ v, cd.labels[i]? = some (some v) ∧ (v + tolOf cd < lo ∨ hi + tolOf cd < v)

/-- The row of a later patch `p` of a file does not fit an earlier one `p'`. -/
def ToldApart {α} (glob : String → String → Bool) (cols : List Key) (row : PatchM α → TRow) (p' p : PatchM α) : Prop :=
  Unlike glob cols (row p) (row p') ∨ Elsewhere cols (row p) p'

end Spec
