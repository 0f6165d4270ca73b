import Verif.Model.Frozen
/-! # Specification vocabulary for frozen dictionaries -/
namespace Spec
open Verif
variable {V : Type}

/-- The value of a key: the last one given for it. -/
def lastValue (items : List (PyKey × V)) (k : PyKey) : Option V := ((items.filter fun p => p.1 = k).map Prod.snd).getLast?

/-- Made by the class: by construction, `new`, and taking hashes. -/
inductive Made (h : PyKey → V → Option (BitVec 64)) : Frozen V → Prop where
  | make (items : List (PyKey × V)) : Made h (Frozen.make items)
  | new {f g : Frozen V} (kwargs : List (String × V)) (hf : Made h f) (hg : f.new kwargs = .ok g) : Made h g
  | hashed {f : Frozen V} (hf : Made h f) : Made h (f.hashed h).2

/-- The same contents. -/
def SameContents (f g : Frozen V) : Prop := ∀ k, Items.get? f.dict k = Items.get? g.dict k

end Spec
