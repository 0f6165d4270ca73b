import Verif.Model.Arith
/-!
# Choosing between samples (dascore/proc/basic.py 711-771, `Patch.where`)

Samples are of any type. The kind of the result (`np.where` promotes the types of its arguments) and the attributes are not modelled.
-/
namespace Verif

/-- An argument that is a patch, or anything else `np.array` takes (a scalar is an array without axes). -/
inductive Operand (α : Type) where
  | patch (p : PatchM α)
  | array (a : Nd α)

/-- proc/basic.py 758-759: the samples of an argument. -/
def Operand.data {α} : Operand α → Nd α
  | .patch p => p.data
  | .array a => a

/-- proc/basic.py 749-750 and 754: a patch and an argument, aligned if the argument is a patch. -/
def PatchM.alignWith {α β} (argsort : List ℚ → List ℕ) (p : PatchM α) : Operand β → Except Err (PatchM α × Operand β)
  | .patch q => (alignPatches argsort p q).map fun r => (r.1, .patch r.2)
  | .array a => .ok (p, .array a)

/-- proc/basic.py 752-756: the patch, the condition and the other samples. If the other samples are a patch the condition is aligned again. -/
def PatchM.alignOther {α} (argsort : List ℚ → List ℕ) (p : PatchM α) (cond : Operand Bool) : Operand α → Except Err (PatchM α × Operand Bool × Operand α)
  | .patch q => do
    let r ← alignPatches argsort p q
    let s ← r.1.alignWith argsort cond
    return (s.1, s.2, .patch r.2)
  | .array a => .ok (p, cond, .array a)

/-- `np.where`. -/
def Nd.choose {α} (c : Nd Bool) (a b : Nd α) : Except Err (Nd α) := do
  let s ← Nd.broadcastShapes a.shape c.shape
  let t ← Nd.broadcastShapes s b.shape
  return ⟨t, fun i => if c.get (Nd.castIdx c.shape i) then a.get (Nd.castIdx a.shape i) else b.get (Nd.castIdx b.shape i)⟩

/-- proc/basic.py 711-771, `where`. `isBool` tells whether the condition has the type of booleans (a condition of another type is given here
by the truth of its samples). -/
def PatchM.where {α} (argsort : List ℚ → List ℕ) (p : PatchM α) (isBool : Bool) (cond : Operand Bool) (other : Operand α) : Except Err (PatchM α) := do
  let r ← p.alignWith argsort cond
  let s ← r.1.alignOther argsort r.2 other
  if isBool then
    let a ← Nd.choose s.2.1.data s.1.data s.2.2.data
    PatchM.new s.1.cm a
  else .error .valueError

end Verif
