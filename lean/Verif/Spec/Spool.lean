import Verif.Model.Spool
/-! # A spool as a list of its patches -/
namespace Spec
open Verif

/-- What an operation does to a list (of patches with their row of metadata). -/
def listStep {R P : Type} (argsort : List ℚ → List ℕ) (key : R → ℚ) (l : List (R × P)) :
    SpoolT.Op → Except Err (List (R × P))
  | .slice sl => pySlice l sl
  | .ints ix => takeInts l ix
  | .mask m => if m.length = l.length then .ok (maskIdx l m) else .error .indexError
  | .sort => .ok (takeIdx l (argsort (l.map fun p => key p.1)))

/-- A history on a list. -/
def listRun {R P : Type} (argsort : List ℚ → List ℕ) (key : R → ℚ) :
    List SpoolT.Op → List (R × P) → Except Err (List (R × P))
  | [], l => .ok l
  | o :: os, l =>
    match listStep argsort key l o with
    | .error e => .error e
    | .ok l' => listRun argsort key os l'

end Spec
