import Verif.Model.Window
import Verif.Spec.PatchOps
/-! # Specification vocabulary for windows and rolling -/
namespace Spec
open Verif

/-- The `w` elements along `dim` whose last one is at position `e`, the other positions being those of `i`. -/
def windowEnding {α} (p : PatchM α) (dim : String) (w e : ℕ) (i : List ℕ) : List α :=
  (List.range w).map fun k => p.data.get (i.set (p.cm.dims.idxOf dim) (e + 1 - w + k))

open Classical in
/-- The patch with, at every element, the value of `f` on the window of `w` elements along `dim` which ends `off` positions
after it, and `nan` where such a window is not complete. -/
noncomputable def windowed {α β} (f : List α → β) (nan : β) (p : PatchM α) (dim : String) (w off : ℕ) : PatchM β :=
  ⟨p.cm, p.data.shape, fun i =>
    let e := posAlong p dim i + off
    if w ≤ e + 1 ∧ e < lenDim p.cm dim then f (windowEnding p dim w e i) else nan⟩

/-- The positions `0, s, 2s, …` below `n`. -/
def everyNth (n s : ℕ) : List ℕ := (List.range n).filter fun i => s ∣ i

/-- `n` samples of an evenly sampled, increasing coordinate are the fewest that last at least `v`. -/
def Fewest (c : RangeCoord) (v : ℚ) (n : ℤ) : Prop := v ≤ n * c.step ∧ ∀ m : ℤ, v ≤ m * c.step → n ≤ m

end Spec

namespace Spec
open Verif

/-- The keyword names which stand for positional arguments. -/
def reserved : List String := ["dim", "coord", "dims", "coords"]

/-- Everything a caller asks about, in order: the positional arguments, the values of `dim=`, `coord=`, `dims=` and
`coords=`, and the names of the other keywords. -/
def asked {β} (args : List (ArgVal β)) (kw : Dict (ArgVal β)) : List (ArgVal β) :=
  args ++ (kw.get? "dim").toList ++ (kw.get? "coord").toList ++ (kw.get? "dims").toList ++ (kw.get? "coords").toList ++
    (kw.filter fun q => decide (q.1 ∉ reserved)).map fun q => .name q.1

/-- `n` samples are what a step or overlap request means, given the window's number of samples. -/
def Means (c : RangeCoord) (w : ℤ) (samples : Bool) : WinReq → ℤ → Prop
  | .percent m, n => 0 ≤ m ∧ m ≤ 100 ∧ n = rint (m / 100 * w)
  | .count k, n => if samples then n = k else Fewest c k n
  | .value v, n => samples = false ∧ Fewest c v n
  | .quantity v, n => Fewest c v n

/-- `n` samples are what a window request means. -/
def WindowMeans (c : RangeCoord) (samples : Bool) (r : WinReq) (n : ℤ) : Prop :=
  if samples then r = .count n else
    match r with
    | .percent m => Fewest c (m / 100 * (c.cmax - c.cmin)) n
    | .count k => Fewest c k n
    | .value v | .quantity v => Fewest c v n

end Spec
