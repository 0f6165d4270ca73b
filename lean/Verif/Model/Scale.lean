import Verif.Model.PatchOps
import Verif.Model.Calculus
import Verif.Model.Gaps
import Mathlib.Algebra.Order.Group.Unbundled.Abs
import Mathlib.Algebra.Field.Defs
/-!
# Scaling lines of data (dascore/proc/basic.py: normalize, standardize, demean, demedian; dascore/proc/detrend.py)

A sample is a number of an ordered field, or `none` for NaN; arithmetic is exact. The square root is a parameter. Integers are numbers with a width, which
matters for `np.abs` only.
-/
namespace Verif

/-- The samples of a line that are not NaN. -/
def present {K : Type} (l : List (Option K)) : List K := l.filterMap id

/-- A function of lines along an axis, for all lines. -/
def Nd.eachLine {α : Type} [Inhabited α] (f : List α → List α) (a : Nd α) (axis : ℕ) : Nd α :=
  ⟨a.shape, fun i => (f (a.lineThrough axis i)).getD (i.getD axis 0) default⟩

/-- A function of lines along a dimension; the coordinates are kept (`patch.new(data=...)`). An unknown dimension is refused by `get_axis`
(coordmanager.py 778-796). -/
def PatchM.eachLine {α : Type} [Inhabited α] (f : List α → List α) (p : PatchM α) (dim : String) : Except Err (PatchM α) :=
  if dim ∉ p.cm.dims then .error .coordError else .ok ⟨p.cm, p.data.eachLine f (p.cm.dims.idxOf dim)⟩

/-- basic.py 344, `norm`. -/
inductive NormKind where
  | l1
  | l2
  | max
  | bit
  deriving DecidableEq, Repr

section
variable {K : Type} [Field K] [LinearOrder K]

/-- `np.abs`. Of integers with a sign and a number of bits, the least one is its own absolute value. -/
def npAbs (bits : Option ℕ) (x : K) : K :=
  match bits with
  | some b => if x = -(2 : K) ^ (b - 1) then x else |x|
  | none => |x|

/-- The greatest number of a list. -/
def greatestOf : List K → Option K
  | [] => none
  | x :: l => some (l.foldl Max.max x)

/-- basic.py 379-388: what the samples of a line are divided by, for norms of lines. `np.nansum` of nothing is zero, `np.nanmax` of nothing NaN. -/
def lineDivisor (root : K → K) (bits : Option ℕ) (kind : NormKind) (l : List (Option K)) : Option K :=
  match kind with
  | .l1 => some ((present l).map (npAbs bits)).sum
  | .l2 => some (root ((present l).map fun x => npAbs bits x ^ 2).sum)
  | .max => greatestOf ((present l).map (npAbs bits))
  | .bit => none

/-- basic.py 400, `data / np.where(divisor == 0, 1, divisor)` for one sample. -/
def overDivisor (x d : Option K) : Option K :=
  match x, d with
  | some x, some d => some (x / if d = 0 then 1 else d)
  | _, _ => none

/-- basic.py 376-400 for one line. -/
def normalizeLine (root : K → K) (bits : Option ℕ) (kind : NormKind) (l : List (Option K)) : List (Option K) :=
  match kind with
  | .bit => l.map fun x => overDivisor x (x.map (npAbs bits))
  | kind => l.map fun x => overDivisor x (lineDivisor root bits kind l)

/-- basic.py 340-401, `normalize`. `np.nanmax` of an axis without samples raises a ValueError. -/
def PatchM.normalize (root : K → K) (bits : Option ℕ) (p : PatchM (Option K)) (dim : String) (kind : NormKind) : Except Err (PatchM (Option K)) :=
  if dim ∈ p.cm.dims ∧ kind = .max ∧ p.data.shape.getD (p.cm.dims.idxOf dim) 0 = 0 then .error .valueError
  else p.eachLine (normalizeLine root bits kind) dim

/-- `np.nanmean` of a line with samples. -/
def lineMean (v : List K) : K := v.sum / v.length

/-- The square of `np.nanstd`. -/
def lineVar (v : List K) : K := (v.map fun x => (x - lineMean v) ^ 2).sum / v.length

/-- basic.py 442-445 for one line: zero divided by zero is NaN. -/
def standardizeLine (root : K → K) (l : List (Option K)) : List (Option K) :=
  l.map fun x => x.bind fun x => if root (lineVar (present l)) = 0 then none else some ((x - lineMean (present l)) / root (lineVar (present l)))

/-- basic.py 404-445, `standardize`. -/
def PatchM.standardize (root : K → K) (p : PatchM (Option K)) (dim : String) : Except Err (PatchM (Option K)) := p.eachLine (standardizeLine root) dim

/-- basic.py 904-961, `demean`. -/
def PatchM.demean (p : PatchM (Option K)) (dim : String) : Except Err (PatchM (Option K)) :=
  p.eachLine (fun l => l.map fun x => x.map fun x => x - lineMean (present l)) dim

/-- `scipy.signal.detrend(type="linear")` of one line: the residuals of the straight line with the least squares. -/
def detrendLine (l : List K) : List K :=
  let c : K := ((l.length : K) - 1) / 2
  let b : K := (l.mapIdx fun t x => ((t : K) - c) * x).sum / ((List.range l.length).map fun t : ℕ => ((t : K) - c) ^ 2).sum
  l.mapIdx fun t x => x - (lineMean l + b * ((t : K) - c))

/-- detrend.py 15-45, `detrend`, for data without NaN (scipy refuses others if the type is linear). -/
def PatchM.detrend (p : PatchM K) (dim : String) (linear : Bool) : Except Err (PatchM K) :=
  if dim ∉ p.cm.dims then .error .parameterError
  else .ok ⟨p.cm, @Nd.eachLine K ⟨0⟩ (if linear then detrendLine else fun l => l.map fun x => x - lineMean l) p.data (p.cm.dims.idxOf dim)⟩

end

/-- basic.py 841-901, `demedian`. -/
def PatchM.demedian (p : PatchM (Option ℚ)) (dim : String) : Except Err (PatchM (Option ℚ)) :=
  p.eachLine (fun l => l.map fun x => x.map fun x => x - npMedian false (present l)) dim

end Verif
