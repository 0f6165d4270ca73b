import Verif.Model.Arith
import Verif.Model.Moving
/-!
# Kurtosis and STA/LTA (dascore/transform/kurtosis.py, dascore/transform/stalta.py)

Arithmetic is exact; NaN in the result is `none`, NaN in the data is not modelled. Nor are the attributes of the result.
-/
namespace Verif

/-- kurtosis.py 42-44 and 48, `x[start:stop]` for position `i`. -/
def clippedWindow (x : List ℚ) (nwin i : ℕ) : List ℚ :=
  (x.take (min (i + (nwin - nwin / 2)) x.length)).drop (i - nwin / 2)

/-- kurtosis.py 45, the number of samples. -/
def clippedCount (npts nwin i : ℕ) : ℕ := min (i + (nwin - nwin / 2)) npts - (i - nwin / 2)

/-- kurtosis.py 32-50 and 67-70: a sum of powers divided by the number of samples. -/
def powerMean (x : List ℚ) (nwin i k : ℕ) : ℚ := (clippedWindow (x.map (· ^ k)) nwin i).sum / clippedCount x.length nwin i

/-- kurtosis.py 72-78, from the first four moments. -/
def pearson (m1 m2 m3 m4 : ℚ) : Option ℚ :=
  let mu2 := m2 - m1 ^ 2
  let mu4 := m4 - 4 * m1 * m3 + 6 * m1 ^ 2 * m2 - 3 * m1 ^ 4
  if 0 < mu2 then some (mu4 / mu2 ^ 2) else none

/-- kurtosis.py 53-80, `_windowed_kurtosis`, for one line. -/
def windowedKurtosis (nwin : ℕ) (x : List ℚ) : List (Option ℚ) :=
  (List.range x.length).map fun i : ℕ => pearson (powerMean x nwin i 1) (powerMean x nwin i 2) (powerMean x nwin i 3) (powerMean x nwin i 4)

/-- `np.var`. -/
def npVar (x : List ℚ) : ℚ := (x.map fun y => (y - x.sum / x.length) ^ 2).sum / x.length

/-- kurtosis.py 99-115, the running mean, variance and kurtosis after one more sample. -/
def kurtosisStep (c varx : ℚ) (st : ℚ × ℚ × Option ℚ) (x : ℚ) : ℚ × ℚ × Option ℚ :=
  let mean := c * st.1 + (1 - c) * x
  let var := c * st.2.1 + (1 - c) * (x - mean) ^ 2
  let norm := if varx < var then var ^ 2 else varx ^ 2
  (mean, var, if 0 < norm then st.2.2.map fun k => c * k + (1 - c) * (x - mean) ^ 4 / norm else none)

/-- kurtosis.py 97-117, the loop over the samples. -/
def kurtosisLoop (c varx : ℚ) : ℚ × ℚ × Option ℚ → List ℚ → List (Option ℚ)
  | _, [] => []
  | st, x :: r => (kurtosisStep c varx st x).2.2 :: kurtosisLoop c varx (kurtosisStep c varx st x) r

/-- kurtosis.py 83-118, `_recursive_kurtosis`, for one line; `c` is `1 - step / (nwin * step)`. -/
def recursiveKurtosis (nwin : ℕ) (x : List ℚ) : List (Option ℚ) := kurtosisLoop (1 - 1 / nwin) (npVar x) (0, 0, some 0) x

/-- A function of every line along an axis. -/
def Nd.overLines {α β : Type} [Inhabited β] (f : List α → List β) (a : Nd α) (axis : ℕ) : Nd β :=
  ⟨a.shape, fun i => (f (a.lineThrough axis i)).getD (i.getD axis 0) default⟩

/-- patch.py 633-677 for keywords with exactly one dimension. -/
def oneDim {β : Type} (m : CM) (kw : Dict β) : Except Err (String × β) :=
  match kw.filter fun v => m.dims.contains v.1 with
  | [v] => if kw.any fun v => !m.dims.contains v.1 then .error .patchCoordinateError else .ok v
  | _ => .error .parameterError

/-- kurtosis.py 19-20: descending labels are sorted. -/
def ascendingLabels (c : RangeCoord) : Except Err Coord := if c.reverseSorted then (c.sort false).map Prod.fst else .ok (.range c)

/-- kurtosis.py 17-29, `_get_window_samples`. -/
def kurtosisWindow (c : RangeCoord) (samples : Bool) (r : WinReq) : Except Err ℤ := do
  let c' ← ascendingLabels c
  let n ← c'.sampleCount samples false r
  if n < 2 then .error .parameterError else .ok n

/-- kurtosis.py 122-242, `Patch.kurtosis`. That the dimension is moved to the front and back again is not modelled: the function is applied along its axis. -/
def PatchM.kurtosis (recursive : Bool) (p : PatchM ℚ) (kw : Dict WinReq) (samples : Bool) : Except Err (PatchM (Option ℚ)) := do
  let v ← oneDim p.cm kw
  match p.cm.ents.get? v.1 with
  | some (_, .one _ (.range c)) => do
    let n ← kurtosisWindow c samples v.2
    return ⟨p.cm, p.data.overLines (if recursive then recursiveKurtosis n.toNat else windowedKurtosis n.toNat) (p.cm.dims.idxOf v.1)⟩
  | _ => .error .coordError

/-! ### STA/LTA -/

/-- The mean of a window, `np.mean`. -/
def windowMean (l : List ℚ) : Option ℚ := some (l.sum / l.length)

/-- A quotient of two samples. A division by zero has no (finite) value. -/
def nanDiv : Option ℚ → Option ℚ → Option ℚ
  | some a, some b => if b = 0 then none else some (a / b)
  | _, _ => none

/-- stalta.py 14-62, `Patch.stalta`; the values are lists of numbers of one unit. misc.py 620-627, `check_filter_kwargs`: one keyword with two values. -/
def PatchM.stalta (argsort : List ℚ → List ℕ) (p : PatchM ℚ) (kw : Dict (List WinReq)) (samples : Bool) : Except Err (PatchM (Option ℚ)) :=
  match kw with
  | [(d, [sta, lta])] =>
    if lta.magnitude ≤ sta.magnitude then .error .parameterError
    else do
      let s ← p.rolling windowMean none d sta none none samples false
      let l ← p.rolling windowMean none d lta none none samples false
      PatchM.binary argsort nanDiv s l
  | _ => .error .filterValueError

end Verif
