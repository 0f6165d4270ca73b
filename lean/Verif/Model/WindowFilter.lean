import Verif.Model.Scale
import Verif.Model.Moving
/-!
# Filters with windows: median, Savitzky-Golay and Gaussian (dascore/proc/filter.py)

Arithmetic is exact and NaN is not modelled. The Savitzky-Golay and Gaussian filters of one line are parameters, functions of the window.
-/
namespace Verif

/-- filter.py 206-209 for one dimension: the axis and the number of samples. -/
def filterWindow (m : CM) (samples : Bool) (q : String × WinReq) : Except Err (ℕ × ℤ) :=
  match m.ents.get? q.1 with
  | some (_, .one _ c) => (c.sampleCount samples false q.2).map fun n => (m.dims.idxOf q.1, n)
  | _ => .error .coordError

/-- filter.py 196-210, `_create_size_and_axes`; the dimensions are checked as in patch.py 594-677. -/
def filterWindows (m : CM) (kw : Dict WinReq) (samples : Bool) : Except Err (List (ℕ × ℤ)) :=
  if !(kw.any fun v => m.dims.contains v.1) then .error .parameterError
  else if kw.any fun v => !m.dims.contains v.1 then .error .patchCoordinateError
  else kw.mapM (filterWindow m samples)

/-! ### Median filter -/

/-- The position that `scipy.ndimage` reads for position `j` of `n` samples; none for the fill value. -/
def extendPos (mode : BoundaryMode) (n : ℕ) (j : ℤ) : Option ℕ :=
  match mode with
  | .reflect => some (reflectPos n j)
  | .constant _ => if 0 ≤ j ∧ j < n then some j.toNat else none
  | .nearest => some (min (max j 0) (n - 1)).toNat
  | .mirror => some (if j % (2 * n - 2) < n then j % (2 * n - 2) else 2 * n - 2 - j % (2 * n - 2)).toNat
  | .wrap => some (j % n).toNat

/-- The fill value. -/
def BoundaryMode.fill : BoundaryMode → ℚ
  | .constant c => c
  | _ => 0

/-- The positions in the block of size `size` around `i`. -/
def blockPositions (mode : BoundaryMode) : List ℕ → List ℕ → List ℕ → List (List (Option ℕ))
  | n :: sh, w :: size, j :: i =>
    (List.range w).flatMap fun t : ℕ => (blockPositions mode sh size i).map (extendPos mode n ((j : ℤ) - (w / 2 : ℕ) + t) :: ·)
  | _, _, _ => [[]]

/-- The sample at a position. -/
def sampleAt (mode : BoundaryMode) (a : Nd ℚ) (j : List (Option ℕ)) : ℚ := if j.all Option.isSome then a.get (j.map fun x => x.getD 0) else mode.fill

/-- `scipy.ndimage.median_filter`: the sample of rank `size // 2` in the block. -/
def medianData (mode : BoundaryMode) (a : Nd ℚ) (size : List ℕ) : Nd ℚ :=
  ⟨a.shape, fun i => MoveOp.ofScipy .median ((blockPositions mode a.shape size i).map (sampleAt mode a))⟩

/-- filter.py 205-209, the sizes along all axes. -/
def blockSize (n : ℕ) (ws : List (ℕ × ℤ)) : List ℤ := ws.foldl (fun s w => s.set w.1 w.2) (List.replicate n 1)

/-- filter.py 213-267, `Patch.median_filter`. scipy refuses sizes below one (ValueError if negative, RuntimeError if zero). -/
def PatchM.medianFilter (p : PatchM ℚ) (mode : BoundaryMode) (kw : Dict WinReq) (samples : Bool) : Except Err (PatchM ℚ) := do
  let ws ← filterWindows p.cm kw samples
  if (blockSize p.cm.dims.length ws).any fun s => decide (s ≤ 0) then .error .valueError
  else .ok ⟨p.cm, medianData mode p.data ((blockSize p.cm.dims.length ws).map Int.toNat)⟩

/-! ### Savitzky-Golay and Gaussian filters -/

section
variable {K : Type} [Inhabited K]

/-- `scipy.signal.savgol_filter` along one axis: the window must have more samples than `polyorder`, and with `mode="interp"` no more than the line. -/
def savgolAxis (savgol : ℕ → ℕ → List K → List K) (interp : Bool) (polyorder : ℕ) (a : Nd K) (w : ℕ × ℤ) : Except Err (Nd K) :=
  if w.2 ≤ polyorder then .error .valueError
  else if interp && decide ((a.shape.getD w.1 0 : ℤ) < w.2) then .error .valueError
  else .ok (a.eachLine (savgol w.2.toNat polyorder) w.1)

/-- filter.py 337-401, `Patch.savgol_filter`. Every filter of the loop (392-400) is applied to the data of the patch. -/
def PatchM.savgolFilter (savgol : ℕ → ℕ → List K → List K) (interp : Bool) (p : PatchM K) (polyorder : ℕ) (kw : Dict WinReq) (samples : Bool) : Except Err (PatchM K) := do
  let ws ← filterWindows p.cm kw samples
  let data ← ws.foldlM (fun _ w => savgolAxis savgol interp polyorder p.data w) p.data
  return ⟨p.cm, data⟩

/-- `scipy.ndimage.gaussian_filter` along one axis, with the standard deviation in samples. Axes are left alone if it is not positive. -/
def gaussAxis (gauss : ℕ → List K → List K) (a : Nd K) (w : ℕ × ℤ) : Nd K := if w.2 ≤ 0 then a else a.eachLine (gauss w.2.toNat) w.1

/-- filter.py 404-465, `Patch.gaussian_filter`. -/
def PatchM.gaussianFilter (gauss : ℕ → List K → List K) (p : PatchM K) (kw : Dict WinReq) (samples : Bool) : Except Err (PatchM K) := do
  let ws ← filterWindows p.cm kw samples
  return ⟨p.cm, ws.foldl (gaussAxis gauss) p.data⟩

end

end Verif
