import Verif.Model.PatchOps
import Verif.Model.Correlate
/-!
# The linear tau-p transform (dascore/transform/taup.py)

Distances are taken to be in metres and times in seconds (or to be datetimes), so that `convert_units` in line 121 changes nothing.
-/
namespace Verif

/-- `row[i]` in numba code: a negative index counts from the end. Indices further out are not checked there; here they give the first sample. -/
def pyAt (row : ℕ → ℚ) (nt : ℕ) (i : ℤ) : ℚ := row (if i < 0 then i + nt else i).toNat

/-- taup.py 32-38, 66-73: what is added for the sample value `s` when its integer part is taken to be `ind`. -/
def taupTerm (row : ℕ → ℚ) (nt : ℕ) (s : ℚ) (ind : ℤ) : ℚ :=
  if ind + 1 < nt then (1 + ind - s) * pyAt row nt ind + (s - ind) * pyAt row nt (ind + 1) else 0

/-- taup.py 16-41, `_jit_taup_uniform`. -/
def taupUniform (data : Nd ℚ) (nx nt : ℕ) (dx dt : ℚ) (ps : List ℚ) : Nd ℚ where
  shape := [2 * ps.length, nt]
  get := fun i =>
    if ps.length ≤ i.getD 0 0 then
      ((List.range nx).map fun ix : ℕ =>
        let s : ℚ := (i.getD 1 0 : ℚ) + ps.getD (i.getD 0 0 - ps.length) 0 * dx * ix / dt
        taupTerm (fun t => data.get [ix, t]) nt s (truncZ s)).sum
    else
      ((List.range nx).map fun ix : ℕ =>
        let s : ℚ := (i.getD 1 0 : ℚ) + ps.getD (ps.length - 1 - i.getD 0 0) 0 * dx * ix / dt
        taupTerm (fun t => data.get [nx - 1 - ix, t]) nt s (truncZ s)).sum

/-- taup.py 44-75, `_jit_taup_general`. The integer part for the negative slowness is that of the positive one (line 65). -/
def taupGeneral (data : Nd ℚ) (nx nt : ℕ) (dist : List ℚ) (dt : ℚ) (ps : List ℚ) : Nd ℚ where
  shape := [2 * ps.length, nt]
  get := fun i =>
    let far := fun ix : ℕ => dist.getD ix 0 - dist.getD 0 0
    if ps.length ≤ i.getD 0 0 then
      ((List.range nx).map fun ix : ℕ =>
        let s : ℚ := (i.getD 1 0 : ℚ) + ps.getD (i.getD 0 0 - ps.length) 0 * far ix / dt
        taupTerm (fun t => data.get [ix, t]) nt s (truncZ s)).sum
    else
      ((List.range nx).map fun ix : ℕ =>
        let v := ps.getD (ps.length - 1 - i.getD 0 0) 0
        let s : ℚ := (i.getD 1 0 : ℚ) + v * (far (dist.length - 1) - far (nx - 1 - ix)) / dt
        taupTerm (fun t => data.get [nx - 1 - ix, t]) nt s (truncZ ((i.getD 1 0 : ℚ) + v * far ix / dt))).sum

/-- taup.py 23, 51: the slownesses of the rows. -/
def twoSided (ps : List ℚ) : List ℚ := (ps.reverse.map fun p => -p) ++ ps

/-- taup.py 127-132: the velocities are positive and increase. -/
def velocitiesOk (vs : List ℚ) : Bool :=
  vs.all (fun v => decide (0 < v)) && (vs.zip vs.tail).all fun p => decide (p.1 < p.2)

/-- taup.py 139-146: the choice between the two loops. -/
def taupData (data : Nd ℚ) (nx nt : ℕ) (c : Coord) (dt : ℚ) (ps : List ℚ) : Nd ℚ :=
  match c with
  | .range r => taupUniform data nx nt r.step dt ps
  | c => taupGeneral data nx nt c.vals dt ps

/-- taup.py 78-154, `tau_p`. The loops get the data of the patch as it was given (line 146), whatever the order of its dimensions. -/
def PatchM.tauP (p : PatchM ℚ) (vs : List ℚ) : Except Err (PatchM ℚ) :=
  if "time" ∉ p.cm.dims ∨ "distance" ∉ p.cm.dims then .error .patchDimError
  else match p.cm.ents.get? "distance", p.cm.ents.get? "time" with
    | some (_, .one _ c), some (_, .one k (.range r)) =>
      if !velocitiesOk vs then .error .parameterError
      else match p.data.shape with
        | [nx, nt] => do
          let ps := vs.map fun v => 1 / v
          let sl ← getCoordData .float (twoSided ps)
          let cm ← CM.mk? ["slowness", "time"] [("slowness", (["slowness"], .one .float sl)), ("time", (["time"], .one k (.range r)))]
          PatchM.new cm (taupData p.data nx nt c (stepFloat k r.step) ps)
        | _ => .error .valueError
    | _, _ => .error .coordError

end Verif
