import Verif.Model.Fourier
import Verif.Model.TauP
/-!
# Dispersion images by phase shifts (dascore/transform/dispersion.py)

Distances are taken to be in metres, so that `convert_units` in line 87 changes nothing. Coordinates have values (no coordinate without
labels). Arithmetic is exact; what is complex or irrational is a complex number.
-/
namespace Verif

/-- dispersion.py 104-120: the limits of the frequencies. -/
def dispersionLimits (dt : ℚ) : Option (ℚ × ℚ) → Except Err (ℚ × ℚ)
  | none => .ok (0, 1 / 2 / dt)
  | some (a, b) =>
    if a ≤ 0 ∨ b ≤ 0 then .error .parameterError
    else if b ≤ a then .error .parameterError
    else if 1 / 2 / dt ≤ a ∨ 1 / 2 / dt ≤ b then .error .parameterError
    else .ok (a, b)

/-- dispersion.py 127-133: the number of frequencies. -/
def dispersionCount (nt : ℕ) (fs : ℚ) : Option ℚ → ℕ
  | none => nt
  | some res => (truncZ ((nt : ℚ) * (fs / nt) / res)).toNat

/-- dispersion.py 129, 131: the frequencies. (A single one is `0 / 0`, which is not modelled; it is refused in any case.) -/
def dispersionFreqs (nf : ℕ) (fs : ℚ) : List ℚ := (List.range nf).map fun k : ℕ => (k : ℚ) * fs / ((nf : ℚ) - 1)

/-- dispersion.py 147, 148: `np.argmax(l >= x)`. -/
def firstAtLeast (l : List ℚ) (x : ℚ) : ℕ := if l.any (fun y => decide (x ≤ y)) then l.findIdx (fun y => decide (x ≤ y)) else 0

/-- `np.fft.fft(row, n=n)[k]` of a row of `nt` samples: it is cut or continued with zeros. -/
noncomputable def fftTo (row : ℕ → ℂ) (nt n k : ℕ) : ℂ :=
  ((List.range n).map fun j : ℕ => (if j < nt then row j else 0) * expi ((j : ℚ) * k / n)).sum

/-- dispersion.py 141-145. -/
noncomputable def unitOrZero (z : ℂ) : ℂ := if ‖z‖ = 0 then 0 else z / ‖z‖

/-- dispersion.py 157-160 and 166: the image, for the frequencies `fs` of which the first is number `first` of all. -/
noncomputable def dispersionImage (data : Nd ℂ) (nx nt nf first : ℕ) (xs vs fs : List ℚ) : Nd ℝ where
  shape := [vs.length, fs.length]
  get := fun i =>
    ‖((List.range nx).map fun ix : ℕ =>
      expi (-(xs.getD ix 0 * fs.getD (i.getD 1 0) 0 / vs.getD (i.getD 0 0) 0)) * unitOrZero (fftTo (fun j => data.get [ix, j]) nt nf (first + i.getD 1 0))).sum‖ / nx

/-- dispersion.py 147-168: the frequencies in the range, the image and its coordinates. -/
noncomputable def dispersionPatch (data : Nd ℂ) (nx nt nf : ℕ) (fs : ℚ) (xs vs : List ℚ) (lim : ℚ × ℚ) : Except Err (PatchM ℝ) := do
  let all := dispersionFreqs nf fs
  let live := (all.take (firstAtLeast all lim.2)).drop (firstAtLeast all lim.1)
  if firstAtLeast all lim.2 ≤ firstAtLeast all lim.1 then .error .parameterError
  else do
    let v ← getCoordData .float vs
    let f ← getCoordData .float live
    let cm ← CM.mk? ["velocity", "frequency"] [("velocity", (["velocity"], .one .float v)), ("frequency", (["frequency"], .one .float f))]
    PatchM.new cm (dispersionImage data nx nt nf (firstAtLeast all lim.1) xs vs live)

/-- dispersion.py 88-133 for the transposed patch: the checks. An FFT to no samples is a ValueError of numpy. -/
noncomputable def dispersionOf (data : Nd ℂ) (xs ts vs : List ℚ) (res : Option ℚ) (lim : Option (ℚ × ℚ)) : Except Err (PatchM ℝ) :=
  match ts with
  | t0 :: t1 :: _ =>
    let dt := (t1 - t0) / 1000000000
    if !(vs.zip vs.tail).all (fun p => decide (p.1 < p.2)) then .error .parameterError
    else if vs = [] then .error .valueError
    else if vs.any (fun v => decide (v ≤ 0)) then .error .parameterError
    else if res.any (fun r => decide (r ≤ 0)) then .error .parameterError
    else do
      let l ← dispersionLimits dt lim
      let nf := dispersionCount ts.length (1 / dt) res
      if nf = 0 then .error .valueError
      else dispersionPatch data xs.length ts.length nf (1 / dt) xs vs l
  | _ => .error .indexError

/-- dispersion.py 15-168, `dispersion_phase_shift`. Times that are not datetimes cannot be divided by a timedelta (line 91). -/
noncomputable def PatchM.dispersion (p : PatchM ℂ) (vs : List ℚ) (res : Option ℚ) (lim : Option (ℚ × ℚ)) : Except Err (PatchM ℝ) :=
  if "time" ∉ p.cm.dims ∨ "distance" ∉ p.cm.dims then .error .patchDimError
  else do
    let t ← p.transpose [.dim "distance", .dim "time"]
    match t.cm.ents.get? "distance", t.cm.ents.get? "time" with
    | some (_, .one _ c), some (_, .one .time ct) => dispersionOf t.data c.vals ct.vals vs res lim
    | _, _ => .error .typeError

end Verif
