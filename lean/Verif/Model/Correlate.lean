import Verif.Model.Align
/-!
# Shifting correlations (dascore/proc/correlate.py 39-87)
-/
namespace Verif

/-- utils/time.py 341, `to_float` of a step: timedeltas are nanoseconds here and seconds as floats. -/
def stepFloat (k : Kind) (step : ℚ) : ℚ := if k = .time then step / 1000000000 else step

/-- correlate.py 75-82: the lag coordinate, evenly sampled round zero, as long as the coordinate of the dimension. `-np.ceil(...) * step`
is a float (or a timedelta). -/
def lagCoord (k : Kind) (c : RangeCoord) : Except Err Coord := do
  let half : ℚ := ⌈((c.len : ℚ) - 1) / 2⌉
  let d ← getCoordParts false (some (-half * c.step)) (some (half * c.step)) (some c.step) none
  match d with
  | .range d => do
    let e ← d.changeLength (k = .time) (some c.len)
    if e.length = c.len then .ok e else .error .assertionError
  | _ => .error .notImplemented

/-- The kind of the lag: a float for integer coordinates. -/
def lagKind (k : Kind) : Kind := if k = .time then .time else .float

/-- `np.fft.fftshift(data, axes=axis)`: the array is rolled by half the length of the axis (rounded down). -/
def Nd.fftshift {α} (a : Nd α) (axis : ℕ) : Nd α := a.roll ((a.shape.getD axis 0 / 2 : ℕ) : ℤ) axis

/-- correlate.py 39-87, `correlate_shift`. `div` divides a sample by a number. -/
def PatchM.correlateShift {α} (div : α → ℚ → α) (p : PatchM α) (dim : String) (undo : Bool) : Except Err (PatchM α) :=
  match p.cm.ents.get? dim with
  | some (_, .one k (.range c)) =>
    if dim ∉ p.cm.dims then .error .coordError
    else do
      let a := p.data.fftshift (p.cm.dims.idxOf dim)
      let b : Nd α := if undo then ⟨a.shape, fun i => div (a.get i) (stepFloat k c.step)⟩ else a
      let e ← lagCoord k c
      let cm ← p.cm.update [(dim, .simple (.one (lagKind k) e))]
      let cm ← cm.rename [(dim, "lag_" ++ dim)]
      PatchM.new cm b
  | some _ => .error .coordError
  | none => .error .coordError

end Verif
