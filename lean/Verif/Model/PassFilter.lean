import Verif.Model.Scale
import Verif.Model.Units
import Verif.Model.Correlate
/-!
# Pass and notch filters (dascore/proc/filter.py)

The design of the recursive filters and their application to one line of samples are scipy's, and parameters here; what scipy refuses is modelled. Numbers
are exact.
-/
namespace Verif

/-- The end of a filter range: None (or nan), `...`, a number or a quantity. -/
inductive PassLimit where
  | null
  | dots
  | num (x : ℚ)
  | quant (q : Quant ℚ)
  deriving DecidableEq, Repr

/-- `pd.isnull`, misc.py 612-613: not true of `...`. -/
def PassLimit.isNull : PassLimit → Bool
  | .null => true
  | _ => false

/-- units.py 340-341. -/
def PassLimit.toFLimit : PassLimit → FLimit ℚ
  | .null => .nothing
  | .dots => .nothing
  | .num x => .num x
  | .quant q => .quant q

/-- misc.py 603-617, `check_filter_sequence`. `none` stands for what is not a sequence (also numpy arrays). -/
def checkFilterSequence (r : Option (List PassLimit)) : Except Err (PassLimit × PassLimit) :=
  match r with
  | some [a, b] => if a.isNull && b.isNull then .error .filterValueError else .ok (a, b)
  | _ => .error .filterValueError

/-- misc.py 620-627, `check_filter_kwargs`. -/
def checkFilterKwargs (kw : Dict (Option (List PassLimit))) : Except Err (String × PassLimit × PassLimit) :=
  match kw with
  | [(d, r)] => (checkFilterSequence r).map fun l => (d, l)
  | _ => .error .filterValueError

/-- misc.py 630-644, `check_filter_range`; the limits are fractions of the Nyquist frequency. -/
def checkFilterRange (low high : Option ℚ) : Except Err Unit :=
  if low.any fun x => decide (x < 0) || decide (1 < x) then .error .filterValueError
  else if high.any fun x => decide (x < 0) || decide (1 < x) then .error .filterValueError
  else match low, high with
    | some l, some h => if h ≤ l then .error .filterValueError else .ok ()
    | _, _ => .ok ()

/-- What the filter is designed for; limits are fractions of the Nyquist frequency. -/
inductive PassBand where
  | band (low high : ℚ)
  | highpass (low : ℚ)
  | lowpass (high : ℚ)
  deriving DecidableEq, Repr

/-- The limits of a band. -/
def PassBand.limits : PassBand → List ℚ
  | .band l h => [l, h]
  | .highpass l => [l]
  | .lowpass h => [h]

/-- The order of scipy's Butterworth filter. -/
def PassBand.order (corners : ℕ) : PassBand → ℕ
  | .band _ _ => 2 * corners
  | _ => corners

/-- filter.py 88-100, which filter. -/
def choosePass (low high : Option ℚ) : Except Err PassBand :=
  match low, high with
  | some l, some h => .ok (.band l h)
  | some l, none => .ok (.highpass l)
  | none, some h => .ok (.lowpass h)
  | none, none => .error .assertionError

/-- scipy's `iirfilter`: critical frequencies must be inside of 0 and the Nyquist frequency. -/
def iirfilterCheck (b : PassBand) : Except Err PassBand :=
  if b.limits.any fun x => decide (x ≤ 0) || decide (1 ≤ x) then .error .valueError else .ok b

/-- filter.py 81-101, `_get_sos`: what is designed. -/
def passBand (rate : ℚ) (lo hi : Option ℚ) : Except Err PassBand := do
  checkFilterRange (lo.map (· / (rate / 2))) (hi.map (· / (rate / 2)))
  let b ← choosePass (lo.map (· / (rate / 2))) (hi.map (· / (rate / 2)))
  iirfilterCheck b

/-- patch.py 681-709, `get_dim_sampling_rate`, per second for times. Only ranges have a step. (A step of zero is an infinite rate; see `Regular`.) -/
def samplingRate (m : CM) (d : String) : Except Err ℚ :=
  match m.ents.get? d with
  | some (_, .one k (.range r)) => .ok (1 / stepFloat k r.step)
  | _ => .error .coordError

/-- scipy's `sosfiltfilt` extends a line by `3 * (order + 1)` samples and refuses lines that are not longer; `sosfilt` takes all lines. -/
def tooShort (zerophase : Bool) (order n : ℕ) : Bool := zerophase && decide (n ≤ 3 * (order + 1))

namespace PatchM
variable {K : Type} [Inhabited K]

/-- filter.py 147-156: the units of the limits are dealt with. -/
def passLines (butter : PassBand → ℕ → Bool → List K → List K) (p : PatchM K) (corners : ℕ) (zerophase : Bool) (d : String) (lo hi : Option ℚ) :
    Except Err (PatchM K) := do
  let rate ← samplingRate p.cm d
  let b ← passBand rate lo hi
  if tooShort zerophase (b.order corners) (p.data.shape.getD (p.cm.dims.idxOf d) 0) then .error .valueError
  else p.eachLine (butter b corners zerophase) d

/-- filter.py 104-156, `Patch.pass_filter`. The filter of a line is `butter`, a function of the band, the number of corners and `zerophase`. The units of
the coordinates are those in `units`; the rounding of float32 data is not modelled. -/
def passFilter (butter : PassBand → ℕ → Bool → List K → List K) (units : Dict (Quant ℚ)) (p : PatchM K) (corners : ℕ) (zerophase : Bool)
    (kw : Dict (Option (List PassLimit))) : Except Err (PatchM K) := do
  let r ← checkFilterKwargs kw
  if r.1 ∉ p.cm.dims then .error .coordError
  else do
    let l ← getFilterUnits r.2.1.toFLimit r.2.2.toFLimit (units.get? r.1)
    p.passLines butter corners zerophase r.1 l.1 l.2

end PatchM

/-! ### The notch filter -/

/-- The frequency of a notch. -/
inductive NotchAt where
  | num (x : ℚ)
  | quant (q : Quant ℚ)
  deriving DecidableEq, Repr

/-- filter.py 322-326: the number meant by a frequency, given the units of the coordinate. Without these, pint makes a float of numbers without dimension
only. -/
def notchNumber (unit : Option (Quant ℚ)) : NotchAt → Except Err ℚ
  | .num x => .ok x
  | .quant q =>
    match unit with
    | none => if q.unit.dim.all fun e => decide (e = 0) then .ok q.base else .error .typeError
    | some u =>
      if q.unit = PintUnit.plain then .error .unitError
      else if u.mag = 1 then (invertedQuant (some q) u.unit).map fun x => x.1.getD 0
      else .error .assertionError

/-- filter.py 327-332 with scipy's `iirnotch`: the fraction of the Nyquist frequency. -/
def notchFraction (rate w : ℚ) : Except Err ℚ :=
  if rate / 2 < w then .error .filterValueError
  else if 2 * w / rate < 0 ∨ 1 < 2 * w / rate then .error .valueError
  else .ok (2 * w / rate)

section
variable {K : Type} [Inhabited K]

/-- filter.py 320-333 for one dimension. scipy's `filtfilt` extends a line by nine samples, and refuses lines that are not longer. -/
def notchStep (notch : ℚ → ℚ → List K → List K) (units : Dict (Quant ℚ)) (q : ℚ) (m : CM) (data : Nd K) (v : String × NotchAt) : Except Err (Nd K) := do
  let w ← notchNumber (units.get? v.1) v.2
  let rate ← samplingRate m v.1
  let f ← notchFraction rate w
  if data.shape.getD (m.dims.idxOf v.1) 0 ≤ 9 then .error .valueError
  else .ok (data.eachLine (notch f q) (m.dims.idxOf v.1))

/-- filter.py 270-334, `Patch.notch_filter`, with the filter of a line given by `notch`, a function of the frequency (in terms of Nyquist) and of `q`.
The dimensions are checked as in patch.py 594-677. -/
def PatchM.notchFilter (notch : ℚ → ℚ → List K → List K) (units : Dict (Quant ℚ)) (p : PatchM K) (q : ℚ) (kw : Dict NotchAt) : Except Err (PatchM K) :=
  if !(kw.any fun v => p.cm.dims.contains v.1) then .error .parameterError
  else if kw.any fun v => !p.cm.dims.contains v.1 then .error .patchCoordinateError
  else (kw.foldlM (notchStep notch units q p.cm) p.data).map fun data => ⟨p.cm, data⟩

end

end Verif
