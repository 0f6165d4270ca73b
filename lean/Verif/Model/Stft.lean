import Verif.Model.Fourier
import Verif.Model.Window
/-!
# Short-time Fourier transforms (dascore/transform/fourier.py, `stft` and `istft`)

Data are exact complex numbers, windows lists of rational numbers (floats). The windows `scipy.signal.get_window` makes from names are a parameter, as is
the detrending of a frame. `scipy.signal.ShortTimeFFT` is modelled as far as it is used (scipy 1.12 and later, `signal/_short_time_fft.py`).
Units and attributes which only describe the data are not modelled.
-/
namespace Verif
open Complex

/-- scipy's `ShortTimeFFT(win, hop, fs, fft_mode=..., mfft=...)`: the mode is "onesided" or "centered"; the sampling rate only matters for labels. -/
structure ShortTime where
  win : List ℚ
  hop : ℕ
  mfft : ℕ
  onesided : Bool
  deriving DecidableEq, Repr

namespace ShortTime

/-- The checks of the constructor: a window that is not empty, at least one sample from slice to slice, no less samples to transform than the window has. -/
def make (win : List ℚ) (hop mfft : ℤ) (onesided : Bool) : Except Err ShortTime :=
  if win.isEmpty || decide (hop < 1) || decide (mfft < win.length) then .error .valueError else .ok ⟨win, hop.toNat, mfft.toNat, onesided⟩

/-- `m_num`. -/
def len (s : ShortTime) : ℕ := s.win.length

/-- `m_num_mid`: the centre of the window. -/
def mid (s : ShortTime) : ℕ := s.win.length / 2

/-- `-p_min`: how many slices there are before the one centred at the first sample. The window is moved to the left until it does not overlap the samples,
or until it is zero there (the code looks at more than the overlap). -/
def before (s : ShortTime) : ℕ :=
  ((List.range (s.len + 1)).find? fun p : ℕ => decide (s.len ≤ s.mid + (p + 1) * s.hop) ||
    (s.win.drop (s.len - (s.mid + (p + 1) * s.hop))).all fun x => x == 0).getD 0

/-- `p_max(n)`: one more than the last slice of `n` samples. -/
def last (s : ShortTime) (n : ℕ) : ℕ :=
  n / s.hop + ((List.range (s.len + 1)).find? fun t : ℕ => decide (n + s.mid ≤ (n / s.hop + t + 1) * s.hop) ||
    (s.win.take (n + s.mid - (n / s.hop + t + 1) * s.hop)).all fun x => x == 0).getD 0 + 1

/-- `p_num(n)`: the number of slices. -/
def slices (s : ShortTime) (n : ℕ) : ℕ := s.before + s.last n

/-- `f_pts`. -/
def freqs (s : ShortTime) : ℕ := if s.onesided then s.mfft / 2 + 1 else s.mfft

/-- Frame `p` of a line of `n` samples: the samples around number `(p - before) * hop`, zeros outside of the line. -/
def frame (s : ShortTime) (n : ℕ) (x : ℕ → ℂ) (p j : ℕ) : ℂ :=
  if s.before * s.hop + s.mid ≤ p * s.hop + j ∧ p * s.hop + j - (s.before * s.hop + s.mid) < n then x (p * s.hop + j - (s.before * s.hop + s.mid)) else 0

/-- `_fft_func` before the transform: the frame times the window, continued with zeros and rolled so that its centre comes first. -/
def rolled (s : ShortTime) (y : ℕ → ℂ) (l : ℕ) : ℂ :=
  if (l + s.mid) % s.mfft < s.len then y ((l + s.mid) % s.mfft) * (s.win.getD ((l + s.mid) % s.mfft) 0 : ℚ) else 0

/-- The frames of all the lines along `axis`; the slices are the last axis. -/
def frames (s : ShortTime) (detr : (ℕ → ℂ) → ℕ → ℂ) (a : Nd ℂ) (axis : ℕ) : Nd ℂ :=
  ⟨a.shape.set axis s.mfft ++ [s.slices (a.shape.getD axis 0)], fun i =>
    s.rolled (detr (s.frame (a.shape.getD axis 0) (fun k => a.get (i.dropLast.set axis k)) (i.getD a.shape.length 0))) (i.getD axis 0)⟩

/-- `stft(x, axis=axis)` and `stft_detrend`, with fourier.py 598's factor. Lines shorter than half a window are refused. -/
noncomputable def transform (s : ShortTime) (detr : (ℕ → ℂ) → ℕ → ℂ) (a : Nd ℂ) (axis : ℕ) (dx : ℚ) : Except Err (Nd ℂ) :=
  if a.shape.getD axis 0 < s.len - s.mid then .error .valueError
  else if s.onesided then .ok ((((s.frames detr a axis).rfftn [axis]).scale dx).shiftAll [])
  else .ok ((((s.frames detr a axis).fftn [axis]).scale dx).shiftAll [axis])

/-- `_calc_dual_canonical_window`: the sum of the squares of the windows that overlap at position `j`. -/
def norm (s : ShortTime) (j : ℕ) : ℚ :=
  s.win.getD j 0 ^ 2 + ((List.range s.len).map fun t : ℕ =>
    if t = 0 then 0 else (if t * s.hop ≤ j then s.win.getD (j - t * s.hop) 0 ^ 2 else 0) + s.win.getD (j + t * s.hop) 0 ^ 2).sum

/-- The greatest of the sums. -/
def maxNorm (s : ShortTime) : ℚ := ((List.range s.len).map s.norm).foldr max 0

/-- `invertible`: the windows are not too far apart, and leave no sample out (`np.finfo(float).resolution` is 1e-15). -/
def invertible (s : ShortTime) : Bool :=
  decide (s.hop ≤ s.len) && (List.range s.len).all fun j => decide (1 / 1000000000000000 * s.maxNorm ≤ s.norm j)

/-- `dual_win`. For a window of zeros it is NaN: not modelled. -/
def dual (s : ShortTime) : Except Err (ℕ → ℚ) :=
  if s.maxNorm = 0 then .error .notImplemented else .ok fun j => s.win.getD j 0 / s.norm j

/-- An index with the positions `x` and `y` put in for the axes `f` and `t`. -/
def putTwo (f t x y : ℕ) (i : List ℕ) : List ℕ := if f < t then (i.insertIdx f x).insertIdx t y else (i.insertIdx t y).insertIdx f x

/-- Where `istft` puts the axis of the samples. -/
def axisBack (b : Nd ℂ) (f t : ℕ) : ℕ := if f + 1 < b.shape.length then f else t

/-- `istft` after the inverse transforms: the frames times the dual window are added up. (scipy leaves out slices that do not overlap the result.) -/
noncomputable def overlapAdd (s : ShortTime) (dual : ℕ → ℚ) (b : Nd ℂ) (f t n : ℕ) : Nd ℂ :=
  ⟨((b.shape.eraseIdx (max f t)).eraseIdx (min f t)).insertIdx (axisBack b f t) n, fun i =>
    ((List.range (b.shape.getD t 0)).map fun p : ℕ =>
      if p * s.hop ≤ i.getD (axisBack b f t) 0 + s.before * s.hop + s.mid ∧ i.getD (axisBack b f t) 0 + s.before * s.hop + s.mid < p * s.hop + s.len then
        b.get (putTwo f t ((i.getD (axisBack b f t) 0 + s.before * s.hop + s.mid - p * s.hop + s.mfft - s.mid) % s.mfft) p (i.eraseIdx (axisBack b f t))) *
          (dual (i.getD (axisBack b f t) 0 + s.before * s.hop + s.mid - p * s.hop) : ℚ)
      else 0).sum⟩

/-- `k_max`: the number of samples of the inverse, up to the end of the last window. -/
def extent (s : ShortTime) (slices : ℕ) : ℕ := (slices - s.before - 1) * s.hop + s.len - s.mid

/-- `istft(b / dx, t_axis=t, f_axis=f)`. -/
noncomputable def inverse (s : ShortTime) (b : Nd ℂ) (f t : ℕ) (dx : ℚ) : Except Err (Nd ℂ) :=
  if b.shape.getD f 0 ≠ s.freqs ∨ b.shape.getD t 0 < s.slices (s.len - s.mid) then .error .valueError
  else do
    let dual ← s.dual
    return s.overlapAdd dual (if s.onesided then (((b.scale (1 / (dx : ℂ))).unshiftAll []).irfftn s.mfft [f]) else (((b.scale (1 / (dx : ℂ))).unshiftAll [f]).ifftn [f]))
      f t (s.extent (b.shape.getD t 0))

end ShortTime

/-- The argument `taper_window`: the name of a window (what `get_window(name, n, fftbins=False)` gives for each `n`), or an array of floats. -/
inductive TaperWin where
  | named (window : ℕ → List ℚ)
  | array (window : List ℚ)

/-- fourier.py 581-585 (`get_window` refuses negative lengths). -/
def TaperWin.get (n : ℤ) : TaperWin → List ℚ
  | .named f => f n.toNat
  | .array l => l

/-- fourier.py 602-613: what `stft` leaves in the attributes for `istft`. -/
structure StftInfo where
  timeDim : String
  freqDim : String
  hop : ℕ
  mfft : ℕ
  onesided : Bool
  detrended : Bool
  deriving DecidableEq, Repr

/-- A patch together with what the transforms look at. -/
structure SPatch where
  patch : PatchM ℂ
  /-- The type of the array of the data is complex. -/
  isComplex : Bool
  info : Option StftInfo

/-- fourier.py 480-483, 492: the times of the centres of the slices. Coordinates which are not times become floats. -/
def sliceTimes (s : ShortTime) (c : RangeCoord) : List ℚ :=
  (List.range (s.slices c.len)).map fun p : ℕ => ((p : ℚ) - s.before) * s.hop * |c.step| + c.cmin

/-- fourier.py 493: `stft.f`, for samples `dx` apart. -/
def sliceFreqs (s : ShortTime) (dx : ℚ) : List ℚ :=
  (List.range s.freqs).map fun k : ℕ => ((k : ℚ) - if s.onesided then 0 else (s.mfft / 2 : ℕ)) / (s.mfft * |dx|)

/-- fourier.py 482-483: the family of the type of the new labels. -/
def sliceKind (k : Kind) : Kind := if k = .time then .time else .float

/-- fourier.py 470-500, `_get_stft_coords`. -/
def stftCoords (s : ShortTime) (m : CM) (d : String) (k : Kind) (c : RangeCoord) : Except Err CM := do
  let old ← m.disassociate [d]
  let time ← getCoordData (sliceKind k) (sliceTimes s c)
  let freq ← getCoordData .float (sliceFreqs s (stepFloat k c.step))
  getCoordManager ((CM.nested old.ents).update [(d, .simple (.one (sliceKind k) time)), (ftName d, .simple (.one .float freq)),
    ("_stft_window", .nested [] (.one .float (.arr s.win))), ("_stft_old_coord", .nested [] (.one k (.range c)))])
    ((m.dims.map fun e => if e = d then ftName d else e) ++ [d])

/-- fourier.py 503-615, `Patch.stft(dim=win, ...)`. `detr` is the detrending of a frame, if that is asked for. -/
noncomputable def SPatch.stft (P : SPatch) (d : String) (win : WinReq) (taper : TaperWin) (overlap : Option WinReq) (samples : Bool)
    (detr : Option ((ℕ → ℂ) → ℕ → ℂ)) : Except Err SPatch :=
  if d ∉ P.patch.cm.dims then .error .parameterError
  else match P.patch.cm.ents.get? d with
    | some (_, .one k (.range c)) => do
      let r ← windowStep c overlap none samples win
      let s ← ShortTime.make (taper.get r.1) (r.2.getD r.1) r.1 (!P.isComplex)
      let a ← s.transform (detr.getD id) P.patch.data (P.patch.cm.dims.idxOf d) (stepFloat k c.step)
      let cm ← stftCoords s P.patch.cm d k c
      let q ← PatchM.new cm a
      return ⟨q, true, some ⟨d, ftName d, s.hop, s.mfft, s.onesided, detr.isSome⟩⟩
    | _ => .error .coordError

/-- The values of a coordinate without nulls. -/
def MCoord.reals : MCoord → Except Err (List ℚ)
  | .one _ c => .ok c.vals
  | .nd _ => .error .notImplemented

/-- fourier.py 651-662, `_get_short_time_fft`. -/
def StftInfo.short (I : StftInfo) (m : CM) : Except Err ShortTime :=
  match m.ents.get? "_stft_window" with
  | some (_, c) => do
    let w ← c.reals
    ShortTime.make w I.hop I.mfft I.onesided
  | none => .error .coordError

/-- fourier.py 633-648, `_get_istft_coord`: the coordinates are passed on without their dimensions. -/
def istftCoords (m : CM) (f t : ℕ) : Except Err (CM × MCoord) :=
  match m.ents.get? "_stft_old_coord" with
  | some (_, old) => do
    let rest := m.ents.filter fun e => e.1 != "_stft_window" && e.1 != "_stft_old_coord" && e.1 != m.dims.getD f ""
    let cm ← getCoordManager (Dict.set (rest.map fun e => (e.1, CArg.simple e.2.2)) (m.dims.getD t "") (.simple old))
      ((m.dims.set f (m.dims.getD t "")).eraseIdx t)
    return (cm, old)
  | none => .error .keyError

/-- fourier.py 697, the step of the old coordinate as a number. -/
def MCoord.stepNum : MCoord → Except Err ℚ
  | .one k (.range c) => .ok (stepFloat k c.step)
  | _ => .error .notImplemented

/-- fourier.py 701-704: `a[:, ..., :n, ..., :]`, and `a` if it has no such axis. -/
def Nd.keepFirst {α} (a : Nd α) (axis n : ℕ) : Nd α := ⟨a.shape.set axis (min n (a.shape.getD axis 0)), a.get⟩

/-- fourier.py 665-714, `Patch.istft`. Its PatchError is the base class of the model's error. -/
noncomputable def SPatch.istft (P : SPatch) : Except Err SPatch :=
  match P.info with
  | none => .error .patchAttributeError
  | some I =>
    if I.timeDim ∉ P.patch.cm.dims ∨ I.freqDim ∉ P.patch.cm.dims then .error .coordError
    else do
      let s ← I.short P.patch.cm
      if I.detrended || !s.invertible then .error .patchAttributeError
      else do
        let r ← istftCoords P.patch.cm (P.patch.cm.dims.idxOf I.freqDim) (P.patch.cm.dims.idxOf I.timeDim)
        let dx ← r.2.stepNum
        let a ← s.inverse P.patch.data (P.patch.cm.dims.idxOf I.freqDim) (P.patch.cm.dims.idxOf I.timeDim) dx
        let a := a.keepFirst (P.patch.cm.dims.idxOf I.freqDim) r.2.len
        if a.shape ≠ r.1.shape then .error .assertionError
        else do
          let q ← PatchM.new r.1 a
          return ⟨q, !I.onesided, none⟩

end Verif
