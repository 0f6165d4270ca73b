import Verif.Model.Fourier
/-!
# The older transforms (dascore/transform/fft.py, `rfft`; dascore/transform/spectro.py, `spectrogram`)

Only labels, dimensions, and the samples each slice is made of are modelled; numbers are exact. Spectrograms along times are left out: there the labels
are rounded to nanoseconds.
-/
namespace Verif

/-- fft.py 45-46, 54-56: the labels of the frequencies. `np.fft.rfftfreq(n, d)` is `arange(n // 2 + 1) / (n * d)`. -/
def rfftLabels (k : Kind) (c : RangeCoord) : Except Err (List ℚ) :=
  let sr := 1 / stepFloat k c.step
  if c.len * sr = 0 then .error .zeroDivision
  else .ok ((List.range (c.len / 2 + 1)).map fun j : ℕ => (j : ℚ) / (c.len * sr))

/-- What a spectrogram is described by: the labels of the frequencies and of the slices, and for each slice the numbers of its samples. -/
structure Spectro where
  freqs : List ℚ
  labels : List ℚ
  slices : List (List ℕ)
  deriving DecidableEq, Repr

/-- scipy's `_triage_segments`, and `noverlap`: windows are no longer than the data, the overlap is an eighth of a window if it is not given, and less than
the window. -/
def spectroWindow (n w : ℕ) (overlap : Option ℕ) : Except Err (ℕ × ℕ) :=
  if w = 0 then .error .valueError
  else if min w n ≤ overlap.getD (min w n / 8) then .error .valueError
  else .ok (min w n, overlap.getD (min w n / 8))

/-- The slices scipy's `_fft_helper` takes (`sliding_window_view` with every `hop`-th window). -/
def spectroSlices (n w hop : ℕ) : List (List ℕ) := (List.range ((n - w) / hop + 1)).map fun i => (List.range w).map fun j => i * hop + j

/-- `np.arange(nperseg/2, x.shape[-1] - nperseg/2 + 1, nperseg - noverlap)/float(fs)`. -/
def spectroTimes (n w hop : ℕ) (fs : ℚ) : List ℚ :=
  (List.range ⌈(((n : ℚ) - w / 2 + 1) - w / 2) / hop⌉.toNat).map fun i : ℕ => ((w : ℚ) / 2 + i * hop) / fs

/-- spectro.py 94-107, for coordinates which are no times; 24-31: the least label is added to the times scipy gives. `w` is `nperseg`. -/
def spectrogram (c : RangeCoord) (w : ℕ) (overlap : Option ℕ) : Except Err Spectro := do
  let x ← spectroWindow c.len w overlap
  let fs := 1 / c.step
  .ok ⟨(List.range (x.1 / 2 + 1)).map fun k : ℕ => k / (x.1 * (1 / fs)), (spectroTimes c.len x.1 (x.1 - x.2) fs).map fun t => c.cmin + t,
    spectroSlices c.len x.1 (x.1 - x.2)⟩

/-- spectro.py 48-58, `_get_new_dims`. -/
def spectroDims (dims : List String) (dim : String) : List String := dims.set (dims.idxOf dim) (ftName dim) ++ [dim]

end Verif
