import Verif.Model.PatchOps
/-!
# Writing RSF and WAV files (`/repo/dascore/io/rsf/core.py`, `/repo/dascore/io/wav/core.py`)

The spool written has one patch. Printing of numbers, the conversion to float32 (`cast`) and, for WAV, removal of the trend and division by the maximum (`prepare`, one
trace at a time) are parameters. Resampling is left out.
-/
namespace Verif
variable {α β : Type}

/-! ### RSF -/

/-- The indices of an array in the order of `tobytes("F")`: the first one runs fastest. -/
def fortranIndices : List ℕ → List (List ℕ)
  | [] => [[]]
  | n :: ns => (fortranIndices ns).flatMap fun r => (List.range n).map fun i => i :: r

/-- What the header says of one axis: `n`, `o`, `d`, `label`, `unit`, and, for the times, `starttime`. A number `none` is NaN. -/
structure RsfAxis where
  n : ℕ
  o : Option ℚ
  d : Option ℚ
  label : String
  unit : String
  starttime : Option (Option ℚ)
  deriving DecidableEq, Repr

/-- Header and values. -/
structure RsfFile (β : Type) where
  axes : List RsfAxis
  values : List β

/-- dascore/utils/time.py 341-379, `to_float`: instants and durations in seconds. -/
def toSeconds (k : Kind) (x : ℚ) : ℚ := if k = .time then x / 1000000000 else x

/-- rsf/core.py 61-62: `start` and `step`. Only evenly sampled coordinates and those without values have them. -/
def startStep : MCoord → Except Err (Option ℚ × Option ℚ)
  | .one k (.range r) => .ok (some (toSeconds k r.start), some (toSeconds k r.step))
  | .one _ (.part _) => .ok (none, none)
  | _ => .error .attributeError

/-- rsf/core.py 64: the unit of a coordinate which has one. -/
def unitText : Option String → Except Err String
  | some u => .ok u
  | none => .error .attributeError

/-- The coordinate of a dimension. -/
def PatchM.ownCoord (p : PatchM α) (d : String) : Except Err MCoord :=
  match p.cm.ents.get? d with
  | some (_, c) => .ok c
  | none => .error .coordError

/-- rsf/core.py 83-92: the origin of the times is written as zero, and their start apart. -/
def headerAxis (d : String) (n : ℕ) (s : Option ℚ × Option ℚ) (u : String) : RsfAxis :=
  if d = "time" then ⟨n, some 0, s.2, d, u, some s.1⟩ else ⟨n, s.1, s.2, d, u, none⟩

/-- rsf/core.py 60-64 and 83-92 for one dimension. -/
def PatchM.rsfAxis (p : PatchM α) (units : String → Option String) (e : String × ℕ) : Except Err RsfAxis := do
  let c ← p.ownCoord e.1
  let s ← startStep c
  let u ← unitText (units e.1)
  .ok (headerAxis e.1 e.2 s u)

/-- rsf/core.py 58-116, `write`. `units` are those of the coordinates. -/
def PatchM.toRsf (p : PatchM α) (cast : α → β) (units : String → Option String) : Except Err (RsfFile β) := do
  let axes ← (p.cm.dims.zip p.data.shape).mapM (p.rsfAxis units)
  .ok ⟨axes, (fortranIndices p.data.shape).map fun i => cast (p.data.get i)⟩

/-! ### WAV -/

/-- A WAV file: samples in a second, and channels. -/
structure WavFile (β : Type) where
  rate : ℤ
  channels : List (List β)

/-- wav/core.py 68-69 and 80-85: the other dimension and the traces. -/
def PatchM.wavTraces (p : PatchM α) : Except Err (String × List (List α)) :=
  if "time" ∉ p.cm.dims then .error .patchCoordinateError
  else
    match p.cm.dims, p.data.shape with
    | [a, b], [m, n] =>
      if a = "time" then .ok (b, (List.range n).map fun j => (List.range m).map fun t => p.data.get [t, j])
      else .ok (a, (List.range m).map fun j => (List.range n).map fun t => p.data.get [j, t])
    | _, _ => .error .assertionError

/-- wav/core.py 82 and 91: the rate, from the step of the times. Files with a negative rate cannot be written; here they can. -/
def wavRate : MCoord → Except Err ℤ
  | .one .time (.range r) => if r.step = 0 then .error .zeroDivision else .ok (rint (1000000000 / r.step))
  | _ => .error .typeError

/-- wav/core.py 77-92, `_get_wav_data`: the other dimension, and the file. -/
def PatchM.wavData (p : PatchM α) (prepare : List α → List β) : Except Err (String × WavFile β) := do
  let tr ← p.wavTraces
  let c ← p.ownCoord "time"
  let r ← wavRate c
  .ok (tr.1, ⟨r, tr.2.map prepare⟩)

/-- wav/core.py 72-74, one channel of a directory. -/
def putChannel (show' : Option ℚ → String) (dim : String) (w : WavFile β) (dir : Dict (WavFile β)) (e : Option ℚ × List β) : Dict (WavFile β) :=
  dir.set (dim ++ "_" ++ show' e.1 ++ ".wav") ⟨w.rate, [e.2]⟩

/-- `coords.get_array(dim)`. -/
def oneLabels : MCoord → List (Option ℚ)
  | .one _ c => c.labels
  | _ => []

/-- wav/core.py 57-74, `write` to a directory. -/
def PatchM.wavDir (p : PatchM α) (prepare : List α → List β) (show' : Option ℚ → String) (dir : Dict (WavFile β)) : Except Err (Dict (WavFile β)) := do
  let w ← p.wavData prepare
  let c ← p.ownCoord w.1
  .ok (((oneLabels c).zip w.2.channels).foldl (putChannel show' w.1 w.2) dir)

end Verif
