import Verif.Model.Export
import Verif.Model.Convert
/-!
# Patches as ObsPy streams (`/repo/dascore/utils/io.py` 195-303)

Of ObsPy it is assumed that a trace keeps its data, start and sampling rate and the other entries of its header, and that `times("timestamp")` is start + position / rate (for the rate zero,
the start). `fl` is what such a time, in seconds as a float, and converted back to nanoseconds, becomes. Attributes are left out.
-/
namespace Verif
variable {α : Type}

/-- A trace: samples, start (nanoseconds), samples in a second, and the entries of the header which are numbers, with their kind. -/
structure ObsTrace (α : Type) where
  data : List α
  start : ℚ
  rate : ℚ
  stats : Dict (Kind × Option ℚ)

/-- io.py 216-228, `_get_time_stats`: the lowest label (coords.py 1376-1378) and the rate. Coordinates that are not even have no step. -/
def timeStats : MCoord → Except Err (ℚ × ℚ)
  | .one .time (.range r) => .ok (min r.start (r.stop - r.step), 1000000000 / r.step)
  | _ => .error .typeError

/-- The kind of a coordinate. -/
def MCoord.numbers : MCoord → Kind
  | .one k _ => k
  | .nd _ => .float

/-- io.py 195-245, `patch_to_obspy`. Without another dimension than the times `next` raises StopIteration (here a KeyError); traces of more than one dimension are refused by ObsPy. -/
def PatchM.toObspy (p : PatchM α) : Except Err (List (ObsTrace α)) :=
  if "time" ∉ p.cm.dims then .error (if p.cm.dims.length = 2 then .incompatiblePatch else .patchCoordinateError)
  else if p.cm.dims.length = 1 then .error .keyError
  else if p.cm.dims.length ≠ 2 then .error .valueError
  else do
    let tr ← p.wavTraces
    let c ← p.ownCoord tr.1
    let t ← p.ownCoord "time"
    let s ← timeStats t
    .ok ((tr.2.zip (oneLabels c)).map fun e => ⟨e.1, s.1, s.2, [(tr.1, c.numbers, e.2)]⟩)

/-- io.py 263-272, `_check_stream`. -/
def streamFits (s : List (ObsTrace α)) (dim : String) : Bool :=
  (s.map fun t => t.data.length).dedup.length == 1 && s.all fun t => (Dict.get? t.stats dim).isSome

/-- io.py 293: `np.asarray(new_dim)`. The array is of the kind of its first number; nulls only become a coordinate without values. Nulls among other values are not modelled. -/
def headerCoord (l : List (Kind × Option ℚ)) : MCoord :=
  if l.all fun e => e.2.isSome then .one ((l.map Prod.fst).getD 0 .float) (.arr (l.filterMap Prod.snd)) else .one ((l.map Prod.fst).getD 0 .float) (.part l.length)

/-- `np.stack(data)` for traces of the same length. -/
def stackTraces [Inhabited α] (s : List (ObsTrace α)) (n : ℕ) : Nd α := ⟨[s.length, n], fun i => ((s.map ObsTrace.data).getD (i.getD 0 0) []).getD (i.getD 1 0) default⟩

/-- io.py 248-303, `obspy_to_patch`. For a stream without traces there is an empty patch (`none`). The times are those of the last trace. -/
def streamPatch [Inhabited α] (fl : ℚ → ℚ) (s : List (ObsTrace α)) (dim : String) : Except Err (Option (PatchM α)) :=
  match s.getLast? with
  | none => .ok none
  | some tr =>
    if streamFits s dim then
      (patchOf (stackTraces s tr.data.length) (Dict.set [(dim, CArg.nested [dim] (headerCoord (s.filterMap fun t => Dict.get? t.stats dim)))] "time"
        (.nested ["time"] (.one .time (.arr ((List.range tr.data.length).map fun i : ℕ => fl (tr.start + i * (1000000000 / tr.rate))))))) [dim, "time"]).map some
    else .error .incompatiblePatch

end Verif
