import Verif.Model.Calculus
/-!
# Mutes (dascore/proc/mute.py)

Data and labels are exact. Norms of vectors only decide comparisons, which are made here between squares. Not modelled: smoothing,
the rounding of times to nanoseconds and of labels to floats, quantities with units, infinite data (`inf * 0` is NaN).
-/
namespace Verif

/-- A boundary along one dimension (mute.py 253-275): two values, `None` or `...`, or a number. -/
inductive Bound where
  | pair (a b : ℚ)
  | hole
  | value (v : ℚ)
  deriving DecidableEq, Repr

/-- `coord.min()`. -/
def Coord.lo : Coord → ℚ
  | .range r => r.cmin
  | c => c.vals.foldl min (c.vals.getD 0 0)

/-- `coord.max()`. -/
def Coord.hi : Coord → ℚ
  | .range r => r.cmax
  | c => c.vals.foldl max (c.vals.getD 0 0)

/-- coords.py 675-701, `_get_compatible_value` of a number: numbers along times are seconds. -/
def Coord.compatible (k : Kind) (c : Coord) (relative : Bool) (v : ℚ) : ℚ :=
  let w := if k = .time then v * 1000000000 else v
  if relative then (if 0 ≤ w then c.lo + w else c.hi + w) else w

/-- mute.py 240-243: the distance of a value from the smallest label, as a number. -/
def Coord.offset (k : Kind) (c : Coord) (relative : Bool) (v : ℚ) : ℚ := stepFloat k (c.compatible k relative v - c.lo)

/-- The two columns of two rows of the array of points (mute.py 246): the two points of one line, `none` where it is NaN. -/
structure Slots where
  fst : Option (ℚ × ℚ)
  snd : Option (ℚ × ℚ)

/-- mute.py 254-275 for the boundary of one line along the first dimension. -/
def Slots.fillFst (off : ℚ → ℚ) (s : Slots) : Bound → Slots
  | .pair a b => ⟨some (off a, off b), s.snd⟩
  | .hole => s
  | .value v => ⟨some (off v, off v), some (0, 1)⟩

/-- mute.py 254-275 for the boundary of one line along the second dimension. -/
def Slots.fillSnd (off : ℚ → ℚ) (s : Slots) : Bound → Slots
  | .pair a b => ⟨s.fst, some (off a, off b)⟩
  | .hole => s
  | .value v => ⟨some (0, 1), some (off v, off v)⟩

/-- mute.py 269: `ifill_index` after one boundary of line `n`. -/
def fillIndex (n : ℕ) (f : Option ℕ) : Bound → Option ℕ
  | .value _ => some n
  | _ => f

/-- Two points of a line. -/
structure Line where
  p : ℚ × ℚ
  q : ℚ × ℚ
  deriving DecidableEq, Repr

/-- mute.py 276: no point may be missing. -/
def Slots.line : Slots → Except Err Line
  | ⟨some a, some b⟩ => .ok ⟨(a.1, b.1), (a.2, b.2)⟩
  | _ => .error .assertionError

/-- mute.py 236-277, `_get_filled_value_list`: the lines, and which one is given by a number. -/
def fillLines (off1 off2 : ℚ → ℚ) (r1 r2 : Bound × Bound) : Except Err (Line × Line × Option ℕ) := do
  let l1 ← ((⟨none, none⟩ : Slots).fillFst off1 r1.1 |>.fillSnd off2 r2.1).line
  let l2 ← ((⟨none, none⟩ : Slots).fillFst off1 r1.2 |>.fillSnd off2 r2.2).line
  return (l1, l2, fillIndex 1 (fillIndex 0 (fillIndex 1 (fillIndex 0 none r1.1) r1.2) r2.1) r2.2)

/-- The geometry of a mute with two lines (mute.py 175-179); `origins` is `none` where it is NaN. -/
structure MuteGeo where
  origins : Option ((ℚ × ℚ) × (ℚ × ℚ))
  norm : ℚ × ℚ
  dir1 : ℚ × ℚ
  dir2 : ℚ × ℚ
  parallel : Bool

def dot (a b : ℚ × ℚ) : ℚ := a.1 * b.1 + a.2 * b.2

def cross (a b : ℚ × ℚ) : ℚ := a.1 * b.2 - a.2 * b.1

def neg2 (a : ℚ × ℚ) : ℚ × ℚ := (-a.1, -a.2)

/-- misc.py 880-908, `get_2d_line_intersection`; `none` is NaN. -/
def intersection (l m : Line) : Option (ℚ × ℚ) :=
  let d := (l.p.1 - l.q.1) * (m.p.2 - m.q.2) - (l.p.2 - l.q.2) * (m.p.1 - m.q.1)
  if isClose d 0 then none
  else
    let a := l.p.1 * l.q.2 - l.p.2 * l.q.1
    let b := m.p.1 * m.q.2 - m.p.2 * m.q.1
    some ((a * (m.p.1 - m.q.1) - (l.p.1 - l.q.1) * b) / d, (a * (m.p.2 - m.q.2) - (l.p.2 - l.q.2) * b) / d)

/-- mute.py 196-198: a direction in units of the ranges of the coordinates. -/
def Line.dir (n : ℚ × ℚ) (l : Line) : ℚ × ℚ := ((l.q.1 - l.p.1) / n.1, (l.q.2 - l.p.2) / n.2)

/-- mute.py 209-220: the lines point to the same side. -/
def facing (parallel : Bool) (fill : Option ℕ) (u v : ℚ × ℚ) : Except Err ((ℚ × ℚ) × (ℚ × ℚ)) :=
  if 0 ≤ dot u v then .ok (u, v)
  else if parallel || fill.isSome then
    if fill.getD 0 = 0 then .ok (neg2 u, v) else .ok (u, neg2 v)
  else .error .parameterError

/-- mute.py 185-234, `_get_line_params`. The tolerance is 1e-9. -/
def lineParams (n : ℚ × ℚ) (l m : Line) (fill : Option ℕ) : Except Err MuteGeo :=
  let u := l.dir n
  let v := m.dir n
  let tol : ℚ := 1 / 1000000000
  if dot u u < tol * tol ∨ dot v v < tol * tol then .error .parameterError
  else
    let parallel := decide ((1 - tol) * (1 - tol) * (dot u u * dot v v) < dot u v * dot u v)
    (facing parallel fill u v).map fun d =>
      ⟨if parallel then some (l.p, m.p) else (intersection l m).map fun o => (o, o), n, d.1, d.2, parallel⟩

/-- mute.py 318-325: a point from an origin, in units of the ranges. -/
def MuteGeo.from (g : MuteGeo) (o c : ℚ × ℚ) : ℚ × ℚ := ((c.1 - o.1) / g.norm.1, (c.2 - o.2) / g.norm.2)

/-- mute.py 335-378: the point at the given distances from the smallest labels is muted. Comparisons with NaN are false. -/
def MuteGeo.inside (g : MuteGeo) (c : ℚ × ℚ) : Bool :=
  match g.origins with
  | none => false
  | some (o1, o2) =>
    let c1 := g.from o1 c
    let c2 := g.from o2 c
    decide (cross g.dir1 c1 * cross g.dir2 c2 < 0) && (g.parallel || (decide (0 < dot g.dir1 c1) && decide (0 < dot g.dir2 c2)))

/-- mute.py 190-192 with coords.py 574-594, `coord_range()`, as a number. -/
def CM.rangeNumber (m : CM) (d : String) : Except Err ℚ :=
  match m.ents.get? d with
  | some (_, .one k (.range r)) => .ok (stepFloat k (r.cmax - r.cmin + absQ r.step))
  | _ => .error .coordError

/-- mute.py 251: values along the dimension number `n` of the arguments are converted by the coordinate of the dimension number `n` of
the patch. -/
def CM.offsetAt (m : CM) (n : ℕ) (relative : Bool) : Except Err (ℚ → ℚ) :=
  match m.ents.get? (m.dims.getD n "") with
  | some (_, .one _ (.part _)) => .error .notImplemented
  | some (_, .one k c) => .ok (c.offset k relative)
  | _ => .error .notImplemented

/-- mute.py 309-315: the distances of the labels along `d` from the smallest one, as numbers. -/
def CM.distances (m : CM) (d : String) : ℕ → ℚ := fun j =>
  match m.ents.get? d with
  | some (_, .one k c) => stepFloat k (c.vals.getD j 0) - stepFloat k c.lo
  | _ => 0

/-- mute.py 279-292, `_MuteGeometry2D.from_params` (the ranges are computed first here). -/
def CM.muteGeo (m : CM) (d1 d2 : String) (r1 r2 : Bound × Bound) (relative : Bool) : Except Err MuteGeo := do
  let n1 ← m.rangeNumber d1
  let n2 ← m.rangeNumber d2
  let off1 ← m.offsetAt 0 relative
  let off2 ← m.offsetAt 1 relative
  let (l1, l2, fill) ← fillLines off1 off2 r1 r2
  lineParams (n1, n2) l1 l2 fill

/-- mute.py 127-135: the limits of a mute along one dimension. `np.array` refuses ragged sequences. -/
def limitsOf : Bound × Bound → Except Err (Option ℚ × Option ℚ)
  | (.value a, .value b) => .ok (some a, some b)
  | (.value a, .hole) => .ok (some a, none)
  | (.hole, .value b) => .ok (none, some b)
  | (.hole, .hole) => .ok (none, none)
  | (.pair _ _, .pair _ _) => .error .parameterError
  | _ => .error .valueError

/-- mute.py 137-143: the positions along one dimension that are muted. -/
def CM.muteRange (argsort : List ℚ → List ℕ) (m : CM) (d : String) (r : Bound × Bound) (relative : Bool) : Except Err (List ℕ) := do
  let l ← limitsOf r
  match m.ents.get? d with
  | some (_, .one k c) => do
    let x ← c.query argsort k (.between (l.1.map (c.compatible k relative)) (l.2.map (c.compatible k relative)))
    x.2.positions c.length
  | _ => .error .notImplemented

/-- mute.py 521-532: the data are multiplied with 0 in the region, and 1 elsewhere; or the other way round. -/
def PatchM.applyMute (p : PatchM ℚ) (invert : Bool) (inside : List ℕ → Bool) : Except Err (PatchM ℚ) :=
  PatchM.new p.cm ⟨p.data.shape, fun i => p.data.get i * (if inside i = invert then 1 else 0)⟩

/-- mute.py 410-532, `Patch.line_mute` without smoothing (get_dim_axis_value: patch.py 594-678). -/
def PatchM.lineMute (argsort : List ℚ → List ℕ) (p : PatchM ℚ) (kw : Dict (Bound × Bound)) (invert relative : Bool) :
    Except Err (PatchM ℚ) :=
  if kw.keys.any fun d => !p.cm.dims.contains d then
    (if kw.length ≤ 2 ∧ kw.keys.any fun d => p.cm.dims.contains d then .error .patchCoordinateError else .error .parameterError)
  else match kw with
    | [(d, r)] => do
      let ps ← p.cm.muteRange argsort d r relative
      p.applyMute invert fun i => decide (i.getD (p.cm.dims.idxOf d) 0 ∈ ps)
    | [(d1, r1), (d2, r2)] => do
      let g ← p.cm.muteGeo d1 d2 r1 r2 relative
      p.applyMute invert fun i =>
        g.inside (p.cm.distances d1 (i.getD (p.cm.dims.idxOf d1) 0), p.cm.distances d2 (i.getD (p.cm.dims.idxOf d2) 0))
    | _ => .error .parameterError

/-- mute.py 618-632: the ends of the line for one slope, from the first labels `x`, `y` and the range of the first dimension; `none` is an
infinite slope. -/
def slopeEnds (x y range : ℚ) : Option ℚ → Bound × Bound
  | none => (.pair x (x + 1), .pair y y)
  | some s => if isClose s 0 then (.pair x x, .pair y (y + 1)) else (.pair x (x + range), .pair y (y + range / s))

/-- The first and the last label of a coordinate with ordered labels, as numbers (mute.py 613-617). -/
def CM.endsOf (m : CM) (d : String) : Except Err (ℚ × ℚ) :=
  match m.ents.get? d with
  | some (_, .one k (.range r)) => .ok (stepFloat k (r.values.getD 0 0), stepFloat k (r.values.getD (r.len - 1) 0))
  | some (_, .one k (.mono vs)) => .ok (stepFloat k (vs.getD 0 0), stepFloat k (vs.getD (vs.length - 1) 0))
  | _ => .error .coordError

/-- mute.py 535-639, `Patch.slope_mute` without smoothing. -/
def PatchM.slopeMute (argsort : List ℚ → List ℕ) (p : PatchM ℚ) (slopes : List (Option ℚ)) (d1 d2 : String) (invert : Bool) :
    Except Err (PatchM ℚ) :=
  match slopes with
  | [s1, s2] =>
    if (s1.any fun s => decide (s < 0)) || (s2.any fun s => decide (s < 0)) then .error .parameterError
    else do
      let x ← p.cm.endsOf d1
      let y ← p.cm.endsOf d2
      let a := slopeEnds x.1 y.1 (x.2 - x.1) s1
      let b := slopeEnds x.1 y.1 (x.2 - x.1) s2
      p.lineMute argsort (Dict.update [(d1, (a.1, b.1))] [(d2, (a.2, b.2))]) invert false
  | _ => .error .parameterError

end Verif
