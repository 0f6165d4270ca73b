import Verif.Model.Num
/-!
# Contents tables: filtering and trimming (dascore/utils/pd.py, dascore/utils/misc.py)

A table is a list of columns and a list of rows. Column names are a base name with an optional `_min`, `_max`
or `_step` suffix, which is how the code uses them; names in which a suffix occurs elsewhere
(`str.replace("_min", "")` replaces every occurrence) are not modelled. Cells are null, a number (times are
numbers of nanoseconds, so that the conversions of query values to datetimes, pd.py 200-227, are the
identity) or a string.
-/
namespace Verif

/-- Suffix of a column name or query key. -/
inductive Suffix | plain | min | max | step
  deriving DecidableEq, Repr

/-- A column name or query key. -/
structure Key where
  base : String
  suf : Suffix
  deriving DecidableEq, Repr

/-- One cell of a table. -/
inductive Cell
  | null
  | num (q : ℚ)
  | str (s : String)
  deriving DecidableEq, Repr

/-- A row gives each column its cell. -/
abbrev TRow := Key → Cell

/-- A dataframe. -/
structure Table where
  cols : List Key
  rows : List TRow

/-- An element of a collection in a query. -/
inductive QElem
  | none
  | dots
  | num (q : ℚ)
  | str (s : String)
  deriving DecidableEq, Repr

/-- A query value. -/
inductive QArg
  | none
  | dots
  | num (q : ℚ)
  | str (s : String)
  | coll (l : List QElem)
  deriving DecidableEq, Repr

/-- A query: the keyword arguments. -/
abbrev Query := List (Key × QArg)

/-- pd.py 52 and 88: `...` means open, as does `None`. Bounds that are strings are not modelled beyond being
incomparable with numbers (TypeError). -/
def QElem.bound : QElem → Except Err (Option ℚ)
  | .none => .ok Option.none
  | .dots => .ok Option.none
  | .num q => .ok (some q)
  | .str _ => .error .typeError

/-- As `QElem.bound`, for a `{column}_min` or `{column}_max` value. -/
def QArg.bound : QArg → Except Err (Option ℚ)
  | .none => .ok Option.none
  | .dots => .ok Option.none
  | .num q => .ok (some q)
  | _ => .error .typeError

/-- misc.py 595-600, `order_range_tuple`. -/
def orderRangeTuple (p : Option ℚ × Option ℚ) : Option ℚ × Option ℚ :=
  match p with
  | (some a, some b) => if b < a then (some b, some a) else (some a, some b)
  | p => p

/-- pd.py 41-62: a `_min`/`_max` key which is not itself a column. -/
def isMinMaxKey (cols : List Key) (k : Key) : Bool :=
  (k.suf == .min || k.suf == .max) && !(cols.contains k)

/-- What pd.py 82-95 makes of a key which is not a column. -/
inductive Unknown
  | drop
  | range (a b : Option ℚ)
  | unsupported

/-- Is the key unsupported? -/
def Unknown.bad : Unknown → Bool
  | .unsupported => true
  | _ => false

/-- pd.py 82-95 for one unknown key. `len` of a number or of `...` is a TypeError. A two-letter string passes
the length test and is then compared with numbers. -/
def classify (cols : List Key) (k : Key) (v : QArg) : Except Err Unknown :=
  if k.suf = .plain ∧ (⟨k.base, .min⟩ : Key) ∈ cols ∧ (⟨k.base, .max⟩ : Key) ∈ cols then
    match v with
    | .none => .ok .drop
    | .coll [x, y] => do
      let a ← x.bound
      let b ← y.bound
      return .range a b
    | .coll _ => .ok .unsupported
    | .str s => if s.length = 2 then .error .typeError else .ok .unsupported
    | _ => .error .typeError
  else
    match v with
    | .none => .ok .drop
    | _ => .ok .unsupported

/-- `pd.Series.isin` for one cell and one listed value. -/
def cellIn (c : Cell) (x : QElem) : Bool :=
  match c, x with
  | .null, .none => true
  | .num p, .num q => decide (p = q)
  | .str s, .str t => decide (s = t)
  | _, _ => false

/-- Is the cell a number? -/
def Cell.isNum : Cell → Bool
  | .num _ => true
  | _ => false

/-- pd.py 137-160, `_check_misdirected_range_query`. -/
def misdirected (cols : List Key) (k : Key) (l : List QElem) : Bool :=
  (k.suf == .min || k.suf == .max) && cols.contains ⟨k.base, .min⟩ && cols.contains ⟨k.base, .max⟩ &&
    l.length == 2 && l.any fun x => x == .none || x == .dots

/-- pd.py 110-168 for one key which is a column: equality, unix-style matching (`glob pattern text`, Python's
`fnmatch`) or membership. `None` and `...` are compared with `==`, which is never true. String matching on a
column of numbers is an AttributeError (`typeError` here); a null never matches. -/
def columnCond (glob : String → String → Bool) (t : Table) (k : Key) (v : QArg) : Except Err (TRow → Bool) :=
  match v with
  | .str s =>
    if t.rows.any fun r => (r k).isNum then .error .typeError
    else .ok fun r => match r k with
      | .str c => glob s c
      | _ => false
  | .num q => .ok fun r => decide (r k = .num q)
  | .coll l =>
    if misdirected t.cols k l then .error .parameterError
    else .ok fun r => l.any fun x => cellIn (r k) x
  | _ => .ok fun _ => false

/-- pd.py 171-179, `_filter_range` for one `{column}_min` or `{column}_max` key: the column must exist. Only
numeric bounds are modelled. -/
def rangeCond (t : Table) (k : Key) (v : QArg) : Except Err (TRow → Bool) :=
  if (⟨k.base, .plain⟩ : Key) ∈ t.cols then do
    let b ← v.bound
    match b with
    | Option.none => return fun _ => true
    | some q => return fun r => match r ⟨k.base, .plain⟩ with
      | .num c => if k.suf = .min then decide (q ≤ c) else decide (c ≤ q)
      | _ => false
  else .error .keyError

/-- pd.py 182-197, `_filter_multicolumn_range` for one key. A string cell in an interval column is not
modelled (treated as null). -/
def multiCond (base : String) (p : Option ℚ × Option ℚ) (r : TRow) : Bool :=
  match r ⟨base, .min⟩, r ⟨base, .max⟩ with
  | .num lo, .num hi =>
    (match p.1 with
      | some a => !decide (hi < a)
      | Option.none => true) &&
    (match p.2 with
      | some b => !decide (b < lo)
      | Option.none => true)
  | _, _ => false

/-- pd.py 351-353, 364: the condition a classified key adds. -/
def unknownCond (base : String) : Unknown → TRow → Bool
  | .range a b => multiCond base (orderRangeTuple (a, b))
  | _ => fun _ => true

/-- pd.py 323-365, `filter_df`: the mask over the rows. -/
def filterDf (glob : String → String → Bool) (ignoreBad : Bool) (t : Table) (q : Query) :
    Except Err (List Bool) := do
  let minMax := q.filter fun kv => isMinMaxKey t.cols kv.1
  let rest := q.filter fun kv => !isMinMaxKey t.cols kv.1
  let known := rest.filter fun kv => t.cols.contains kv.1
  let unknown := rest.filter fun kv => !t.cols.contains kv.1
  let cls ← unknown.mapM fun kv => (classify t.cols kv.1 kv.2).map fun c => (kv.1, c)
  if cls.any (fun c => c.2.bad) && !ignoreBad then throw .parameterError
  let c1 ← known.mapM fun kv => columnCond glob t kv.1 kv.2
  let c2 ← minMax.mapM fun kv => rangeCond t kv.1 kv.2
  let c3 := cls.map fun c => unknownCond c.1.base c.2
  return t.rows.map fun r => (c1 ++ c2 ++ c3).all fun c => c r

/-- pd.py 368-389, `_convert_min_max_in_kwargs`: `{x}_min`/`{x}_max` keys which are columns become one range for
`x`, replacing any range given for `x` itself. Only the keys of the base names `bases` are modelled as being
collected; their order does not matter. -/
def convertMinMax (cols : List Key) (q : Query) : Query :=
  let isMM := fun kv : Key × QArg => (kv.1.suf == .min || kv.1.suf == .max) && cols.contains kv.1
  let bases := ((q.filter isMM).map fun kv => kv.1.base).dedup
  let elem := fun (b : String) (s : Suffix) => match q.find? fun kv => isMM kv && kv.1 == ⟨b, s⟩ with
    | some (_, .num x) => QElem.num x
    | some (_, .str x) => QElem.str x
    | some (_, .dots) => QElem.dots
    | _ => QElem.none
  (q.filter fun kv => !isMM kv && !(kv.1.suf == .plain && bases.contains kv.1.base)) ++
    bases.map fun b => (⟨b, .plain⟩, .coll [elem b .min, elem b .max])

/-- misc.py 567-592, `sanitize_range_param` (a slice is written as its pair of limits). -/
def sanitizeRange (v : QArg) : Except Err (Option ℚ × Option ℚ) :=
  match v with
  | .none => .ok (Option.none, Option.none)
  | .dots => .ok (Option.none, Option.none)
  | .coll [x, y] => do
    let a ← x.bound
    let b ← y.bound
    return (a, b)
  | _ => .error .parameterError

/-- pd.py 311-319 for one row: the row with its interval cut, and whether it was cut. An open end is replaced
by the extreme of the column (lines 313-314), which cuts nothing. -/
def trimRow (base : String) (p : Option ℚ × Option ℚ) (r : TRow) : TRow × Bool :=
  let small : Bool := match r ⟨base, .min⟩, p.1 with
    | .num lo, some a => decide (lo < a)
    | _, _ => false
  let large : Bool := match r ⟨base, .max⟩, p.2 with
    | .num hi, some b => decide (b < hi)
    | _, _ => false
  (fun k =>
    if k = ⟨base, .min⟩ ∧ small then (match p.1 with | some a => .num a | Option.none => .null)
    else if k = ⟨base, .max⟩ ∧ large then (match p.2 with | some b => .num b | Option.none => .null)
    else r k, small || large)

/-- pd.py 292-320, the loop over the range keys: `(row, modified)` pairs. -/
def trimRows (cols : List Key) : Query → List (TRow × Bool) → Except Err (List (TRow × Bool))
  | [], rows => .ok rows
  | (k, v) :: q, rows =>
    if k.suf = .plain ∧ (⟨k.base, .min⟩ : Key) ∈ cols ∧ (⟨k.base, .max⟩ : Key) ∈ cols ∧ k ∉ cols then do
      let p ← sanitizeRange v
      if (⟨k.base, .step⟩ : Key) ∈ cols then
        trimRows cols q (rows.map fun r => ((trimRow k.base (orderRangeTuple p) r.1).1,
          r.2 || (trimRow k.base (orderRangeTuple p) r.1).2))
      else throw .parameterError
    else trimRows cols q rows

/-- pd.py 292-320, `adjust_segments`, with the `_modified` column kept beside the rows. -/
def adjustSegments (glob : String → String → Bool) (ignoreBad : Bool) (t : Table) (mods : List Bool) (q : Query) :
    Except Err (List (TRow × Bool)) := do
  let mask ← filterDf glob ignoreBad t q
  trimRows t.cols q (maskIdx (t.rows.zip mods) mask)

end Verif
