import Verif.Model.SpoolSelect
/-!
# Spools over files (dascore/clients/filespool.py, dascore/clients/dirspool.py, dascore/io/dasdae)

A file holds patches in the order in which they are read and scanned (for DASDAE: that of the names of their groups). A row of the
contents says where the limits of its patch are, and its attributes; the patch is then looked for by these.
-/
namespace Verif

/-- The columns of attributes. -/
def attrCols (cols : List Key) : List Key := cols.filter fun k => k.suf == .plain

/-- dasdae/utils.py 161-174: the attributes of a row which are asked for. Nulls are not; a directory spool replaces empty texts by
`None` (dirspool.py 121). Limits and steps are in the keywords, too, but are no columns of the table of attributes and hence
ignored (pd.py 82-104). -/
def attrQuery (blank : Bool) (cols : List Key) (c : TRow) : Query :=
  (attrCols cols).filterMap fun k => match c k with
    | .null => none
    | .num q => some (k, .num q)
    | .str s => if blank && s == "" then none else some (k, .str s)

/-- dasdae/utils.py 161-177, `_matches_attr_filters`. -/
def matchesAttrs (glob : String → String → Bool) (cols : List Key) (q : Query) (r : TRow) : Except Err Bool := do
  let mask ← filterDf glob true ⟨attrCols cols, [r]⟩ q
  return mask.getD 0 false

/-- dasdae/utils.py 188-195: the limits of a row for the coordinates of a patch attached to one dimension. Columns of limits are taken to come with that of
the step. -/
def readKwargs {α} (cols : List Key) (c : TRow) (p : PatchM α) : Dict CQuery :=
  (rowKwargs cols c p).filter fun r => match p.cm.ents.get? r.1 with
    | some ([_], _) => true
    | _ => false

/-- dasdae/core.py 130-135 for one patch; keywords are always there. -/
def readOne {α} (argsort : List ℚ → List ℕ) (glob : String → String → Bool) (attrs : PatchM α → TRow) (blank : Bool) (cols : List Key)
    (c : TRow) (p : PatchM α) : Except Err (Option (PatchM α)) :=
  match matchesAttrs glob cols (attrQuery blank cols c) (patchRow attrs p) with
  | .error e => .error e
  | .ok false => .ok none
  | .ok true => (p.select argsort (readKwargs cols c p)).map fun q => if q.data.shape.contains 0 then none else some q

/-- filespool.py 64-75: the first patch of the file that fits the row. `none` stands for a `MissingPatchError`. -/
def fileLoad {α} (argsort : List ℚ → List ℕ) (glob : String → String → Bool) (attrs : PatchM α → TRow) (blank : Bool) (cols : List Key)
    (ps : List (PatchM α)) (c : TRow) : Except Err (Option (PatchM α)) :=
  (ps.mapM (readOne argsort glob attrs blank cols c)).map fun l => (l.filterMap id).head?

/-- dirspool.py 124-175 for an unmodified row of a spool without further keywords: a file of one patch is read without them. -/
def dirLoad {α} (argsort : List ℚ → List ℕ) (glob : String → String → Bool) (attrs : PatchM α → TRow) (cols : List Key)
    (ps : List (PatchM α)) (c : TRow) : Except Err (Option (PatchM α)) :=
  match ps with
  | [p] => .ok (some p)
  | ps => fileLoad argsort glob attrs true cols ps c

/-- spool.py 480-490, iteration over the spool of a file: rows without a patch are skipped with a warning. -/
def fileIter {α} (argsort : List ℚ → List ℕ) (glob : String → String → Bool) (attrs : PatchM α → TRow) (cols : List Key)
    (ps : List (PatchM α)) : Except Err (List (PatchM α)) :=
  (ps.mapM fun p => fileLoad argsort glob attrs false cols ps (patchRow attrs p)).map fun l => l.filterMap id

/-- The same for the rows of one file in the spool of a directory. -/
def dirIter {α} (argsort : List ℚ → List ℕ) (glob : String → String → Bool) (attrs : PatchM α → TRow) (cols : List Key)
    (ps : List (PatchM α)) : Except Err (List (PatchM α)) :=
  (ps.mapM fun p => dirLoad argsort glob attrs cols ps (patchRow attrs p)).map fun l => l.filterMap id

end Verif
