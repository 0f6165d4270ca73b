import Verif.Model.CoordArray
import Verif.Model.Chunk
/-!
# Spool tables (dascore/core/spool.py)

A spool holds three tables: the current contents (`_df`), the sources (`_source_df`) and the instructions, which
say for each current row which parts of which sources make it up. Rows of the current and source tables
carry index labels; an instruction row refers to both by label. `R`, `S`, `I` stand for the other columns.
-/
namespace Verif

/-- spool.py `_df`, `_source_df`, `_instruction_df`. An instruction is (source label, current label, limits). -/
structure SpoolT (R S I : Type) where
  df : List (ℕ × R)
  source : List (ℕ × S)
  inst : List (ℕ × ℕ × I)
  deriving DecidableEq

namespace SpoolT
variable {R S I P : Type}

/-- spool.py 648-668, `_get_dummy_dataframes`: a new spool over rows `rows`, one instruction per row. -/
def ofRows (src : R → S) (ins : R → I) (rows : List R) : SpoolT R S I where
  df := (List.range rows.length).zip rows
  source := (List.range rows.length).zip (rows.map src)
  inst := ((List.range rows.length).zip rows).map fun p => (p.1, p.1, ins p.2)

/-- spool.py 515, left join of one instruction row with the sources of its label. -/
def joinRow (s : SpoolT R S I) (r : ℕ × ℕ × I) : List (I × Option S) :=
  match s.source.filter fun x => x.1 == r.1 with
  | [] => [(r.2.2, none)]
  | l => l.map fun x => (r.2.2, some x.2)

/-- spool.py 505-515: the joined rows of the current row labelled `l`. -/
def joined (s : SpoolT R S I) (l : ℕ) : List (I × Option S) :=
  (s.inst.filter fun r => r.2.1 == l).flatMap s.joinRow

/-- `len(spool)`. -/
def len (s : SpoolT R S I) : ℕ := s.df.length

/-- spool.py 495-523, `spool[i]`; `build` stands for dropping duplicates (done only for more than ten rows),
loading, trimming and merging. `Index.__getitem__` accepts negative positions, also after the adjustment of
line 500. -/
def get (build : List (I × Option S) → P) (s : SpoolT R S I) (i : ℤ) : Except Err P :=
  let j : ℤ := if 0 ≤ i then i else s.len + i
  let k : ℤ := if j < 0 then j + s.len else j
  if k < 0 then .error .indexError
  else
    match s.df[k.toNat]? with
    | none => .error .indexError
    | some (l, _) =>
      if (s.inst.filter fun r => r.2.1 == l).isEmpty then .error .assertionError
      else .ok (build (s.joined l))

/-- spool.py 461-470, `spool[slice]`; `source.loc[new_inst.index]` takes the source of each instruction row, as
often as it occurs, and raises KeyError for an unknown label. -/
def slice (s : SpoolT R S I) (sl : PySlice) : Except Err (SpoolT R S I) := do
  let df ← pySlice s.df sl
  let inst := s.inst.filter fun r => (df.map Prod.fst).contains r.2.1
  if inst.all fun r => s.source.any fun x => x.1 == r.1 then
    return ⟨df, inst.flatMap fun r => s.source.filter fun x => x.1 == r.1, inst⟩
  else throw .keyError

/-- spool.py 439-458, `spool[array]` with integers: only the current table changes. -/
def takeArr (s : SpoolT R S I) (ix : List ℤ) : Except Err (SpoolT R S I) := do
  return { s with df := ← takeInts s.df ix }

/-- spool.py 439-458, `spool[array]` with booleans. -/
def maskArr (s : SpoolT R S I) (m : List Bool) : Except Err (SpoolT R S I) :=
  if m.length = s.df.length then .ok { s with df := maskIdx s.df m } else .error .indexError

/-- spool.py 763-791, `sort` by a column given by `key`; `argsort` sorts it. Mapping through a series with repeated
labels raises. Instructions of rows that are not in the current table get a null label, which matches nothing, so
they are dropped here. -/
def sort (argsort : List ℚ → List ℕ) (key : R → ℚ) (s : SpoolT R S I) : Except Err (SpoolT R S I) :=
  if (s.df.map Prod.fst).Nodup then
    let perm := argsort (s.df.map fun p => key p.2)
    let sorted := takeIdx s.df perm
    let labels := sorted.map Prod.fst
    .ok {
      df := (List.range sorted.length).zip (sorted.map Prod.snd)
      source := s.source
      inst := s.inst.filterMap fun r =>
        if r.2.1 ∈ labels then some (r.1, labels.idxOf r.2.1, r.2.2) else none }
  else .error .valueError

/-- The operations of a history. -/
inductive Op
  | slice (sl : PySlice)
  | ints (ix : List ℤ)
  | mask (m : List Bool)
  | sort

/-- One operation. -/
def step (argsort : List ℚ → List ℕ) (key : R → ℚ) (s : SpoolT R S I) : Op → Except Err (SpoolT R S I)
  | .slice sl => s.slice sl
  | .ints ix => s.takeArr ix
  | .mask m => s.maskArr m
  | .sort => s.sort argsort key

/-- A history of operations. -/
def run (argsort : List ℚ → List ℕ) (key : R → ℚ) : List Op → SpoolT R S I → Except Err (SpoolT R S I)
  | [], s => .ok s
  | o :: os, s => do
    let s' ← s.step argsort key o
    run argsort key os s'

/-- spool.py 683-712: the sources a later `chunk` works on are those of the source table (whatever the current
table shows). -/
def chunkSources (s : SpoolT R S I) : List S := s.source.map Prod.snd

end SpoolT

end Verif
