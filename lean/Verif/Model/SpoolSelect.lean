import Verif.Model.Spool
import Verif.Model.Filter
import Verif.Model.PatchOps
/-!
# `spool.select` and loading (dascore/core/spool.py, dascore/utils/pd.py)

A spool whose three tables carry rows of cells with the `_modified` flag. `P` stands for what a row loads (a patch in
memory). The current and source tables also have the column of patches; the instruction table has the limit columns
only.
-/
namespace Verif

/-- The columns of the current and source tables, the tables, and the keywords left for loading (`_select_kwargs`). -/
structure MemSpool (P : Type) where
  cols : List Key
  tab : SpoolT ((TRow × Bool) × P) ((TRow × Bool) × P) (TRow × Bool)
  kwargs : Query

/-- pd.py 392-415, spool.py 648-657: the columns of the instruction table, those of the names with a minimum, a maximum
and a step. -/
def instCols (cols : List Key) : List Key :=
  cols.filter fun k => k.suf != .plain && cols.contains ⟨k.base, .min⟩ && cols.contains ⟨k.base, .max⟩ &&
    cols.contains ⟨k.base, .step⟩

/-- pd.py 292-320, `adjust_segments` for the rows of one table, whatever else they carry: `get` reads the cells and the
flag, `put` writes them. -/
def adjustRows {β} (glob : String → String → Bool) (cols : List Key) (q : Query) (get : β → TRow × Bool)
    (put : β → TRow × Bool → β) (l : List β) : Except Err (List β) := do
  let mask ← filterDf glob true ⟨cols, l.map fun x => (get x).1⟩ q
  let rows ← trimRows cols q ((maskIdx l mask).map get)
  return List.zipWith put (maskIdx l mask) rows

/-- pd.py 65-107 as called in spool.py 744: the keywords that are neither columns nor ranges. `None` is dropped. -/
def unsupported (cols : List Key) (q : Query) : Except Err Query := do
  let cls ← (q.filter fun kv => !cols.contains kv.1).mapM fun kv => (classify cols kv.1 kv.2).map fun c => (kv, c)
  return (cls.filter fun c => c.2.bad).map Prod.fst

namespace MemSpool
variable {P : Type}

/-- spool.py 648-670 with `patches_to_df`: a new spool of patches; `row` are the cells of a patch. -/
def ofPatches (cols : List Key) (row : P → TRow) (ps : List P) : MemSpool P :=
  ⟨cols, SpoolT.ofRows id Prod.fst (ps.map fun p => ((row p, false), p)), []⟩

/-- spool.py 740-760, `select`. The new keywords for loading replace older ones of the same name. -/
def select (glob : String → String → Bool) (s : MemSpool P) (q : Query) : Except Err (MemSpool P) := do
  let extra ← unsupported s.cols q
  let df ← adjustRows glob s.cols q (fun x => x.2.1) (fun x r => (x.1, r, x.2.2)) s.tab.df
  let adj ← adjustRows glob (instCols s.cols) q (fun x => x.2.2) (fun x r => (x.1, x.2.1, r)) s.tab.inst
  let inst := adj.filter fun r => (df.map Prod.fst).contains r.2.1
  if inst.all fun r => s.tab.source.any fun x => x.1 == r.1 then
    let source ← adjustRows glob s.cols q (fun x => x.2.1) (fun x r => (x.1, r, x.2.2))
      (inst.flatMap fun r => s.tab.source.filter fun x => x.1 == r.1)
    return ⟨s.cols, ⟨df, source, inst⟩, (s.kwargs.filter fun kv => !(extra.map Prod.fst).contains kv.1) ++ extra⟩
  else throw .keyError

/-- The operations of a history: those of Model/Spool except sorting, and `select`. -/
inductive Op
  | slice (sl : PySlice)
  | ints (ix : List ℤ)
  | mask (m : List Bool)
  | select (q : Query)

/-- One operation. -/
def step (glob : String → String → Bool) (s : MemSpool P) : Op → Except Err (MemSpool P)
  | .slice sl => (s.tab.slice sl).map fun t => { s with tab := t }
  | .ints ix => (s.tab.takeArr ix).map fun t => { s with tab := t }
  | .mask m => (s.tab.maskArr m).map fun t => { s with tab := t }
  | .select q => s.select glob q

/-- A history of operations. -/
def run (glob : String → String → Bool) : List Op → MemSpool P → Except Err (MemSpool P)
  | [], s => .ok s
  | o :: os, s => do
    let s' ← s.step glob o
    run glob os s'

end MemSpool

/-- The smallest and largest value of a list. -/
def spanOf : List ℚ → Option (ℚ × ℚ)
  | [] => none
  | x :: l => some (l.foldl min x, l.foldl max x)

/-- coords.py 503-523, 798-806, 1131-1139, 1376-1382: the limits in the summary of a coordinate. Nulls are skipped; a
coordinate without values has none. -/
def MCoord.span : MCoord → Option (ℚ × ℚ)
  | .one _ (.range r) => some (r.cmin, r.cmax)
  | .one _ c => spanOf c.vals
  | .nd a => spanOf ((Nd.indices a.shape).filterMap a.get)

/-- A number, or null. -/
def cellOfNum : Option ℚ → Cell
  | some x => .num x
  | none => .null

/-- core/attrs.py 286-320 with `patches_to_df`: the cells of a patch. Limits come from its coordinates, all the other
columns (also the steps) from `attrs`; the limits are null when there is no such coordinate. -/
def patchRow {α} (attrs : PatchM α → TRow) (p : PatchM α) : TRow := fun k =>
  match k.suf with
  | .min => cellOfNum ((p.cm.ents.get? k.base).bind fun e => e.2.span.map Prod.fst)
  | .max => cellOfNum ((p.cm.ents.get? k.base).bind fun e => e.2.span.map Prod.snd)
  | _ => attrs p k

/-- pd.py 368-389: a limit read from a row; null is open. -/
def Cell.limit : Cell → Option ℚ
  | .num x => some x
  | _ => none

/-- spool.py 553-568: the keywords of a modified row, one pair of limits for every coordinate of the patch whose limits are
columns. They are in the order of the coordinates here; `Patch.select` sorts them by name, which only matters when two
coordinates share a dimension. -/
def rowKwargs {α} (cols : List Key) (c : TRow) (p : PatchM α) : Dict CQuery :=
  (p.cm.ents.keys.filter fun n => (instCols cols).contains ⟨n, .min⟩ && (instCols cols).contains ⟨n, .max⟩).map fun n =>
    (n, .between (c ⟨n, .min⟩).limit (c ⟨n, .max⟩).limit)

/-- spool.py 525-571 for one current row: load and trim its patch. Rows made of several pieces are merged (Model/Merge) and
not modelled here. The keywords left for loading are not coordinates of the patch (a coordinate has limit columns, and
then anything but a pair is refused by `select`), so that `Patch.select` refuses them; those which are other
arguments of `Patch.select` (`copy`, `relative`, `samples`) are not modelled. -/
def loadRow {α} (argsort : List ℚ → List ℕ) (cols : List Key) (kwargs : Query) :
    List ((TRow × Bool) × Option ((TRow × Bool) × PatchM α)) → Except Err (PatchM α)
  | [((c, m), some (_, p))] =>
    if m then p.select argsort (rowKwargs cols c p)
    else if kwargs.isEmpty then .ok p else .error .patchCoordinateError
  | _ => .error .notImplemented

/-- spool.py 480-523, iteration over a spool. -/
def MemSpool.patches {α} (argsort : List ℚ → List ℕ) (s : MemSpool (PatchM α)) : Except Err (List (PatchM α)) :=
  s.tab.df.mapM fun x => loadRow argsort s.cols s.kwargs (s.tab.joined x.1)

end Verif
