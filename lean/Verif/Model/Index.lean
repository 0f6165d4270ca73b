import Verif.Model.CoordManager
/-!
# The directory index (dascore/io/indexer.py, dascore/utils/hdf5.py, dascore/utils/misc.py `_iter_filesystem`)

File names and relative paths are lists of components. The HDF5 file is the list of rows of its index table and the
time stamp stored beside it; reading and writing it is atomic except where the code makes two writes.
-/
namespace Verif

/-! ### Walking a directory -/

/-- What `os.scandir` finds: a file with its modification time, or a directory. -/
inductive FsEntry where
  | file (name : String) (mtime : ℚ)
  | dir (name : String) (es : List FsEntry)

/-- The options of `_iter_filesystem`; `dotBase` tells whether the string given as base path begins with a dot (line
199 tests the whole path, which begins like the base path), and `skip` answers which of the directories that are
handed out get the signal "skip". -/
structure FsOpts where
  ext : Option String
  timestamp : Option ℚ
  skipHidden : Bool
  dirs : Bool
  dotBase : Bool
  skip : List String → Bool

/-- Does a name begin with a dot? -/
def hidden (name : String) : Bool := name.toList.head? == some '.'

/-- misc.py 205-207: is this file handed out? -/
def FsOpts.wants (o : FsOpts) (name : String) (mtime : ℚ) : Bool :=
  (match o.ext with
    | none => true
    | some e => e.toList.isSuffixOf name.toList) &&
  (match o.timestamp with
    | none => true
    | some t => decide (t ≤ mtime)) &&
  (!hidden name || !o.skipHidden)

/-- misc.py 198-203: a directory is handed out itself if directories are wanted, and its contents (`below`) follow
unless the skip signal is received. -/
def dirOut (o : FsOpts) (path : List String) (below : List (List String)) : List (List String) :=
  if o.dirs && !(o.skipHidden && o.dotBase) then
    if o.skip path then [path] else path :: below
  else below

mutual

/-- misc.py 204-216: the loop over the entries of the directory with the given relative path. -/
def iterEntries (o : FsOpts) (path : List String) : List FsEntry → List (List String)
  | [] => []
  | e :: es => iterEntry o path e ++ iterEntries o path es

/-- misc.py 205-216: one entry. -/
def iterEntry (o : FsOpts) (path : List String) : FsEntry → List (List String)
  | .file name mtime => if o.wants name mtime then [path ++ [name]] else []
  | .dir name es => if o.skipHidden && hidden name then [] else
      dirOut o (path ++ [name]) (iterEntries o (path ++ [name]) es)

end

/-- misc.py 197-216: the paths below a directory, given by its relative path and its contents. -/
def iterDir (o : FsOpts) (path : List String) (es : List FsEntry) : List (List String) :=
  dirOut o path (iterEntries o path es)

/-! ### Querying the index -/

/-- A row of the index table: the time interval (in nanoseconds) and everything else. -/
structure IRow (β : Type) where
  tmin : ℤ
  tmax : ℤ
  rest : β

/-- A limit of a time query: nothing, a number (of seconds) or a datetime (in nanoseconds). -/
inductive TimeArg where
  | none
  | num (s : ℤ)
  | dt (ns : ℤ)
  deriving DecidableEq, Repr

/-- constants.py 115. -/
def SMALLDT : ℤ := -9223372036854775808 + 5000000000

/-- constants.py 116. -/
def LARGEDT : ℤ := 9223372036854775807 - 5000000000

/-- time.py 453-454, `to_datetime64(x or default)`: the number zero counts as not given. (A datetime is taken to be
true; whether the datetime 1970-01-01 is depends on numpy, no theorem speaks about it.) -/
def TimeArg.orElse (d : ℤ) : TimeArg → ℤ
  | .none => d
  | .num s => if s = 0 then d else s * 1000000000
  | .dt n => n

/-- time.py 442-460, `get_max_min_times`. -/
def getMaxMinTimes (a b : TimeArg) : Except Err (ℤ × ℤ) :=
  if b.orElse LARGEDT < a.orElse SMALLDT then .error .valueError else .ok (a.orElse SMALLDT, b.orElse LARGEDT)

/-- constants.py `ONE_SECOND_IN_NS`, the buffer of hdf5.py 161 and of indexer.py 164. -/
def BUFFER : ℤ := 1000000000

/-- hdf5.py 132-147, `_get_kernel_query`: is the row read from the file? -/
def kernelQuery {β} (lo hi : ℤ) (r : IRow β) : Bool :=
  let t1 := lo - BUFFER
  let t2 := hi + BUFFER
  (decide (t1 < r.tmin) && decide (r.tmin < t2)) ||
    ((decide (t1 < r.tmax) && decide (r.tmax < t2)) || (decide (r.tmin < t1) && decide (t2 < r.tmax)))

/-- indexer.py 199-201: rows surely outside of the window are removed. -/
def preFilter {β} (lo hi : ℤ) (r : IRow β) : Bool :=
  !(decide (hi + BUFFER ≤ r.tmin) || decide (r.tmax ≤ lo - BUFFER))

/-- pd.py 182-197 (see `multiCond`) for the time range. -/
def timeCond {β} (lo hi : ℤ) (r : IRow β) : Bool := !decide (r.tmax < lo) && !decide (hi < r.tmin)

/-- indexer.py 198-209: from the rows read (or cached) to the answer; `cond` is what `filter_df` makes of the other
keywords, row by row (see C23). -/
def trimIndex {β} (cond : IRow β → Bool) (lo hi : ℤ) (rows : List (IRow β)) : List (IRow β) :=
  (rows.filter (preFilter lo hi)).filter fun r => cond r && timeCond lo hi r

/-- indexer.py 164-211 without the cache. -/
def contentsFromFile {β} (cond : IRow β → Bool) (lo hi : ℤ) (table : List (IRow β)) : List (IRow β) :=
  trimIndex cond lo hi (table.filter (kernelQuery lo hi))

/-! ### The cache of queries -/

/-- A query: the time window, the keywords that go to `read_hdf` and the other ones (sorted by name). -/
structure IQuery where
  lo : ℤ
  hi : ℤ
  hdf : List (String × String)
  other : List (String × String)

/-- One row of the cache. -/
structure Slot (β : Type) where
  t1 : ℤ
  t2 : ℤ
  key : List (String × String)
  cindex : List (IRow β)

/-- An indexer: the file's table, the cache and the place used last. -/
structure IState (β : Type) where
  table : List (IRow β)
  slots : List (Option (Slot β))
  cur : ℕ

/-- What the keywords mean: `read` is what `read_hdf` makes of its keywords, `cond` the condition of the others. -/
structure Meaning (β : Type) where
  read : List (String × String) → List (IRow β) → List (IRow β)
  cond : List (String × String) → IRow β → Bool

/-- indexer.py 185-188: does a cached row answer the query? -/
def Slot.answers {β} (s : Slot β) (q : IQuery) : Bool :=
  decide (s.t1 ≤ q.lo) && decide (q.hi ≤ s.t2) && decide (s.key = q.other)

/-- indexer.py 246-255, `_get_next_index`. -/
def IState.next {β} (s : IState β) : ℕ := if s.cur + 1 = s.slots.length then 0 else s.cur + 1

/-- indexer.py 164-211, `get_contents`: the answer and the new state. The cache compares with the keywords of the
second group (line 187) but stores those of the first (line 195). -/
def IState.query {β} (m : Meaning β) (s : IState β) (q : IQuery) : List (IRow β) × IState β :=
  match s.slots.find? fun o => o.any fun x => x.answers q with
  | some (some x) => (trimIndex (m.cond q.other) q.lo q.hi x.cindex, s)
  | _ =>
    let rows := m.read q.hdf (s.table.filter (kernelQuery q.lo q.hi))
    (trimIndex (m.cond q.other) q.lo q.hi rows,
      { s with slots := s.slots.set s.next (some ⟨q.lo, q.hi, q.hdf, rows⟩), cur := s.next })

/-- indexer.py 334-345: new rows are appended to the table and the cache is cleared. -/
def IState.update {β} (s : IState β) (rows : List (IRow β)) : IState β :=
  if rows.isEmpty then s else { s with table := s.table ++ rows, slots := s.slots.map fun _ => none }

/-- What happens to an indexer; `external` is an update of the same index file by another indexer. -/
inductive IOp (β : Type) where
  | query (q : IQuery)
  | update (rows : List (IRow β))
  | external (rows : List (IRow β))

/-- A history: the answers of its queries, in order. -/
def IState.run {β} (m : Meaning β) : IState β → List (IOp β) → List (List (IRow β))
  | _, [] => []
  | s, .query q :: ops => (s.query m q).1 :: IState.run m (s.query m q).2 ops
  | s, .update rows :: ops => IState.run m (s.update rows) ops
  | s, .external rows :: ops => IState.run m { s with table := s.table ++ rows } ops

/-- indexer.py 118-134: a new indexer on a file with the given table. -/
def IState.start {β} (size : ℕ) (table : List (IRow β)) : IState β := ⟨table, List.replicate size none, 0⟩

/-! ### Updating the index -/

/-- A file: when it was last modified and the rows that scanning it gives. -/
structure FileS (β : Type) where
  mtime : ℚ
  rows : List β

/-- A running update (indexer.py 309-346): when it began, the oldest modification time it looks at, the files that were
there when it began, those visited so far, the rows found so far, and whether these have been appended. -/
structure Upd (β : Type) where
  start : ℚ
  thr : Option ℚ
  due : List String
  seen : List String
  rows : List (String × β)
  appended : Bool

/-- The directory, its index file, and the running update if there is one. -/
structure World (β : Type) where
  now : ℚ
  files : Dict (FileS β)
  index : List (String × β)
  ts : Option ℚ
  upd : Option (Upd β)

/-- What can happen. The steps of an update can be interleaved with changes of the directory. `place` is a file that
keeps its old modification time (moved or copied from elsewhere); `remove` deletes the index file. -/
inductive Ev (β : Type) where
  | tick (d : ℚ)
  | write (f : String) (rows : List β)
  | place (f : String) (mtime : ℚ) (rows : List β)
  | delete (f : String)
  | remove
  | start
  | visit (f : String)
  | append
  | stamp
  | finish
  | crash

/-- misc.py 206 with indexer.py 262-270: is the file new enough? -/
def newEnough {β} (thr : Option ℚ) (s : FileS β) : Bool :=
  match thr with
  | none => true
  | some t => decide (t ≤ s.mtime)

/-- io/core.py 854-904 for one file: the rows it adds. -/
def scanFile {β} (files : Dict (FileS β)) (thr : Option ℚ) (f : String) : List (String × β) :=
  match files.get? f with
  | some s => if newEnough thr s then s.rows.map fun r => (f, r) else []
  | none => []

/-- Have all files that were there at the start been visited? -/
def Upd.allSeen {β} (u : Upd β) : Bool := u.due.all fun f => u.seen.contains f

namespace World
variable {β : Type}

/-- The steps of a running update. -/
def updStep (w : World β) (u : Upd β) : Ev β → World β
  -- misc.py 204-207 and io/core.py 854-904
  | .visit f => if u.appended || u.seen.contains f then w
      else { w with upd := some { u with seen := f :: u.seen, rows := u.rows ++ scanFile w.files u.thr f } }
  -- hdf5.py 283-305, the rows are appended
  | .append => if u.allSeen && !u.rows.isEmpty && !u.appended then
      { w with index := w.index ++ u.rows, upd := some { u with appended := true } } else w
  -- hdf5.py 306-312, the time stamp is written
  | .stamp => if u.appended then { w with ts := some u.start, upd := none } else w
  -- indexer.py 334: nothing was found, nothing is written
  | .finish => if u.allSeen && u.rows.isEmpty then { w with upd := none } else w
  | .crash => { w with upd := none }
  | _ => w

/-- One event; an event that is not possible changes nothing. -/
def step (w : World β) : Ev β → World β
  | .tick d => if 0 ≤ d then { w with now := w.now + d } else w
  | .write f rows => { w with files := w.files.set f ⟨w.now, rows⟩ }
  | .place f mtime rows => { w with files := w.files.set f ⟨mtime, rows⟩ }
  | .delete f => { w with files := w.files.filter fun p => p.1 != f }
  | .remove => if w.upd.isNone then { w with index := [], ts := none } else w
  -- indexer.py 323-325 and 257-270
  | .start => if w.upd.isNone then
      { w with upd := some ⟨w.now, w.ts.map fun t => t - 1 / 1000, w.files.keys, [], [], false⟩ } else w
  | e => match w.upd with
    | some u => w.updStep u e
    | none => w

/-- A history. -/
def run (w : World β) (evs : List (Ev β)) : World β := evs.foldl step w

/-- An empty directory without an index. -/
def empty : World β := ⟨0, [], [], none, none⟩

end World

end Verif
