import Verif.Model.Index
/-! # Specification vocabulary for directories and their index -/
namespace Spec
open Verif

/-! ### Directory trees -/

/-- The directory reached from `es` by the names `ds` has the contents `sub`. -/
inductive DirAt : List FsEntry → List String → List FsEntry → Prop where
  | here (es) : DirAt es [] es
  | there {es d inner ds sub} : FsEntry.dir d inner ∈ es → DirAt inner ds sub → DirAt es (d :: ds) sub

/-- The name of an entry. -/
def entryName : FsEntry → String
  | .file n _ => n
  | .dir n _ => n

/-- No two entries of a directory have the same name, at any depth. -/
inductive GoodTree : List FsEntry → Prop where
  | mk {es} : (es.map entryName).Nodup → (∀ n sub, FsEntry.dir n sub ∈ es → GoodTree sub) → GoodTree es

/-- The name begins with a dot. -/
def DotName (name : String) : Prop := ∃ l, name.toList = '.' :: l

/-- A file that was asked for: right ending, new enough, not hidden. -/
structure Wanted (o : FsOpts) (name : String) (mtime : ℚ) : Prop where
  ext : ∀ e, o.ext = some e → ∃ l, name.toList = l ++ e.toList
  new : ∀ t, o.timestamp = some t → t ≤ mtime
  visible : o.skipHidden = true → ¬ DotName name

/-- Directories are handed out too. -/
def HandsOut (o : FsOpts) : Prop := o.dirs = true ∧ ¬ (o.skipHidden = true ∧ o.dotBase = true)

/-- None of the directories on the way is hidden (if those are to be skipped). -/
def VisibleWay (o : FsOpts) (ds : List String) : Prop := o.skipHidden = true → ∀ d ∈ ds, ¬ DotName d

/-- None of the first `n` directories on the way from `base` along `ds` (beginning with `base` itself) is skipped by
signal. -/
def OpenWay (o : FsOpts) (base ds : List String) (n : ℕ) : Prop :=
  HandsOut o → ∀ k < n, o.skip (base ++ ds.take k) = false

/-! ### Queries -/

/-- The row's interval meets the window. -/
def Meets {β} (lo hi : ℤ) (r : IRow β) : Prop := r.tmin ≤ hi ∧ lo ≤ r.tmax

instance {β} (lo hi : ℤ) (r : IRow β) : Decidable (Meets lo hi r) := inferInstanceAs (Decidable (_ ∧ _))

/-- If the row's interval covers the window enlarged by one second on both sides, it does so strictly. -/
def NotOnEdge {β} (lo hi : ℤ) (r : IRow β) : Prop :=
  r.tmin ≤ lo - 1000000000 → hi + 1000000000 ≤ r.tmax → r.tmin < lo - 1000000000 ∧ hi + 1000000000 < r.tmax

/-- The answers of a history of queries and updates by one indexer if there were no cache. -/
def uncached {β} (m : Meaning β) : List (IRow β) → List (IOp β) → List (List (IRow β))
  | _, [] => []
  | t, .query q :: ops => contentsFromFile (m.cond q.other) q.lo q.hi t :: uncached m t ops
  | t, .update rows :: ops => uncached m (t ++ rows) ops
  | t, .external rows :: ops => uncached m (t ++ rows) ops

/-! ### Updates -/

/-- Files are only created or changed by writing them now: none is deleted, none appears with an old modification time. -/
def OnlyWrites {β} : Ev β → Prop
  | .place .. => False
  | .delete _ => False
  | _ => True

/-- The event begins an update. -/
def IsStart {β} : Ev β → Prop
  | .start => True
  | _ => False

/-- The event writes the file `f`. -/
def Writes {β} (f : String) : Ev β → Prop
  | .write g _ => g = f
  | _ => False

/-- The running update is about to complete by this event. -/
def Completes {β} (w : World β) (e : Ev β) : Prop := ∃ u, w.upd = some u ∧
  ((e matches .stamp ∧ u.appended = true) ∨ (e matches .finish ∧ u.rows = [] ∧ ∀ f ∈ u.due, f ∈ u.seen))

/-- Every file's current rows are in the index. -/
def IndexedFile {β} (w : World β) (f : String) : Prop :=
  ∀ s, w.files.get? f = some s → ∀ r ∈ s.rows, (f, r) ∈ w.index

/-- The events of an update that nothing disturbs. -/
def quietUpdate {β} (w : World β) : List (Ev β) :=
  .start :: w.files.keys.map .visit ++ [.append, .stamp, .finish]

/-- A round of activity: some new files are written, a while passes, and an undisturbed update runs. -/
structure Round (β : Type) where
  files : List (String × List β)
  wait : ℚ

/-- The world after a round. -/
def playRound {β} (w : World β) (r : Round β) : World β :=
  let w := w.run (r.files.map fun p => .write p.1 p.2)
  let w := w.run [.tick r.wait]
  w.run (quietUpdate w)

/-- All entries that the files should have in the index. -/
def allEntries {β} (files : Dict (FileS β)) : List (String × β) := files.flatMap fun p => p.2.rows.map fun r => (p.1, r)

end Spec
