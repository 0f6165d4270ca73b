import Verif.Model.Num
/-!
# Resource managers (dascore/utils/io.py 99-163)

Handles are numbered in the order they are opened. A type stands for a required type after `_get_required_type`, which
only replaces a function by the type of its argument. `close` of a handle is taken not to raise.
-/
namespace Verif

/-- What a type needs (io.py 100-112): a handle from its `get_handle`, a conversion (`str`, `Path`), or the source as it is. -/
inductive TKind where
  | handle | convert | asis
  deriving DecidableEq, Repr

/-- The types: their sort, whether `get_handle` succeeds on the path, and whether it takes a handle that is already open. -/
structure TypeEnv where
  kind : ℕ → TKind
  canOpen : ℕ → Bool
  accepts : ℕ → ℕ → Bool

/-- What a manager is made of: a path, an open handle, or another manager. -/
inductive IOSource where
  | path | handle (h : ℕ) | mgr (m : ℕ)
  deriving DecidableEq, Repr

/-- io.py 115-119, `IOResourceManager`: the source and the cache, from types to handles (`none`: something else than a handle). -/
structure Mgr where
  source : IOSource
  cache : List (ℕ × Option ℕ) := []
  deriving DecidableEq, Repr

/-- The managers, the number of handles so far, the handles which managers opened (manager, type, handle) and the calls of `close`. -/
structure IOWorld where
  mgrs : List Mgr := []
  next : ℕ := 0
  opens : List (ℕ × ℕ × ℕ) := []
  closes : List ℕ := []
  deriving DecidableEq, Repr

/-- The parent of a manager. -/
def IOWorld.parent (w : IOWorld) (m : ℕ) : Option ℕ :=
  match w.mgrs[m]? with
  | some ⟨.mgr p, _⟩ => some p
  | _ => none

/-- io.py 140-141 (and 127-131): the request is passed on to the manager the source is, and so on. A manager is made after its
source, so `m` turns are enough. -/
def IOWorld.rootOf (w : IOWorld) : ℕ → ℕ → ℕ
  | 0, m => m
  | k + 1, m =>
    match w.parent m with
    | some p => w.rootOf k p
    | none => m

/-- io.py 100-112, `get_handle_from_resource`: the handle, if there is one, and the new one if it was opened. -/
def getHandle (E : TypeEnv) (next : ℕ) (src : IOSource) (t : ℕ) : Except Err (Option ℕ × Bool) :=
  match src, E.kind t with
  | .path, .handle => if E.canOpen t then .ok (some next, true) else .error .notImplemented
  | .handle h, .handle => if E.accepts t h then .ok (some h, false) else .error .notImplemented
  | .handle h, .asis => .ok (some h, false)
  | _, _ => .ok (none, false)

/-- io.py 142-146, at the outermost manager `r`. -/
def IOWorld.obtain (E : TypeEnv) (w : IOWorld) (r t : ℕ) : Except Err (Option ℕ) × IOWorld :=
  match w.mgrs[r]? with
  | none => (.error .keyError, w)
  | some M =>
    match M.cache.find? (fun e => e.1 == t) with
    | some e => (.ok e.2, w)
    | none =>
      match getHandle E w.next M.source t with
      | .error e => (.error e, w)
      | .ok (v, new) =>
        (.ok v, { w with
          mgrs := w.mgrs.set r { M with cache := M.cache ++ [(t, v)] }
          next := if new then w.next + 1 else w.next
          opens := if new then w.opens ++ [(r, t, w.next)] else w.opens })

/-- io.py 133-146, `get_resource` (with a required type). -/
def IOWorld.request (E : TypeEnv) (w : IOWorld) (m t : ℕ) : Except Err (Option ℕ) × IOWorld := w.obtain E (w.rootOf m m) t

/-- io.py 149-152, `close_all`. -/
def IOWorld.closeAll (w : IOWorld) (m : ℕ) : IOWorld :=
  match w.mgrs[m]? with
  | none => w
  | some M => { w with closes := w.closes ++ M.cache.filterMap Prod.snd }

/-- What happens: a handle is opened by someone else, a manager is made, asked, left (153-159) or deleted (161-162). -/
inductive IOOp where
  | openOutside
  | create (src : IOSource)
  | request (m t : ℕ)
  | exit (m : ℕ)
  | del (m : ℕ)
  deriving DecidableEq, Repr

/-- The source exists. -/
def IOWorld.exists (w : IOWorld) : IOSource → Bool
  | .path => true
  | .handle h => decide (h < w.next)
  | .mgr m => decide (m < w.mgrs.length)

/-- One step. Managers and handles which do not exist cannot be used. -/
def IOWorld.step (E : TypeEnv) (w : IOWorld) : IOOp → IOWorld
  | .openOutside => { w with next := w.next + 1 }
  | .create src => if w.exists src then { w with mgrs := w.mgrs ++ [{ source := src }] } else w
  | .request m t => (w.request E m t).2
  | .exit m => w.closeAll m
  | .del m => w.closeAll m

/-- Several steps from the start. -/
def IOWorld.run (E : TypeEnv) (ops : List IOOp) : IOWorld := ops.foldl (IOWorld.step E) {}

end Verif
