import Verif.Proof.IndexUpdate
/-! # Property theorems: updating the index of a directory (C29) -/
namespace Verif
open Spec

/-- **C29 (nothing is missed).** Take any history of a directory whose files are only written (never deleted, never moved
in with an old modification time), with updates interleaved with writing, crashing at any point, and the index file
removed at any time between updates. When an update completes, every file that was not written while that update was
running has all its rows in the index. Missing: directories with deletions or with files that keep an old
modification time, and the absence of stale or repeated rows; see the violations. -/
theorem C29_complete_partial {β} (pre mid : List (Ev β)) (e : Ev β) (hw : ∀ x ∈ pre ++ .start :: mid, OnlyWrites x)
    (hp : (World.empty.run pre).upd = none) (hm : ∀ x ∈ mid, ¬ IsStart x)
    (hc : Completes (World.empty.run (pre ++ .start :: mid)) e) (f : String) (hf : ∀ x ∈ mid, ¬ Writes f x) :
    IndexedFile (World.empty.run (pre ++ .start :: mid ++ [e])) f := by
  rw [run_append]
  have hpre : UInv (World.empty.run pre : World β) := uinv_run uinv_empty fun x hx => hw x (List.mem_append_left _ hx)
  have hst : UInv ((World.empty.run pre).step (.start : Ev β)) := uinv_step hpre trivial
  have hrun : World.empty.run (pre ++ .start :: mid) = ((World.empty.run pre).step (.start : Ev β)).run mid := by
    rw [run_append]; rfl
  have hwm : ∀ x ∈ mid, OnlyWrites x := fun x hx => hw x (List.mem_append_right _ (List.mem_cons_of_mem _ hx))
  rw [hrun] at hc ⊢
  refine complete_indexed (uinv_run hst hwm) hc (good_run hst hwm hm hf ?_)
  intro u hu s hs
  have hstep : (World.empty.run pre).step (.start : Ev β) = { World.empty.run pre with upd := some ⟨(World.empty.run pre).now, (World.empty.run pre).ts.map fun t => t - 1 / 1000, (World.empty.run pre).files.keys, [], [], false⟩ } := by
    show (if (World.empty.run pre).upd.isNone then _ else _) = _
    rw [if_pos (by rw [hp]; rfl)]
  rw [hstep] at hu hs
  cases hu
  exact ⟨Dict.mem_keys.2 ⟨s, hs⟩, by intro h; simp at h⟩

/-- **C29 (exactly once).** If every round adds new files, waits for more than a millisecond and runs an undisturbed
update, the index afterwards holds every row of every file exactly once, in the order of addition. -/
theorem C29_exact_partial {β} (rs : List (Round β)) (hn : (rs.flatMap fun r => r.files.map Prod.fst).Nodup)
    (hw : ∀ r ∈ rs, 1 / 1000 < r.wait) :
    (rs.foldl playRound World.empty).index = rs.flatMap fun r => r.files.flatMap fun p => p.2.map fun x => (p.1, x) := by
  have := quiet_rounds rs World.empty [] quiet_empty (by simpa [World.empty, Dict.keys] using hn) hw
  rw [List.nil_append] at this
  exact this

/-- A directory that is written while it is being indexed, after a crash. -/
def exPre : List (Ev ℕ) := [.write "a" [1, 2], .tick 1, .start, .visit "a", .append, .crash, .write "b" [3], .tick 1]

example : (∀ x ∈ exPre ++ .start :: [Ev.visit "b", .write "c" [4], .visit "a", .append], OnlyWrites x) ∧
    (World.empty.run exPre).upd.isNone = true ∧
    Completes (World.empty.run (exPre ++ .start :: [.visit "b", .write "c" [4], .visit "a", .append])) .stamp ∧
    (World.empty.run (exPre ++ .start :: [.visit "b", .write "c" [4], .visit "a", .append] ++ [.stamp])).index =
      [("a", 1), ("a", 2), ("b", 3), ("a", 1), ("a", 2)] := by
  refine ⟨?_, by decide +kernel, ?_, by decide +kernel⟩
  · intro x hx
    simp only [exPre, List.cons_append, List.nil_append, List.mem_cons, List.not_mem_nil, or_false] at hx
    rcases hx with rfl | rfl | rfl | rfl | rfl | rfl | rfl | rfl | rfl | rfl | rfl | rfl | rfl <;> trivial
  · refine ⟨_, rfl, Or.inl ⟨rfl, ?_⟩⟩
    decide +kernel

/-- **C29 violated** (repeated rows): in the history above, the crash after the rows were appended and before the time
stamp was written makes the next update append them again. -/
theorem C29_crash_violated :
    (World.empty.run [Ev.write "a" [1], .tick 1, .start, .visit "a", .append, .crash, .start, .visit "a", .append, .stamp]).index =
      [("a", 1), ("a", 1)] := by decide +kernel

/-- **C29 violated** (repeated rows without a crash): a file written less than a millisecond before an update is indexed
again by the next one. -/
theorem C29_millisecond_violated :
    (World.empty.run [Ev.write "a" [1], .tick (1/2000), .start, .visit "a", .append, .stamp, .tick 5, .start, .visit "a", .append, .stamp]).index =
      [("a", 1), ("a", 1)] := by decide +kernel

/-- **C29 violated** (stale rows): the rows of a file that has been replaced stay. -/
theorem C29_stale_violated :
    (World.empty.run [Ev.write "a" [1], .tick 5, .start, .visit "a", .append, .stamp, .tick 5, .write "a" [2], .tick 5,
      .start, .visit "a", .append, .stamp]).index = [("a", 1), ("a", 2)] := by decide +kernel

/-- **C29 violated** (deleted files): the rows of a file that has been deleted stay. -/
theorem C29_delete_violated :
    (World.empty.run [Ev.write "a" [1], .tick 5, .start, .visit "a", .append, .stamp, .delete "a", .tick 5, .start, .finish]).index =
      [("a", 1)] := by decide +kernel

/-- **C29 violated** (old modification time): a file that is copied into the directory with its modification time kept
is never indexed. -/
theorem C29_old_violated :
    (World.empty.run [Ev.write "a" [1], .tick 5, .start, .visit "a", .append, .stamp, .tick 5, .place "b" 1 [2], .tick 5,
      .start, .visit "a", .visit "b", .finish]).index = [("a", 1)] := by decide +kernel

example : ((World.empty : World ℕ).run []).index = [] ∧
    ([(⟨[("a", [1, 2]), ("b", [])], 1⟩ : Round ℕ), ⟨[("c", [3])], 1 / 2⟩, ⟨[], 7⟩].foldl playRound World.empty).index =
      [("a", 1), ("a", 2), ("c", 3)] := by
  constructor <;> decide +kernel

end Verif
