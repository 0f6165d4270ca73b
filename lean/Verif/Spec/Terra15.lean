import Verif.Spec.Reader
import Verif.Model.Terra15
/-! # How a Terra15 file is written -/
namespace Spec
open Verif

/-- A file with rows recorded at the times `ts` (in seconds), after which some rows may be unfilled. The times advance by a nanosecond
per row at least, on average. -/
structure TerraLayout {α} (f : TerraFile α) (ts : List ℚ) : Prop where
  times : ∃ unfilled : ℕ, f.times = ts ++ List.replicate unfilled 0
  later : ∀ t ∈ ts, 0 < t
  two : 2 ≤ ts.length
  forward : ((ts.length : ℚ) - 1) ≤ (ts.getLastD 0 - ts.headD 0) * 1000000000
  rows : f.data.rows.length = f.times.length
  width : f.data.width = f.nx
  channels : ∀ row ∈ f.data.rows, row.length = f.nx
  some_channels : 1 ≤ f.nx
  apart : 0 < f.dx

/-- The average interval of the times, in nanoseconds. -/
def averageInterval (ts : List ℚ) : ℚ := (ts.getLastD 0 - ts.headD 0) / ((ts.length : ℚ) - 1) * 1000000000

end Spec
