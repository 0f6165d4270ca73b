import Verif.Model.Namespace
/-! # C111: which classes there are for a name -/
namespace Spec
open Verif

/-- The classes defined under a name, in order, in a history of events: those registered, and that of the entry point when the name is first asked for
(`asked` says that it was before). -/
def offered (plugins : String → Option String) (name : String) : Bool → List NsEvent → List String
  | _, [] => []
  | asked, .register m c :: h => (if m = name then [c] else []) ++ offered plugins name asked h
  | asked, .access _ m :: h => (if m = name ∧ asked = false then (plugins name).toList else []) ++ offered plugins name (asked || decide (m = name)) h

end Spec
