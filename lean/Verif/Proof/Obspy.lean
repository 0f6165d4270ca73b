import Verif.Proof.Export
import Verif.Proof.Convert
import Verif.Spec.Obspy
import Mathlib.Data.List.Dedup
/-! # Lemmas: ObsPy streams -/
namespace Verif
open Spec
variable {α : Type}

theorem lookups {γ : Type} (l : List γ) : ((List.range l.length).map fun j => l[j]?) = l.map some := by
  refine List.ext_getElem? fun j => ?_
  rw [List.getElem?_map, List.getElem?_map]
  by_cases h : j < l.length
  · rw [List.getElem?_range h, List.getElem?_eq_getElem h]
    simp [h]
  · rw [List.getElem?_eq_none (by simpa using h), List.getElem?_eq_none (by simpa using h)]
    rfl

/-- The traces of a patch. -/
def streamOf (p : PatchM α) (o : String) (k : Kind) (l : List ℚ) (first rate : ℚ) : List (ObsTrace α) :=
  (List.range l.length).map fun j => ⟨traceAt p j, first, rate, [(o, k, l[j]?)]⟩

theorem toObspy_eq {p : PatchM α} {o : String} (hsh : p.cm.shape = p.data.shape) (ho : p.cm.dims = [o, "time"] ∨ p.cm.dims = ["time", o]) (hne : o ≠ "time")
    {r : RangeCoord} (ht : p.cm.ents.get? "time" = some (["time"], .one .time (.range r))) {k : Kind} {c : Coord} (hc : p.cm.ents.get? o = some ([o], .one k c)) {l : List ℚ}
    (hl : c.labels = l.map some) (hlen : l.length = lenDim p.cm o) : p.toObspy = .ok (streamOf p o k l (min r.start (r.stop - r.step)) (1000000000 / r.step)) := by
  have h2 : p.cm.dims.length = 2 := by rcases ho with h | h <;> rw [h] <;> rfl
  have hmem : "time" ∈ p.cm.dims := by rcases ho with h | h <;> rw [h] <;> simp
  unfold PatchM.toObspy
  rw [if_neg (by simpa using hmem), if_neg (by omega), if_neg (by omega)]
  simp only [bind, Except.bind, traces_two hsh ho hne, ownCoord_ok hc, ownCoord_ok ht, timeStats]
  unfold streamOf
  rw [show oneLabels (.one k c) = c.labels from rfl]
  congr 1
  refine List.ext_getElem? fun j => ?_
  rw [List.getElem?_map, List.getElem?_map, hl]
  by_cases h : j < l.length
  · have h3 : (((List.range (lenDim p.cm o)).map (traceAt p)).zip (l.map some))[j]? = some (traceAt p j, l[j]?) := by
      rw [List.getElem?_zip_eq_some, List.getElem?_map, List.getElem?_map, List.getElem?_range (by rw [← hlen]; exact h), List.getElem?_eq_getElem h]
      exact ⟨rfl, rfl⟩
    rw [h3, List.getElem?_range h]
    rfl
  · rw [List.getElem?_eq_none (by simpa using Or.inr (not_lt.1 h)), List.getElem?_eq_none (by simpa using h)]
    rfl

theorem headerCoord_eq {k : Kind} {l : List ℚ} (h : l ≠ []) : headerCoord (l.map fun x => (k, some x)) = .one k (.arr l) := by
  unfold headerCoord
  rw [if_pos (by simp)]
  congr 2
  · cases l with
    | nil => exact absurd rfl h
    | cons a l => rfl
  · rw [List.filterMap_map]
    show l.filterMap (fun x => some x) = l
    simp

end Verif
