import Verif.Proof.FilterUnits
import Mathlib.Tactic.NormNum
/-!
# C66: units of labels and data
-/
namespace Verif
open Spec

section
variable {K : Type} [Field K] [DecidableEq K]

/-- Converting a number gives the number that is the same amount in the other units, and no other number is. -/
theorem C66_convert (a b : Quant K) (hd : Comparable a b) (hb : Usable b) (x : K) :
    ∃ y, convertUnits x (some b) (some a) = .ok y ∧ amount b y = amount a x ∧ ∀ z, amount b z = amount a x → z = y := by
  refine ⟨_, by simp only [convertUnits, factors_of hd hb.mag, Except.map], use_amount hb x, ?_⟩
  intro z hz
  exact amount_inj hb (hz.trans (use_amount hb x).symm)

/-- Converting there and back gives the number again. -/
theorem C66_round_trip (a b : Quant K) (hd : Comparable a b) (ha : Usable a) (hb : Usable b) (x : K) :
    (convertUnits x (some b) (some a) >>= fun y => convertUnits y (some a) (some b)) = .ok x := by
  obtain ⟨y, h1, h2, _⟩ := C66_convert a b hd hb x
  obtain ⟨z, h3, _, h5⟩ := C66_convert b a (Eq.symm hd) ha y
  rw [h1]
  show convertUnits y (some a) (some b) = _
  rw [h3, h5 x h2.symm]

/-- Converting through other units on the way changes nothing. -/
theorem C66_through (a b c : Quant K) (hab : Comparable a b) (hbc : Comparable b c) (hb : Usable b) (hc : Usable c) (x : K) :
    (convertUnits x (some b) (some a) >>= fun y => convertUnits y (some c) (some b)) = convertUnits x (some c) (some a) := by
  obtain ⟨y, h1, h2, _⟩ := C66_convert a b hab hb x
  obtain ⟨z, h3, h4, _⟩ := C66_convert b c hbc hc y
  obtain ⟨w, h5, _, h7⟩ := C66_convert a c (Eq.trans hab hbc) hc x
  rw [h1, h5]
  show convertUnits y (some c) (some b) = _
  rw [h3, h7 z (h4.trans h2)]

/-- Units of different kinds of quantities are never converted, nor is a number with units made one without. -/
theorem C66_refused (a b : Quant K) (hd : ¬ Comparable a b) (x : K) :
    convertUnits x (some b) (some a) = .error .unitError ∧ convertUnits x none (some a) = .error .unitError := by
  refine ⟨?_, rfl⟩
  simp only [convertUnits, conversionFactors]
  rw [if_neg (show ¬ a.unit.dim = b.unit.dim from hd)]
  rfl

/-- Whatever has been converted before, in whatever order, does not change the outcome: for all units which count from nothing. -/
theorem C66_history_partial (calls : List (Quant K × Quant K)) (hc : ∀ c ∈ calls, FromZero c.1 ∧ FromZero c.2 ∧ c.2.unit.scale ≠ 0)
    (a b : Quant K) (ha : FromZero a) (hb : FromZero b) (hub : Usable b) (x : K) :
    (convertCached (cacheAfter calls) x b a).1 = convertUnits x (some b) (some a) := by
  have hok := cacheAfter_ok hc
  simp only [convertCached, cachedFactors]
  split
  · next e he =>
    have hmem := List.mem_of_find?_eq_some he
    have hkey := List.find?_some he
    rw [Bool.and_eq_true] at hkey
    obtain ⟨h1, h2⟩ := hok e hmem a b ha hb hkey.1 hkey.2
    obtain ⟨y, h3, _, h5⟩ := C66_convert a b h1 hub x
    rw [h3]
    show Except.ok (e.2.use x) = _
    rw [h5 _ (h2 x)]
  · next hn =>
    simp only [convertUnits]
    split
    · next f hf => simp only [hf]
    · next e hf => simp only [hf]

end

/-! Examples of units: metres, kilometres, feet, seconds, kelvin, degrees Celsius and Fahrenheit, nanometres. -/

/-- Lengths. -/
def exLength (name : String) (scale : ℚ) : Quant ℚ := ⟨1, ⟨name, [1, 0, 0, 0, 0, 0, 0], scale, 0⟩⟩
/-- Temperatures. -/
def exTemp (name : String) (scale offset : ℚ) : Quant ℚ := ⟨1, ⟨name, [0, 0, 0, 0, 1, 0, 0], scale, offset⟩⟩
def exMetre : Quant ℚ := exLength "m" 1
def exKm : Quant ℚ := exLength "km" 1000
def exFoot : Quant ℚ := exLength "ft" (3048 / 10000)
def exNm : Quant ℚ := exLength "nm" (1 / 1000000000)
def exKelvin : Quant ℚ := exTemp "K" 1 0
def exCelsius : Quant ℚ := exTemp "degC" 1 (27315 / 100)
def exFahrenheit : Quant ℚ := exTemp "degF" (5 / 9) (45967 / 180)

example : Comparable exCelsius exFahrenheit ∧ Usable exCelsius ∧ Usable exFahrenheit ∧ convertUnits 100 (some exFahrenheit) (some exCelsius) = .ok 212 := by
  refine ⟨rfl, ⟨by decide +kernel, by decide +kernel⟩, ⟨by decide +kernel, by decide +kernel⟩, by decide +kernel⟩

/-- With a factor in the units: ten metres, from feet. -/
example : convertUnits 1000 (some { exMetre with mag := 10 }) (some exFoot) = .ok (762 / 25) := by decide +kernel

example : ¬ Comparable exMetre exKelvin := by unfold Comparable; decide +kernel

example : (∀ c ∈ [(exFoot, exKm), ({ exMetre with mag := 1000 }, exFoot)], FromZero c.1 ∧ FromZero c.2 ∧ c.2.unit.scale ≠ 0) ∧
    FromZero exKm ∧ FromZero exFoot ∧ Usable exFoot ∧
    (convertCached (cacheAfter [(exFoot, exKm), ({ exMetre with mag := 1000 }, exFoot)]) 3 exFoot exKm).1 = .ok (3000 / (3048 / 10000)) := by
  refine ⟨?_, rfl, rfl, ⟨by decide +kernel, by decide +kernel⟩, by decide +kernel⟩
  intro c hc
  simp only [List.mem_cons, List.not_mem_nil, or_false] at hc
  rcases hc with rfl | rfl <;> exact ⟨rfl, rfl, by decide +kernel⟩

/-- With temperatures the outcome depends on what was converted before: the results are cached under the quantities, and 1 °C is
274.15 K. -/
theorem C66_history_violated :
    let q : Quant ℚ := { exKelvin with mag := 27415 / 100 }
    (convertCached (cacheAfter []) 2 exKelvin q).1 = .ok (5483 / 10) ∧
    (convertCached (cacheAfter [(exCelsius, exKelvin)]) 2 exKelvin q).1 = .ok (5503 / 20) ∧
    (convertCached (cacheAfter []) 2 exKelvin exCelsius).1 = .ok (5503 / 20) ∧
    (convertCached (cacheAfter [(q, exKelvin)]) 2 exKelvin exCelsius).1 = .ok (5483 / 10) := by decide +kernel

/-- Whether a quantity is accepted as a unit depends on what was asked before: 1000 m are not, unless 1 km has been. -/
theorem C66_unit_history_violated :
    let q : Quant ℚ := { exMetre with mag := 1000 }
    (getUnitCached [] q).1 = .error .assertionError ∧
    (getUnitCached (getUnitCached [] exKm).2 q).1 = .ok exKm.unit := by decide +kernel

/-! ### Coordinates -/

/-- Converting the units of a coordinate keeps what its labels mean, and evenly sampled coordinates evenly sampled. Missing: labels
that are no longer distinct enough once converted (`C66_labels_violated`), times, and partial coordinates. -/
theorem C66_labels_partial (c : UCoord) (hc : Numeric c) (u a : Quant ℚ) (ha : a = c.units.getD u) (hd : Comparable a u) (hu : Usable u)
    (hau : Usable a) (hs : LabelsFit a u c) : ∃ c', c.convert (some u) = .ok c' ∧ Relabeled a u c c' :=
  convert_spec hc ha hd hu hau hs

/-- Labels are never converted to units of another kind of quantity. -/
theorem C66_labels_refused (c : UCoord) (hc : Numeric c) (u a : Quant ℚ) (ha : c.units = some a) (hd : ¬ Comparable a u) :
    c.convert (some u) = .error .unitError := convert_refused hc ha hd

/-- Setting the units of a coordinate leaves its labels as they are. -/
theorem C66_set_labels (c : UCoord) (hc : Numeric c) (u : Option (Quant ℚ)) : ∃ c', c.setUnits u = .ok c' ∧ c'.coord = c.coord ∧ c'.kind = c.kind ∧ c'.units = u := by
  refine ⟨c.setLabeled u, ?_, rfl, rfl, ?_⟩
  · simp only [UCoord.setUnits]
    split
    · next n h => exact absurd h (hc.whole n)
    · rfl
  · have := hc.number
    simp only [UCoord.setLabeled, checkTimeUnits]
    split <;> simp_all

theorem simplify_spec {c : UCoord} (hc : Numeric c) {a : Quant ℚ} (ha : c.units = some a) (hau : Usable a)
    (hs : ∀ b, IsBase a b → LabelsFit a b c) : ∃ b c', IsBase a b ∧ c.simplify = .ok c' ∧ Relabeled a b c c' := by
  have hb : IsBase a ⟨1, PintUnit.ofDim a.unit.dim⟩ := ⟨rfl, rfl, rfl, rfl⟩
  obtain ⟨c', h1, h2⟩ := convert_spec hc (u := ⟨1, PintUnit.ofDim a.unit.dim⟩) (a := a) (by rw [ha]; rfl) rfl
    ⟨one_ne_zero, by simp [PintUnit.ofDim]⟩ hau (hs _ hb)
  refine ⟨_, c', hb, ?_, h2⟩
  simp only [UCoord.simplify, ha, Option.map_some]
  exact h1

/-- The same holds for the conversion to base units. -/
theorem C66_simplify_labels_partial (c : UCoord) (hc : Numeric c) (a : Quant ℚ) (ha : c.units = some a) (hau : Usable a)
    (hs : ∀ b, IsBase a b → LabelsFit a b c) : ∃ b c', IsBase a b ∧ c.simplify = .ok c' ∧ Relabeled a b c c' := simplify_spec hc ha hau hs

/-- Evenly sampled distances in feet. -/
def exFeet : UCoord := ⟨.float, .range ⟨10, 40, 10, 3⟩, some exFoot⟩

theorem exFeet_numeric : Numeric exFeet := by
  refine ⟨by decide, ?_, ?_⟩
  · intro r hr
    cases hr
    refine ⟨by norm_num, by norm_num, by norm_num⟩
  · intro n h; cases h

example : Numeric exFeet ∧ Usable exFoot ∧ Usable exKm ∧ Comparable exFoot exKm ∧ LabelsFit exFoot exKm exFeet ∧
    exFeet.convert (some exKm) = .ok ⟨.float, .range ⟨381 / 125000, 381 / 31250, 381 / 125000, 3⟩, some exKm⟩ := by
  refine ⟨exFeet_numeric, ⟨by decide +kernel, by decide +kernel⟩, ⟨by decide +kernel, by decide +kernel⟩, rfl, ?_, by decide +kernel⟩
  intro vs h
  rcases h with h | h <;> cases h

/-- Labels which are kept one by one. -/
example : UCoord.convert ⟨.float, .mono [10, 20, 50], some exFoot⟩ (some exMetre) =
    .ok ⟨.float, .mono [381 / 125, 762 / 125, 381 / 25], some exMetre⟩ := by decide +kernel

/-- Labels change their meaning where the new numbers are small: wavelengths of 1550, 1551 and 1553 nm become 1550, 1552 and
1554 nm in metres, evenly spaced. -/
theorem C66_labels_violated :
    (UCoord.convert ⟨.float, .mono [1550, 1551, 1553], some exNm⟩ (some exMetre)).map (fun c => c.coord.labels) =
      .ok [some (1550 / 1000000000), some (1552 / 1000000000), some (1554 / 1000000000)] := by decide +kernel

/-- The units of times are converted to those of a length without an error, and nothing is changed. -/
theorem C66_time_violated (r : RangeCoord) (q : Option (Quant ℚ)) :
    UCoord.convert ⟨.time, .range r, q⟩ (some exMetre) = .ok ⟨.time, .range r, q⟩ ∧
    ∀ vs, UCoord.convert ⟨.time, .mono vs, some secondQ⟩ (some exMetre) = .ok ⟨.time, .mono vs, some secondQ⟩ := ⟨rfl, fun _ => rfl⟩

/-- Times are always in seconds, but not if they are evenly spaced and begin with zero: these can be given in metres. -/
theorem C66_zero_time_violated :
    UCoord.setUnits ⟨.time, .range ⟨1, 5, 1, 4⟩, some secondQ⟩ (some exMetre) = .ok ⟨.time, .range ⟨1, 5, 1, 4⟩, some secondQ⟩ ∧
    UCoord.setUnits ⟨.time, .range ⟨0, 4, 1, 4⟩, some secondQ⟩ (some exMetre) = .ok ⟨.time, .range ⟨0, 4, 1, 4⟩, some exMetre⟩ := by decide +kernel

/-! ### Patches -/

/-- Converting the units of a patch: nothing but what was named changes, and data and labels mean what they meant. Missing: the
coordinates that are missing from `C66_labels_partial`. -/
theorem C66_patch_partial (p q : UPatch) (data : Option (Quant ℚ)) (kw : Dict (Option (Quant ℚ))) (hk : kw.keys.Nodup)
    (hs : ∀ u, data = some u → u.unit.scale ≠ 0) (h : p.convertUnits data kw = .ok q) :
    q.dims = p.dims ∧ q.attrs = p.attrs ∧ OnlyNamed kw.keys p.coords q.coords ∧ q.coords.keys = p.coords.keys ∧
    (data = none → q.data = p.data ∧ q.dataUnits = p.dataUnits) ∧
    (∀ u, data = some u → q.dataUnits = some u ∧ SameAmounts (p.dataUnits.getD u) u p.data q.data ∧ ∀ a, p.dataUnits = some a → Comparable a u) ∧
    ∀ name u, kw.get? name = some (some u) → Usable u → ∃ ds c c', p.coords.get? name = some (ds, c) ∧ q.coords.get? name = some (ds, c') ∧
      ∀ a, a = c.units.getD u → Usable a → Numeric c → LabelsFit a u c → Comparable a u ∧ Relabeled a u c c' := by
  simp only [UPatch.convertUnits] at h
  obtain ⟨p1, h1, h⟩ := bind_split h
  obtain ⟨m, h2, h⟩ := bind_split h
  cases h
  have hp1 : p1.dims = p.dims ∧ p1.attrs = p.attrs ∧ p1.coords = p.coords ∧ (data = none → p1.data = p.data ∧ p1.dataUnits = p.dataUnits) ∧
      (∀ u, data = some u → p1.dataUnits = some u ∧ SameAmounts (p.dataUnits.getD u) u p.data p1.data ∧ ∀ a, p.dataUnits = some a → Comparable a u) := by
    simp only [UPatch.convertData] at h1
    cases data with
    | none => cases h1; exact ⟨rfl, rfl, rfl, fun _ => ⟨rfl, rfl⟩, fun u hu => by cases hu⟩
    | some u =>
      obtain ⟨l, h3, h1⟩ := bind_split h1
      cases h1
      refine ⟨rfl, rfl, rfl, (by intro hh; cases hh), ?_⟩
      intro u' hu'
      cases hu'
      cases hdu : p.dataUnits with
      | none =>
        rw [hdu] at h3
        cases h3
        exact ⟨rfl, sameAmounts_refl _ _, fun a ha => by cases ha⟩
      | some a =>
        rw [hdu] at h3
        obtain ⟨g1, _, g3⟩ := convertArray_spec (hs u rfl) h3
        exact ⟨rfl, g3, fun a' ha' => by cases ha'; exact g1⟩
  obtain ⟨g1, g2, g3, g4, g5⟩ := hp1
  rw [g3] at h2
  obtain ⟨k1, k2, k3⟩ := changeCoords_spec hk h2
  refine ⟨g1, g2, k1, k2, g4, g5, ?_⟩
  intro name u hu huu
  obtain ⟨ds, c, c', e1, e2, e3⟩ := k3 name (some u) hu
  refine ⟨ds, c, c', e1, e2, ?_⟩
  intro a ha hau hc hsf
  have hcmp : Comparable a u := by
    cases hcu : c.units with
    | none => rw [ha, hcu]; rfl
    | some b =>
      have hab : a = b := by rw [ha, hcu]; rfl
      subst hab
      by_contra hn
      rw [convert_refused hc hcu hn] at e3
      cases e3
  obtain ⟨c'', e4, e5⟩ := convert_spec hc ha hcmp huu hau hsf
  rw [e3] at e4
  cases e4
  exact ⟨hcmp, e5⟩

/-- The conversion of a patch succeeds if the data and every named coordinate can be converted. -/
theorem C66_patch_done (p : UPatch) (data : Option (Quant ℚ)) (kw : Dict (Option (Quant ℚ))) (hk : kw.keys.Nodup)
    (hdata : ∀ u a, data = some u → p.dataUnits = some a → Comparable a u ∧ Usable u)
    (hkw : ∀ name u, kw.get? name = some u → ∃ v ds c, u = some v ∧ Usable v ∧ p.coords.get? name = some (ds, c) ∧ Numeric c ∧
      Comparable (c.units.getD v) v ∧ Usable (c.units.getD v) ∧ LabelsFit (c.units.getD v) v c) : ∃ q, p.convertUnits data kw = .ok q := by
  have h1 : ∃ p1, p.convertData data = .ok p1 ∧ p1.coords = p.coords := by
    simp only [UPatch.convertData]
    cases data with
    | none => exact ⟨p, rfl, rfl⟩
    | some u =>
      cases hdu : p.dataUnits with
      | none => exact ⟨_, rfl, rfl⟩
      | some a =>
        obtain ⟨g1, g2⟩ := hdata u a rfl hdu
        simp only [convertArray, factors_of g1 g2.mag, Except.map, bind, Except.bind, pure, Except.pure]
        exact ⟨_, rfl, rfl⟩
  obtain ⟨p1, h1, h2⟩ := h1
  obtain ⟨m, h3⟩ := changeCoords_total (f := UCoord.convert) (m := p.coords) hk fun name u hu => by
    obtain ⟨v, ds, c, rfl, g1, g2, g3, g4, g5, g6⟩ := hkw name u hu
    obtain ⟨c', h4, _⟩ := convert_spec g3 rfl g4 g1 g5 g6
    exact ⟨ds, c, c', g2, h4⟩
  refine ⟨{ p1 with coords := m }, ?_⟩
  simp only [UPatch.convertUnits, h1, h2, h3, bind, Except.bind, pure, Except.pure]

/-- Data are never converted to units of another kind of quantity, and unknown coordinates are refused. -/
theorem C66_patch_refused (p : UPatch) (kw : Dict (Option (Quant ℚ))) :
    (∀ u a, p.dataUnits = some a → ¬ Comparable a u → p.convertUnits (some u) kw = .error .unitError) ∧
    ∀ name u, p.coords.get? name = none → p.convertUnits none [(name, u)] = .error .keyError := by
  refine ⟨?_, ?_⟩
  · intro u a ha hd
    have hf : conversionFactors a u = .error .unitError := by
      simp only [conversionFactors]; rw [if_neg (show ¬ a.unit.dim = u.unit.dim from hd)]
    simp only [UPatch.convertUnits, UPatch.convertData, ha, convertArray, hf, Except.map, bind, Except.bind]
  · intro name u hn
    simp only [UPatch.convertUnits, UPatch.convertData, bind, Except.bind, changeCoords, hn]

/-- Simplifying the units of a patch: everything is in base units, and labels and data mean what they meant. Missing: units of data which
do not count from nothing (`C66_simplify_violated`), and the coordinates that are missing from `C66_labels_partial`. -/
theorem C66_simplify_partial (p q : UPatch) (h : p.simplifyUnits = .ok q) :
    q.dims = p.dims ∧ q.attrs = p.attrs ∧ q.coords.keys = p.coords.keys ∧
    (p.dataUnits = none → q.data = p.data ∧ q.dataUnits = none) ∧
    (∀ a, p.dataUnits = some a → FromZero a → ∃ b, IsBase a b ∧ q.dataUnits = some b ∧ SameAmounts a b p.data q.data) ∧
    ∀ name ds c, p.coords.get? name = some (ds, c) → ∃ c', q.coords.get? name = some (ds, c') ∧
      ∀ a, c.units = some a → Usable a → Numeric c → (∀ b, IsBase a b → LabelsFit a b c) → ∃ b, IsBase a b ∧ Relabeled a b c c' := by
  simp only [UPatch.simplifyUnits] at h
  obtain ⟨m, h1, h⟩ := bind_split h
  cases h
  obtain ⟨k1, k2⟩ := simplifyCoords_spec h1
  refine ⟨rfl, rfl, k1, ?_, ?_, ?_⟩
  · intro hn
    simp only [hn, UPatch.baseFactor, if_true, and_self]
  · intro a ha h0
    have h0' : a.unit.offset = 0 := h0
    refine ⟨⟨1, PintUnit.ofDim a.unit.dim⟩, ⟨rfl, rfl, rfl, rfl⟩, by simp only [ha, UPatch.baseFactor], ?_⟩
    simp only [ha, UPatch.baseFactor]
    split
    · next h1 =>
      have : SameAmounts a ⟨1, PintUnit.ofDim a.unit.dim⟩ p.data (p.data.map id) := sameAmounts_map (fun x => ?_) _
      · simpa using this
      · simp only [Quant.base, h0', add_zero] at h1
        simp only [amount, PintUnit.ofDim, id, mul_one, h0', add_zero, mul_assoc, h1]
    · refine sameAmounts_map (fun x => ?_) _
      simp only [amount, PintUnit.ofDim, Quant.base, h0', add_zero, mul_one, mul_assoc]
  · intro name ds c hc
    obtain ⟨c', g1, g2⟩ := k2 name ds c hc
    refine ⟨c', g1, ?_⟩
    intro a ha hau hnum hs
    obtain ⟨b, c'', h3, h4, h5⟩ := simplify_spec hnum ha hau hs
    rw [g2] at h4
    cases h4
    exact ⟨b, h3, h5⟩

/-- A patch with distances in feet and data in kilometres per step. -/
def exUPatch : UPatch := ⟨["distance"], [("distance", ["distance"], exFeet)], [1, 2, 5], some exKm, [("tag", "x")]⟩

/-- The coordinates of a patch, without the patch. -/
example : (exUPatch.convertUnits (some exMetre) [("distance", some exMetre)]).map (fun q => (q.data, q.dataUnits, q.coords.get? "distance")) =
    .ok ([1000, 2000, 5000], some exMetre, some (["distance"], ⟨.float, .range ⟨381 / 125, 1524 / 125, 381 / 125, 3⟩, some exMetre⟩)) := by
  decide +kernel

example : ∃ q, exUPatch.convertUnits (some exMetre) [("distance", some exMetre)] = .ok q := by
  refine C66_patch_done _ _ _ (by decide) ?_ ?_
  · intro u a hu ha
    cases hu; cases ha
    exact ⟨rfl, by decide +kernel, by decide +kernel⟩
  · intro name u hu
    rw [Dict.get?_cons, Dict.get?_nil] at hu
    split at hu
    · next e =>
      cases hu
      simp only at e
      subst e
      refine ⟨exMetre, ["distance"], exFeet, rfl, ⟨by decide +kernel, by decide +kernel⟩, rfl, exFeet_numeric, rfl, ⟨by decide +kernel, by decide +kernel⟩, ?_⟩
      intro vs h
      rcases h with h | h <;> cases h
    · cases hu

example : (exUPatch.simplifyUnits).map (fun q => (q.data, q.dataUnits.map fun u => (u.mag, u.unit.scale))) = .ok ([1000, 2000, 5000], some (1, 1)) := by
  decide +kernel

/-- Simplifying the units of temperatures multiplies them: 20 °C become 5483 K (not 293.15 K). -/
theorem C66_simplify_violated :
    ((⟨[], [], [20], some exCelsius, []⟩ : UPatch).simplifyUnits).map (fun q => (q.data, q.dataUnits.map fun u => (u.mag, u.unit.scale, u.unit.offset))) =
      .ok ([5483], some (1, 1, 0)) ∧
    ((⟨[], [], [20], some exCelsius, []⟩ : UPatch).convertUnits (some exKelvin) []).map (fun q => (q.data, q.dataUnits)) =
      .ok ([5863 / 20], some exKelvin) := by decide +kernel

/-- Setting the units of a coordinate removes the units of the data. -/
theorem C66_set_violated :
    exUPatch.dataUnits = some exKm ∧
    (exUPatch.setUnits none [("distance", some exMetre)]).map (fun q => q.dataUnits) = .ok none := by decide +kernel

/-- The units of a patch with a dimension that has lost its labels (after averaging over it, say) cannot be simplified, and that dimension
cannot be given units. -/
theorem C66_reduced_violated (p : UPatch) (name : String) (ds : List String) (k : Kind) (n : ℕ) (q u : Option (Quant ℚ))
    (hp : p.coords = [(name, ds, ⟨k, .part n, q⟩)]) :
    p.simplifyUnits = .error .typeError ∧ p.setUnits u [(name, u)] = .error .typeError := by
  refine ⟨?_, ?_⟩
  · simp only [UPatch.simplifyUnits, hp, simplifyCoords, UCoord.simplify, UCoord.convert, bind, Except.bind]
  · simp only [UPatch.setUnits, hp, changeCoords, Dict.get?_cons, if_true, UCoord.setUnits, bind, Except.bind]

example : (⟨["distance"], [("distance", ["distance"], ⟨.float, .part 1, none⟩)], [3], none, []⟩ : UPatch).simplifyUnits.map (fun q => q.data) = .error .typeError := by
  decide +kernel

end Verif
