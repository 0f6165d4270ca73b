import Verif.Proof.PatchAttrsOne
/-!
# C85: attributes and coordinates tell the same
-/
namespace Verif
open Spec

variable {ν α : Type}

/-! ### Examples -/

instance (d key : String) : Decidable (LooksLike d key) :=
  decidable_of_iff (isCoordStr d key = true ∨ key = "d_" ++ d) (by unfold LooksLike; rw [isCoordStr_iff])

/-- Two dimensions and a coordinate along one of them. -/
def exLabels : CM :=
  ⟨["time", "distance"], [("time", ["time"], .one .int (.range ⟨0, 4, 1, 4⟩)), ("distance", ["distance"], .one .int (.mono [0, 2, 5])),
    ("quality", ["time"], .one .int (.arr [7, 3, 7, 1]))]⟩

/-- A patch with these coordinates. -/
def exLabelled (plain : Dict (AttrVal String)) : LPatch ℕ String := ⟨exLabels, ⟨[4, 3], fun _ => 0⟩, ⟨plain, exLabels.dims, exLabels.summaries []⟩, []⟩

theorem exLabels_from : CoordsFrom ["time", "distance"] exLabels := by
  refine ⟨CM.mk?_wf (if_pos (by decide +kernel)) (by decide +kernel), by decide, by decide, ?_⟩
  unfold NamesDiffer
  decide +kernel

theorem exLabelled_history : ClearHistory ["time", "distance"] (exLabelled [("tag", .val "north")]) := by
  refine .made (data := ⟨[4, 3], fun _ => 0⟩) (cm := exLabels) (a := ⟨[("tag", .val "north")], [], []⟩) (units := []) exLabels_from ?_ ?_
  · unfold SilentOn
    decide +kernel
  · have h := build_exact (pl := [("tag", AttrVal.val "north")]) (units := ([] : Dict String)) (m := exLabels) (by decide) ⟨"time", by decide, by decide⟩
      (fun d hd => silent_top (all := ["time", "distance"]) (by unfold SilentOn; decide +kernel) hd)
    unfold LPatch.make Attrs.withCoords
    rw [h]
    rfl

/-! ### Agreement -/

/-- **C85** However a patch is made and changed, its attributes tell its dimensions and describe its coordinates, if names of dimensions have no underscore and attributes which seem
to say something about a dimension have the name of one of its fields. -/
theorem C85_agree_partial [DecidableEq ν] (all : List String) (hall : ∀ d ∈ all, '_' ∉ d.toList) (p : LPatch α ν) (h : ClearHistory all p) : TellsCoords p := by
  have hp := history_told hall h
  refine ⟨hp.dims, ?_, ?_⟩
  · intro name
    rw [hp.coords, keys_summaries]
  · intro name ds c info hc hi
    rw [hp.coords, get?_summaries, hc] at hi
    simp only [Option.map_some, Option.some.injEq] at hi
    rw [← hi]
    exact describes_summary _ _ _
example : ClearHistory ["time", "distance"] (exLabelled [("tag", .val "north")]) ∧ ∀ d ∈ ["time", "distance"], '_' ∉ d.toList := ⟨exLabelled_history, by decide⟩

/-- **C85** Setting an ordinary attribute sets this attribute, and changes nothing else. -/
theorem C85_attr_partial [DecidableEq ν] (all : List String) (hall : ∀ d ∈ all, '_' ∉ d.toList) (p : LPatch α ν) (h : ClearHistory all p) (key : String) (v : AttrVal ν)
    (hk : SilentOn all key) (hf : NoField p.cm key) (hplain : ∀ k ∈ p.attrs.plain.keys, NoField p.cm k) (hfree : ∃ d ∈ p.cm.dims, d ∉ p.attrs.plain.keys ∧ d ≠ key) :
    ∃ q, p.updateAttrs [(key, v)] = .ok q ∧ q.cm = p.cm ∧ q.data = p.data ∧ q.attrs.coords = p.attrs.coords ∧ q.attrs.dims = p.attrs.dims ∧
      ∀ k, q.attrs.plain.get? k = if k = key then some v else p.attrs.plain.get? k :=
  ⟨_, update_plain hall (history_told hall h) v ⟨hk, hf⟩ hplain hfree, rfl, rfl, rfl, rfl, fun _ => Dict.get?_set _ _ _ _⟩
example : SilentOn ["time", "distance"] "gauge_length" ∧ (∃ d ∈ (exLabelled [("tag", .val "north")]).cm.dims, d ∉ (exLabelled [("tag", .val "north")]).attrs.plain.keys ∧ d ≠ "gauge_length") := by
  constructor
  · unfold SilentOn; decide +kernel
  · exact ⟨"time", by decide, by decide, by decide⟩

theorem noField_dec {m : CM} {key : String} (h : (m.ents.keys.all fun n => decide (key ∉ coordFields.map fun f => n ++ "_" ++ f) && decide (key ≠ "d_" ++ n)) = true) : NoField m key := by
  rw [List.all_eq_true] at h
  intro n hn hf
  have := h n hn
  simp only [Bool.and_eq_true, decide_eq_true_eq] at this
  rcases hf with ⟨f, h1, h2⟩ | h1
  · exact this.1 (List.mem_map.2 ⟨f, h1, h2.symm⟩)
  · exact this.2 h1
example : NoField exLabels "gauge_length" ∧ NoField exLabels "tag" := ⟨noField_dec (by decide +kernel), noField_dec (by decide +kernel)⟩

theorem field_clear {all : List String} {m : CM} (hm : CoordsFrom all m) {d f : String} (hd : d ∈ m.dims) (hf : f ∈ coordFields) :
    SaysClearly all m.dims (d ++ "_" ++ f) := by
  intro n hn hl
  obtain ⟨c, _, hg, _⟩ := CM.WellFormed.get_dim hm.wf hd
  have := hm.names d (Dict.mem_keys.2 ⟨_, hg⟩) f hf n hn hl
  rw [← this]
  exact ⟨hd, Or.inl ⟨f, hf, rfl⟩⟩

theorem update_range [DecidableEq ν] {all : List String} (hall : ∀ d ∈ all, '_' ∉ d.toList) {p : LPatch α ν} (h : ClearHistory all p)
    (hplain : ∀ k ∈ p.attrs.plain.keys, NoField p.cm k) (hfree : ∃ d ∈ p.cm.dims, d ∉ p.attrs.plain.keys) {d f : String} (hd : d ∈ p.cm.dims) (hf : f ∈ coordFields)
    {k : Kind} {r r' : RangeCoord} (hg : p.cm.ents.get? d = some ([d], .one k (.range r))) (hl : r'.len = r.len) {v : AttrVal ν}
    (hc : if (summaryOf p.units d (.one k (.range r))).get? f = some v then r' = r else (MCoord.one k (.range r)).updateInfo [(f, v)] = .ok (.one k (.range r'))) :
    ∃ q, p.updateAttrs [(d ++ "_" ++ f, v)] = .ok q ∧ q.cm.ents.get? d = some ([d], .one k (.range r')) ∧ OnlyLabelsOf d p q ∧ TellsCoords q := by
  have hp := history_told hall h
  have hsh : (MCoord.one k (.range r')).shape = (MCoord.one k (.range r)).shape := by
    rw [one_shape, one_shape]
    exact congrArg (fun n : ℕ => [n]) hl
  have := update_field hall hp v hd hf hplain hfree (c' := .one k (.range r')) hg hsh (by unfold MCoord.len; rw [hsh]) (by
    split_ifs at hc ⊢ with h1
    · rw [hc]
    · exact hc)
  refine ⟨_, this, ?_, ⟨rfl, rfl, rfl, ?_⟩, C85_agree_partial all hall _ (.attrs h ?_ this)⟩
  · simp only [get?_withCoord, hg, Option.map_some, if_true]
  · intro name hn
    simp only [get?_withCoord, if_neg hn]
    cases p.cm.ents.get? name <;> rfl
  · intro key hkey
    have : key = d ++ "_" ++ f := by simpa [Dict.keys] using hkey
    rw [this]
    exact field_clear hp.cm hd hf

/-- **C85** Giving `<dimension>_min`, `_max` or `_step` of an evenly sampled, ascending dimension moves or stretches the labels of this dimension so that they begin there, end there,
or are that far apart, and changes nothing else. -/
theorem C85_limit_partial [DecidableEq ν] (all : List String) (hall : ∀ d ∈ all, '_' ∉ d.toList) (p : LPatch α ν) (h : ClearHistory all p)
    (hplain : ∀ k ∈ p.attrs.plain.keys, NoField p.cm k) (hfree : ∃ d ∈ p.cm.dims, d ∉ p.attrs.plain.keys) (d : String) (hd : d ∈ p.cm.dims) (k : Kind) (r : RangeCoord)
    (hg : p.cm.ents.get? d = some ([d], .one k (.range r))) (hr : BuiltRange r) (hs : 0 < r.step) (v : ℚ) :
    (∃ q r', p.updateAttrs [(d ++ "_min", .num v)] = .ok q ∧ q.cm.ents.get? d = some ([d], .one k (.range r')) ∧ r'.values = progression v r.step r.len ∧
      OnlyLabelsOf d p q ∧ TellsCoords q) ∧
    (∃ q r', p.updateAttrs [(d ++ "_max", .num v)] = .ok q ∧ q.cm.ents.get? d = some ([d], .one k (.range r')) ∧ r'.values = progression (v - (r.len - 1) * r.step) r.step r.len ∧
      OnlyLabelsOf d p q ∧ TellsCoords q) ∧
    (v ≠ 0 → (k ≠ .time → isClose v r.step = false) → ∃ q r', p.updateAttrs [(d ++ "_step", .num v)] = .ok q ∧ q.cm.ents.get? d = some ([d], .one k (.range r')) ∧
      r'.values = progression r.start v r.len ∧ OnlyLabelsOf d p q ∧ TellsCoords q) := by
  have hv := hr.valid
  have hlim := limits_up hv hs
  obtain ⟨⟨r1, h1, l1, _, _, v1⟩, ⟨r2, h2, l2, _, _, v2⟩, h3⟩ := C12_update_limits_ascending r hr hs v
  have assoc : ∀ f : String, d ++ ("_" ++ f) = d ++ "_" ++ f := fun f => String.append_assoc.symm
  refine ⟨?_, ?_, ?_⟩
  · rw [show d ++ "_min" = d ++ "_" ++ "min" from assoc "min"]
    by_cases hm : r.cmin = v
    · obtain ⟨q, hq, ha, hb, hc⟩ := update_range hall h hplain hfree hd (f := "min") (by decide) hg (r' := r) (v := .num v) rfl (by
        rw [if_pos]
        change some (AttrVal.num r.cmin) = _
        rw [hm])
      refine ⟨q, r, hq, ha, ?_, hb, hc⟩
      rw [hv.values_eq, ← hm, hlim.1]
    · obtain ⟨q, hq, ha, hb, hc⟩ := update_range hall h hplain hfree hd (f := "min") (by decide) hg (r' := r1) (v := .num v) l1 (by
        rw [if_neg]
        · change (r.updateLimits (some v) none none).map (MCoord.one k) = _
          rw [h1]; rfl
        · change ¬ some (AttrVal.num r.cmin) = _
          intro h; cases h; exact hm rfl)
      exact ⟨q, r1, hq, ha, v1, hb, hc⟩
  · rw [show d ++ "_max" = d ++ "_" ++ "max" from assoc "max"]
    by_cases hm : r.cmax = v
    · obtain ⟨q, hq, ha, hb, hc⟩ := update_range hall h hplain hfree hd (f := "max") (by decide) hg (r' := r) (v := .num v) rfl (by
        rw [if_pos]
        change some (AttrVal.num r.cmax) = _
        rw [hm])
      refine ⟨q, r, hq, ha, ?_, hb, hc⟩
      rw [hv.values_eq, ← hm, hlim.2]
      congr 1
      ring
    · obtain ⟨q, hq, ha, hb, hc⟩ := update_range hall h hplain hfree hd (f := "max") (by decide) hg (r' := r2) (v := .num v) l2 (by
        rw [if_neg]
        · change (r.updateLimits none (some v) none).map (MCoord.one k) = _
          rw [h2]; rfl
        · change ¬ some (AttrVal.num r.cmax) = _
          intro h; cases h; exact hm rfl)
      exact ⟨q, r2, hq, ha, v2, hb, hc⟩
  · intro hne hclose
    rw [show d ++ "_step" = d ++ "_" ++ "step" from assoc "step"]
    obtain ⟨r3, h3, l3, _, v3⟩ := h3 hne
    by_cases hm : r.step = v
    · obtain ⟨q, hq, ha, hb, hc⟩ := update_range hall h hplain hfree hd (f := "step") (by decide) hg (r' := r) (v := .num v) rfl (by
        rw [if_pos]
        change some (AttrVal.num r.step) = _
        rw [hm])
      exact ⟨q, r, hq, ha, by rw [hv.values_eq, hm], hb, hc⟩
    · obtain ⟨q, hq, ha, hb, hc⟩ := update_range hall h hplain hfree hd (f := "step") (by decide) hg (r' := r3) (v := .num v) l3 (by
        rw [if_neg]
        · change (r.updateLimits none none ((some v).filter fun s => !(if k = .time then decide (s = r.step) else isClose s r.step))).map (MCoord.one k) = _
          have : ((some v).filter fun s => !(if k = .time then decide (s = r.step) else isClose s r.step)) = some v := by
            simp only [Option.filter_some]
            rw [if_pos]
            split_ifs with hk
            · simpa using fun h : v = r.step => hm h.symm
            · rw [hclose hk]; rfl
          rw [this, h3]; rfl
        · change ¬ some (AttrVal.num r.step) = _
          intro h; cases h; exact hm rfl)
      exact ⟨q, r3, hq, ha, v3, hb, hc⟩
example : (exLabelled []).cm.ents.get? "time" = some (["time"], .one .int (.range ⟨0, 4, 1, 4⟩)) ∧ BuiltRange ⟨0, 4, 1, 4⟩ ∧ isClose 2 1 = false :=
  ⟨rfl, ⟨0, 4, 1, by decide +kernel⟩, by decide +kernel⟩

/-- **C85** `patch.attrs.d_time`, as the step was called once, is `patch.attrs.time_step`: both are what the attributes say of the step of this coordinate. -/
theorem C85_old_name (a : Attrs ν) (name : String) (h : '_' ∉ name.toList) :
    a.getDynamic ("d_" ++ name) = a.getDynamic (name ++ "_step") ∨ name = "d" := by
  by_cases hn : name = "d"
  · exact .inr hn
  · left
    have h1 : ("d_" ++ name).toList.splitOn '_' = ["d".toList, name.toList] := by
      rw [show ("d_" ++ name).toList = "d".toList ++ '_' :: name.toList by simp]
      exact splitOn_word (by decide) h
    have h2 : (name ++ "_step").toList.splitOn '_' = [name.toList, "step".toList] := by
      rw [show (name ++ "_step").toList = name.toList ++ '_' :: "step".toList by simp]
      exact splitOn_word h (by decide)
    unfold Attrs.getDynamic
    rw [h1, h2]
    simp [hn]
example : (exLabelled []).attrs.getDynamic "d_time" = some (.num 1) := by decide +kernel

/-! ### Violations -/

/-- What can be seen of a patch. -/
def LPatch.seen (p : LPatch ℕ String) (name : String) : List (Option (AttrVal String)) :=
  [p.attrs.getDynamic (name ++ "_min"), p.attrs.getDynamic (name ++ "_max"), (p.cm.ents.get? name).map fun c => .ofOption c.2.lowest, (p.cm.ents.get? name).map fun c => .ofOption c.2.highest]

/-- **C85 violated** An attribute moves a dimension whose name it begins with: `update_attrs(timezone_min=3)` shifts the time. -/
theorem C85_prefix_violated : ((exLabelled []).updateAttrs [("timezone_min", .num 3)]).map (fun q => (q.attrs.plain.get? "timezone_min", q.seen "time")) =
    .ok (some (.num 3), [some (.num 3), some (.num 6), some (.num 3), some (.num 6)]) := by
  decide +kernel

/-- **C85 violated** and `update_attrs(time_minutes=3)`, which is meant as an attribute, raises. -/
theorem C85_minutes_violated : ((exLabelled []).updateAttrs [("time_minutes", .num 3)]).map (fun q => q.seen "time") = .error .typeError := by
  decide +kernel

/-- **C85 violated** The limits of coordinates that are not dimensions are ignored, in silence. -/
theorem C85_ignored_violated : ((exLabelled []).updateAttrs [("quality_min", .num 5)]).map (fun q => (q.attrs.plain.get? "quality_min", q.seen "quality")) =
    .ok (none, [some (.num 1), some (.num 7), some (.num 1), some (.num 7)]) := by
  decide +kernel

/-- **C85 violated** Dimensions with an underscore cannot be moved: for patches from `correlate`, `update_attrs(lag_time_min=3)` raises. -/
theorem C85_underscore_violated :
    ((⟨⟨["lag_time"], [("lag_time", ["lag_time"], .one .int (.range ⟨0, 4, 1, 4⟩))]⟩, ⟨[4], fun _ => 0⟩, ⟨[], ["lag_time"],
      (⟨["lag_time"], [("lag_time", ["lag_time"], .one .int (.range ⟨0, 4, 1, 4⟩))]⟩ : CM).summaries []⟩, []⟩ : LPatch ℕ String).updateAttrs [("lag_time_min", .num 3)]).map
      (fun q => q.seen "time") = .error .typeError := by
  decide +kernel

/-- A dimension and a coordinate whose name begins with that of the dimension. -/
def exStamps : CM := ⟨["time"], [("time", ["time"], .one .int (.range ⟨0, 4, 1, 4⟩)), ("timestamp", ["time"], .one .int (.range ⟨100, 104, 1, 4⟩))]⟩

/-- A patch with these coordinates. -/
def exStamped : LPatch ℕ String := ⟨exStamps, ⟨[4], fun _ => 0⟩, ⟨[], exStamps.dims, exStamps.summaries []⟩, []⟩

/-- **C85 violated** After `patch.update(attrs=patch.attrs)` the attributes describe the wrong coordinate, if another begins with the name of the dimension: `time_min` is that of
`timestamp`; and `update_attrs(timestamp_min=3)` moves the time and leaves `timestamp`. -/
theorem C85_describes_violated : (exStamped.updateWith exStamped.attrs).map (fun q => q.seen "time") = .ok [some (.num 100), some (.num 103), some (.num 0), some (.num 3)] ∧
    (exStamped.updateAttrs [("timestamp_min", .num 3)]).map (fun q => (q.seen "time", q.seen "timestamp")) =
      .ok ([some (.num 3), some (.num 6), some (.num 3), some (.num 6)], [some (.num 100), some (.num 103), some (.num 100), some (.num 103)]) := by
  constructor <;> decide +kernel

/-- **C85 violated** `Patch(data, coords, dims, attrs={"gauge_length": 10, "gauge_length_units": "m"})` has the gauge length "m". -/
theorem C85_overwrite_violated : (LPatch.makeFrom (⟨[4, 3], fun _ => 0⟩ : Nd ℕ) exLabels ⟨[("gauge_length", .num 10), ("gauge_length_units", .val "m")], [], []⟩ []).map
    (fun q => (q.attrs.plain.get? "gauge_length", q.attrs.plain.get? "gauge_length_units")) = .ok (some (.val "m"), some (.val "m")) := by
  decide +kernel

/-- **C85 violated** `Patch(data, coords, dims, attrs={"time_min": 10, "distance_units": "m"})` moves the time, but loses the units. -/
theorem C85_units_violated : (LPatch.makeFrom (⟨[4, 3], fun _ => 0⟩ : Nd ℕ) exLabels ⟨[("time_min", .num 10), ("distance_units", .val "m")], [], []⟩ []).map
    (fun q => (q.seen "time", q.attrs.plain.get? "distance_units", q.attrs.getDynamic "distance_units")) =
    .ok ([some (.num 10), some (.num 13), some (.num 10), some (.num 13)], none, some .null) := by
  decide +kernel

/-- **C85 violated** A patch with one dimension cannot have an attribute of this name: `update_attrs(time=...)` raises. -/
theorem C85_dimension_violated : (exStamped.updateAttrs [("time", .num 3)]).map (fun q => q.seen "time") = .error .attributeError := by
  decide +kernel

end Verif
