import Verif.Proof.Merge
import Verif.Props.PatchShape
import Verif.Props.Attrs
/-!
# Merging patches (C37)

`Spec.Merged` says where the samples of the patches are found in the merged patch and which coordinates not attached to the merged dimension it has;
`Spec.OwnLabels` that every sample keeps its label along the merged dimension; `Spec.EvenFrom` what the labels are when they were snapped.
-/
namespace Verif
open Spec
variable {α : Type}

theorem hasExpectedStep_ok {dim : String} {ms : List CM} {e : Bool} (h : hasExpectedStep dim ms = .ok e) :
    ∃ cs, (ms.mapM fun m => coordOf m dim) = .ok cs ∧ e = (decide ((cs.filterMap MCoord.stepOf).length = cs.length) && allDiffsClose (cs.filterMap MCoord.stepOf)) := by
  simp only [hasExpectedStep, bind, Except.bind] at h
  split at h
  · cases h
  rename_i cs hcs
  split at h
  · cases h
  cases h
  exact ⟨cs, hcs, rfl⟩

theorem allDiffsClose_const {l : List ℚ} {s : ℚ} (hne : l ≠ []) (h : ∀ x ∈ l, x = s) : allDiffsClose l = true := by
  unfold allDiffsClose
  rw [if_neg hne]
  simp only
  rw [medianQ_const hne h, List.all_eq_true]
  intro d hd
  rw [h d hd, isClose_iff]
  simp
  positivity

/-- What is known about the result whenever data and coordinates were merged. -/
theorem merge_result {argsort : List ℚ → List ℕ} {dropConf snap : Bool} {dim : String} {p0 : PatchM α} {l : List (PatchM α)}
    (hs : ∀ p ∈ p0 :: l, SoundM p) (hdim : dim ∈ p0.cm.dims) (ho : InMinOrder dim (p0 :: l))
    (hasc : snap = true → (joinedLabels dim (p0 :: l)).Pairwise (· < ·) ∧ 2 ≤ (joinedLabels dim (p0 :: l)).length)
    {data : Nd α} {cm : CM} (hL : (∀ d ∈ p0.cm.dims, d ≠ dim → ∀ p ∈ p0 :: l, lenDim p.cm d = lenDim p0.cm d) → (∀ p ∈ p0 :: l, p.cm.dims = p0.cm.dims) →
      Laid (p0.cm.dims.idxOf dim) ((p0 :: l).map PatchM.data) data)
    (hmc : mergedCoord argsort dropConf snap dim ((p0 :: l).map PatchM.cm) = .ok cm) (hsh : cm.shape = data.shape) :
    (Merged dim (p0 :: l) ⟨cm, data⟩ ∧ (dropConf = false → NoConflicts dim (p0 :: l))) ∧
    ((snap = false ∨ ∃ p ∈ p0 :: l, ∀ s, ¬ StepIs dim s p) → Storable (joinedLabels dim (p0 :: l)) → OwnLabels dim (p0 :: l) ⟨cm, data⟩) ∧
    (snap = true → ∀ s, (∀ p ∈ p0 :: l, StepIs dim s p) → EvenFrom dim ((joinedLabels dim (p0 :: l)).getD 0 0) ⟨cm, data⟩) ∧
    (∀ a s n, 0 < s → 2 ≤ n → joinedLabels dim (p0 :: l) = progression a s n → OwnLabels dim (p0 :: l) ⟨cm, data⟩) := by
  simp only [mergedCoord, bind, Except.bind] at hmc
  split at hmc
  · cases hmc
  rename_i cm0 hcm0
  split at hmc
  · cases hmc
  rename_i e he
  set ps := p0 :: l with hps
  have hp0 : ps[0]? = some p0 := by rw [hps]; rfl
  obtain ⟨hM, hdims⟩ := mergeManagers_spec (m0 := p0.cm) (l := l.map PatchM.cm) (dim := dim)
    (by intro m hm; rw [← List.map_cons, List.mem_map] at hm; obtain ⟨p, hp, rfl⟩ := hm; exact (hs p hp).reg) hdim
    (by rw [← List.map_cons]; exact ordered_of hs ho) hcm0
  rw [← List.map_cons] at hM hdims
  replace hM : MCM dropConf dim (ps.map PatchM.cm) p0.cm cm0 := hM
  have hdims' : ∀ p ∈ ps, p.cm.dims = p0.cm.dims := fun p hp => hdims p.cm (List.mem_map_of_mem hp)
  have hR := hM.rest
  have hlens : ∀ d ∈ p0.cm.dims, d ≠ dim → ∀ p ∈ ps, lenDim p.cm d = lenDim p0.cm d := by
    intro d hd hne p hp
    obtain ⟨x, n, hx, _⟩ := CM.WellFormed.get_dim hM.wf (d := d) (by rw [hM.dims]; exact hd)
    obtain ⟨c, h1, h2⟩ := hR.only d [d] x hx (by simpa using fun h => hne h.symm)
    obtain ⟨c', h3, h4⟩ := h2 p hp
    have := sameCoord_shape h4
    unfold lenDim Ents.lenOf
    rw [h3, h1]
    simp only [MCoord.len, this]
  replace hL := hL hlens hdims'
  obtain ⟨cs, c, x, hcs, hjoin, hcanon, hown⟩ := hM.own
  obtain ⟨hone, k, d, rfl, hnr, hlab, hval⟩ := joinCoords_spec hjoin
  have hjv : d.vals = joinedLabels dim ps := by rw [hval]; exact joined_vals hs hdims' hdim hcs hone
  obtain ⟨y, rfl, hy, _⟩ := canon_one hcanon
  have hstrict : dropConf = false → NoConflicts dim ps := by
    intro hd p hp name ds c hg hnd hsh'
    rw [hp0] at hp; cases hp
    intro r hr
    exact hM.strict hd name ds c hg hnd (by intro m hm; obtain ⟨p, hp, rfl⟩ := List.mem_map.1 hm; exact hsh' p hp) r.cm (List.mem_map_of_mem hr)
  -- the expected step
  obtain ⟨cs', hcs', hestep⟩ := hasExpectedStep_ok he
  rw [hcs] at hcs'; cases hcs'
  obtain ⟨hcl, hmem⟩ := own_members hs hdims' hdim hcs hone
  have hnostep : (∃ p ∈ ps, ∀ s, ¬ StepIs dim s p) → e = false := by
    rintro ⟨p, hp, hns⟩
    rw [hestep]
    obtain ⟨j, hj⟩ := List.mem_iff_getElem?.1 hp
    obtain ⟨kr, cr, h1, h2, _⟩ := hmem j p hj
    have hno : MCoord.stepOf (.one kr cr) = none := by
      cases cr with
      | range r => exact absurd ⟨_, _, _, h2, rfl⟩ (hns r.step)
      | _ => rfl
    have hlt : (cs.filterMap MCoord.stepOf).length < cs.length := by
      have := List.length_filterMap_le MCoord.stepOf cs
      refine lt_of_le_of_ne this fun hc => ?_
      rw [List.filterMap_length_eq_length] at hc
      have := hc _ (List.mem_of_getElem? h1)
      rw [hno] at this; cases this
    rw [Bool.and_eq_false_iff]
    left
    rw [decide_eq_false_iff_not]; omega
  have hallsteps : ∀ s, (∀ p ∈ ps, StepIs dim s p) → e = true := by
    intro s hst
    have hsteps : ∀ c ∈ cs, MCoord.stepOf c = some s := by
      intro c hc
      obtain ⟨j, hj⟩ := List.mem_iff_getElem?.1 hc
      have hjl := (List.getElem?_eq_some_iff.1 hj).1
      obtain ⟨kr, cr, h1, h2, _⟩ := hmem j _ (List.getElem?_eq_getElem (by omega))
      rw [hj] at h1; cases h1
      obtain ⟨ds, k', r, h3, h4⟩ := hst _ (List.getElem_mem (show j < ps.length by omega))
      rw [h2] at h3
      cases h3
      simp [MCoord.stepOf, h4]
    have hlen : (cs.filterMap MCoord.stepOf).length = cs.length := by
      rw [List.filterMap_length_eq_length]
      intro c hc; rw [hsteps c hc]; rfl
    rw [hestep, hlen]
    simp only [decide_true, Bool.true_and]
    refine allDiffsClose_const (s := s) ?_ ?_
    · intro hc
      rw [hc] at hlen
      have : 0 < ps.length := by rw [hps]; simp
      simp at hlen; omega
    · intro z hz
      rw [List.mem_filterMap] at hz
      obtain ⟨c, hc, hz⟩ := hz
      rw [hsteps c hc] at hz; exact (Option.some.inj hz).symm
  by_cases hse : (snap && e) = true
  · rw [if_pos hse] at hmc
    rw [Bool.and_eq_true] at hse
    obtain ⟨ha, h2⟩ := hasc hse.1
    rw [← hjv] at ha h2
    have hx := ascending_canon hnr ha h2 hcanon
    have hx' : cm0.ents.get? dim = some ([dim], .one k (.mono d.vals)) ∨
        ∃ s, 0 < s ∧ cm0.ents.get? dim = some ([dim], .one k (.range ⟨d.vals.getD 0 0, d.vals.getD 0 0 + s * d.vals.length, s, d.vals.length⟩)) := by
      rcases hx with hx | ⟨s, hs', hx⟩
      · rw [hx] at hown; exact Or.inl hown
      · rw [hx] at hown; exact Or.inr ⟨s, hs', hown⟩
    obtain ⟨g1, g2, g3, ⟨s, hspos, g4⟩, g5⟩ := snapCM_ascending hM.wf h2 ha hx' hmc
    have hR' : RestCM dim ps p0 cm := by
      have hne : ∀ name ds x, cm.ents.get? name = some (ds, x) → dim ∉ ds → name ≠ dim := by
        rintro name ds x h1 h3 rfl
        rw [g4] at h1; cases h1; exact h3 (by simp)
      refine ⟨g1, by rw [g2]; exact hR.dims, ?_, ?_, ?_⟩
      · intro name ds c h1 h3 h4
        obtain ⟨x, h5, h6⟩ := hR.kept name ds c h1 h3 h4
        refine ⟨x, h5, ?_⟩
        rw [g3 name, h6]
        rintro rfl
        rw [hown] at h6; cases h6; exact h3 (by simp)
      · intro name ds x h1 h3
        have := hne name ds x h1 h3
        rw [g3 name this] at h1
        exact hR.only name ds x h1 h3
      · intro name ds x h1 h3
        by_cases hn : name = dim
        · subst hn
          intro p hp
          obtain ⟨c, _, h5, _⟩ := CM.WellFormed.get_dim (hs p hp).reg.wf (d := name) (by rw [hdims' p hp]; exact hdim)
          exact ⟨_, c, h5, by simp⟩
        · rw [g3 name hn] at h1
          exact hR.attached name ds x h1 h3
    have hMer := merged_of hp0 hs hdims' hdim hL hR' hsh
    refine ⟨⟨hMer, hstrict⟩, ?_, ?_, ?_⟩
    · intro hc
      rcases hc with hc | hc
      · rw [hc] at hse; cases hse.1
      · rw [hnostep hc] at hse; cases hse.2
    · intro _ s' _
      refine ⟨s, hspos, fun i hi => ?_⟩
      rw [← hjv]
      unfold label
      simp only [g4]
      congr 1
      unfold labelAt
      simp only [MCoord.arr, List.map_cons, List.map_nil, List.getD_cons_zero]
      have hn : 1 ≤ d.vals.length := by omega
      have hv : (⟨d.vals.getD 0 0, d.vals.getD 0 0 + s * d.vals.length, s, d.vals.length⟩ : RangeCoord).Valid := ⟨hspos.ne', hn, rfl⟩
      show (List.map some (RangeCoord.values _)).getD _ _ = _
      rw [hv.values_eq]
      have hlt : i.getD (cm.dims.idxOf dim) 0 < d.vals.length := by
        have hcd : dim ∈ cm.dims := by rw [g2, hM.dims]; exact hdim
        have h5 := (inRange_iff.1 hi).2 (cm.dims.idxOf dim) (by rw [hMer.shape]; simpa using List.idxOf_lt_length_of_mem hcd)
        have h6 := hMer.shape
        simp only at h5 h6
        rw [h6, getD_map_len hcd] at h5
        have h7 : lenDim cm dim = d.vals.length := by
          unfold lenDim Ents.lenOf; rw [g4]; rfl
        rwa [h7] at h5
      unfold progression
      rw [List.getD_eq_getElem?_getD, List.getElem?_map, List.getElem?_map, List.getElem?_range hlt]
      simp [mul_comm]
    · intro a s' n hs' hn hprog
      have hpr : Storable d.vals := by rw [hjv, hprog]; exact Or.inr (Or.inl ⟨a, s', n, hs'.ne', rfl⟩)
      have hyr : ∃ r, y = .range r := by
        have hd2 : ∀ vs : List ℚ, vs = progression a s' n → (getCoordData k vs).map (MCoord.one k) = .ok (.one k y) → ∃ r, y = .range r := by
          rintro vs rfl hg
          rw [getCoordData_progression k a s' n hs'.ne' hn] at hg
          simp only [Except.map, Except.ok.injEq, MCoord.one.injEq] at hg
          exact ⟨_, hg.2.symm⟩
        cases d with
        | range r => exact absurd rfl (hnr r)
        | part m => simp [Coord.vals] at h2
        | mono vs => exact hd2 vs (hjv.trans hprog) hcanon
        | arr vs => exact hd2 vs (hjv.trans hprog) hcanon
      obtain ⟨r, rfl⟩ := hyr
      refine ownLabels_of hs hdims' hdim hcs hone (hR'.dims) (by rw [g5 r hown]; exact hown) ?_
      rw [hy hpr]; exact hlab
  · rw [if_neg hse] at hmc
    cases hmc
    have hMer := merged_of hp0 hs hdims' hdim hL hR hsh
    have hOwn : Storable (joinedLabels dim ps) → OwnLabels dim ps ⟨cm, data⟩ := fun hst =>
      ownLabels_of hs hdims' hdim hcs hone hR.dims hown (by rw [hy (by rw [hjv]; exact hst)]; exact hlab)
    refine ⟨⟨hMer, hstrict⟩, fun _ => hOwn, ?_, ?_⟩
    · intro hsn s hst
      rw [hsn, hallsteps s hst] at hse
      exact absurd rfl hse
    · intro a s n hs' _ hprog
      exact hOwn (by rw [hprog]; exact Or.inr (Or.inl ⟨a, s, n, hs'.ne', rfl⟩))

theorem lowest_of_isMin {dim : String} {p : PatchM α} (hp : SoundM p) {a : ℚ} (h : IsMin (labelsAlong dim p) a) :
    ∃ ds c, p.cm.ents.get? dim = some (ds, c) ∧ c.lowest = some a := by
  unfold labelsAlong at h
  cases hg : p.cm.ents.get? dim with
  | none => rw [hg] at h; exact absurd h.1 (by simp)
  | some v =>
    obtain ⟨ds, c⟩ := v
    rw [hg] at h
    cases c with
    | nd _ => exact absurd h.1 (by simp)
    | one k c =>
      have hw := hp.reg.classes _ _ _ _ (Dict.mem_of_get? hg)
      have hex : ∃ b, (MCoord.one k c).lowest = some b := by
        cases c with
        | range r => exact ⟨_, rfl⟩
        | part n => exact absurd h.1 (by simp [Coord.vals])
        | mono vs => cases vs with
          | nil => exact absurd h.1 (by simp [Coord.vals])
          | cons x l => exact ⟨_, rfl⟩
        | arr vs => cases vs with
          | nil => exact absurd h.1 (by simp [Coord.vals])
          | cons x l => exact ⟨_, rfl⟩
      obtain ⟨b, hb⟩ := hex
      exact ⟨ds, _, rfl, by rw [hb, isMin_unique (lowest_isMin hw hb) h]⟩

theorem varies_of {dim : String} {ps : List (PatchM α)} (hs : ∀ p ∈ ps, SoundM p) (h : StartsDiffer dim ps) : varies (ps.map PatchM.cm) dim = true := by
  obtain ⟨p, hp, r, hr, a, b, ha, hb, hne⟩ := h
  obtain ⟨ds, c, h1, h2⟩ := lowest_of_isMin (hs p hp) ha
  obtain ⟨ds', c', h3, h4⟩ := lowest_of_isMin (hs r hr) hb
  unfold varies
  simp only [Bool.not_eq_true', Bool.and_eq_false_iff]
  left; left
  rw [← Bool.not_eq_true]
  intro hc
  set cs := (ps.map PatchM.cm).filterMap fun m => (m.ents.get? dim).map Prod.snd with hcs
  have m1 : c ∈ cs := by
    rw [hcs, List.mem_filterMap]; exact ⟨p.cm, List.mem_map_of_mem hp, by rw [h1]; rfl⟩
  have m2 : c' ∈ cs := by
    rw [hcs, List.mem_filterMap]; exact ⟨r.cm, List.mem_map_of_mem hr, by rw [h3]; rfl⟩
  unfold columnEqual at hc
  split at hc
  · rename_i he
    rw [List.map_eq_nil_iff] at he
    rw [he] at m1; cases m1
  · rename_i x l he
    rw [List.all_eq_true] at hc
    have g1 := hc _ (List.mem_map_of_mem (f := MCoord.lowest) m1)
    have g2 := hc _ (List.mem_map_of_mem (f := MCoord.lowest) m2)
    rw [h2] at g1; rw [h4] at g2
    simp at g1 g2
    exact hne (by simpa using g1.trans g2.symm)

theorem mergeDim_of {dim : String} {p0 : PatchM α} {l : List (PatchM α)} (hs : ∀ p ∈ p0 :: l, SoundM p) (hdim : dim ∈ p0.cm.dims) (h : StartsDiffer dim (p0 :: l))
    {o : Option String} (hm : mergeDim ((p0 :: l).map PatchM.cm) = .ok o) : o = some dim := by
  have hv := varies_of hs h
  simp only [List.map_cons, mergeDim] at hm
  split at hm
  · cases hm
  have hmem : dim ∈ p0.cm.dims.filter (varies (p0.cm :: l.map PatchM.cm)) := List.mem_filter.2 ⟨hdim, hv⟩
  split at hm
  · rename_i he; rw [he] at hmem; cases hmem
  · rename_i d he
    rw [he] at hmem
    cases hm
    rw [List.mem_singleton.1 hmem]
  · cases hm

/-! ## Merging -/

/-- **C37 (partial).** What merging evenly or unevenly sampled patches gives, without snapping: every sample of every patch is found in the merged patch, moved by the samples of the
patches before it, with the label it had along the merged dimension; coordinates not attached to the dimension are those the patches agree on, with their labels.
The patches come in the order of their first labels, as `chunk` gives them, and their joined labels are such as a coordinate can hold unchanged.
Missing: other coordinates attached to the merged dimension (`C37_attached_violated`), labels that are almost even (`C14`). -/
theorem C37_merge_partial (argsort : List ℚ → List ℕ) (dropConf : Bool) (ps : List (PatchM α)) (q : PatchM α) (dim : String)
    (hs : ∀ p ∈ ps, SoundM p) (hdim : ∀ p ∈ ps, dim ∈ p.cm.dims) (ho : InMinOrder dim ps) (hv : StartsDiffer dim ps)
    (h : mergePatches argsort dropConf false ps = .ok q) :
    Merged dim ps q ∧ (dropConf = false → NoConflicts dim ps) ∧ (Storable (joinedLabels dim ps) → OwnLabels dim ps q) := by
  cases ps with
  | nil => cases h
  | cons p0 l =>
    simp only [mergePatches, bind, Except.bind] at h
    split at h
    · cases h
    rename_i o ho'
    cases mergeDim_of hs (hdim p0 (by simp)) hv ho'
    simp only at h
    split at h
    · cases h
    rename_i data hdata
    split at h
    · cases h
    rename_i cm hcm
    obtain ⟨rfl, hsh⟩ := new_ok h
    obtain ⟨⟨h1, h2⟩, h3, _⟩ := merge_result hs (hdim p0 (by simp)) ho (by simp) (fun _ _ => concat_laid hdata) hcm hsh
    exact ⟨h1, h2, h3 (Or.inl rfl)⟩

/-- **C37 (partial).** With snapping (the default), for patches whose labels follow one another: every sample is found as before. If all labels together
are evenly spaced they are kept; if a patch is not evenly sampled they are kept too. Patches evenly sampled with the same step get
evenly spaced labels from the first one on.
Missing: labels across gaps smaller than the tolerance of `chunk` are moved (`C37_snap_violated`). -/
theorem C37_snap_partial (argsort : List ℚ → List ℕ) (dropConf : Bool) (ps : List (PatchM α)) (q : PatchM α) (dim : String)
    (hs : ∀ p ∈ ps, SoundM p) (hdim : ∀ p ∈ ps, dim ∈ p.cm.dims) (ho : InMinOrder dim ps) (hv : StartsDiffer dim ps)
    (hasc : (joinedLabels dim ps).Pairwise (· < ·)) (h2 : 2 ≤ (joinedLabels dim ps).length)
    (h : mergePatches argsort dropConf true ps = .ok q) :
    Merged dim ps q ∧ (dropConf = false → NoConflicts dim ps) ∧
    (∀ a s n, 0 < s → joinedLabels dim ps = progression a s n → OwnLabels dim ps q) ∧
    ((∃ p ∈ ps, ∀ s, ¬ StepIs dim s p) → Storable (joinedLabels dim ps) → OwnLabels dim ps q) ∧
    (∀ s, (∀ p ∈ ps, StepIs dim s p) → EvenFrom dim ((joinedLabels dim ps).getD 0 0) q) := by
  cases ps with
  | nil => cases h
  | cons p0 l =>
    simp only [mergePatches, bind, Except.bind] at h
    split at h
    · cases h
    rename_i o ho'
    cases mergeDim_of hs (hdim p0 (by simp)) hv ho'
    simp only at h
    split at h
    · cases h
    rename_i data hdata
    split at h
    · cases h
    rename_i cm hcm
    obtain ⟨rfl, hsh⟩ := new_ok h
    obtain ⟨⟨h1, h2'⟩, h3, h4, h5⟩ := merge_result hs (hdim p0 (by simp)) ho (fun _ => ⟨hasc, h2⟩) (fun _ _ => concat_laid hdata) hcm hsh
    refine ⟨h1, h2', fun a s n hs' hp => h5 a s n hs' ?_ hp, fun hc => h3 (Or.inr hc), h4 rfl⟩
    rw [hp] at h2
    simpa [progression] using h2

theorem orient_spec {dims : List String} (hdn : dims ≠ []) {p r : PatchM α} (hp : SoundM p) (h : p.orient dims = .ok r) : Oriented dims p r ∧ SoundM r := by
  unfold PatchM.orient at h
  split at h
  · rename_i hd
    cases h
    refine ⟨⟨hd, List.Perm.refl _, rfl, by rw [← hd]; exact hp.shape_eq, fun i hi => ?_⟩, hp⟩
    congr 1
    rw [← hd]
    have hil : i.length = p.cm.dims.length := by
      have := inRange_length hi; rw [hp.shape_eq] at this; simpa using this
    apply List.ext_getElem (by simp [hil])
    intro k hk1 hk2
    rw [List.getElem_map, hp.reg.distinct.idxOf_getElem k (by simpa using hk2), List.getD_eq_getElem?_getD, List.getElem?_eq_getElem hk1]
    rfl
  · obtain ⟨h1, h2, h3, h4, h5, h6⟩ := transpose_data hp.reg.wf hp.reg.distinct hp.dims hp.shape h
    have hwf : WellFormed r.cm := by
      unfold PatchM.transpose at h
      simp only [bind, Except.bind] at h
      split at h
      · cases h
      · rename_i m' hm'
        obtain ⟨rfl, _⟩ := new_ok h
        exact (CM.transpose_wf hm' hp.reg.wf).1
    have hents : r.cm.ents = p.cm.ents := by rw [h2]
    have hdims : r.cm.dims = dims := by
      unfold PatchM.transpose at h
      simp only [bind, Except.bind] at h
      split at h
      · cases h
      · rename_i m' hm'
        obtain ⟨rfl, _⟩ := new_ok h
        have hR := ((CM.transpose_spec hp.reg.wf hp.reg.distinct _ m'.dims).1 ⟨m', hm', rfl⟩).1
        rcases hR with ⟨hR, _⟩ | ⟨_, hR⟩ | ⟨a, b, hR, _⟩
        · exact absurd (List.map_eq_nil_iff.1 hR) hdn
        · exact ((List.map_injective_iff.2 fun x y hxy => by injection hxy) hR).symm
        · have : CM.TDim.dots ∈ dims.map CM.TDim.dim := by rw [hR]; simp
          simp at this
    have hne : r.cm.dims ≠ [] := by
      intro hc; rw [hc] at h1; exact hp.dims (List.nil_perm.1 h1)
    refine ⟨⟨hdims, h1, hents, by rw [h3, hdims]; rfl, fun i hi => by rw [h6 i, hdims]; rfl⟩, ⟨⟨hwf, h1.nodup_iff.2 hp.reg.distinct, ?_, ?_, ?_⟩, hne, h4⟩⟩
    · rw [hents]; exact hp.reg.coordDims
    · rw [hents]; exact hp.reg.classes
    · rw [hents]
      intro name hn
      have := hp.reg.plain name hn
      unfold matchesPrefixSuffix at this ⊢
      have e1 : p.cm.dims.isEmpty = false := by simpa using hp.dims
      have e2 : r.cm.dims.isEmpty = false := by simpa using hne
      simp only [e1, e2, Bool.false_eq_true, if_false] at this ⊢
      rw [← Bool.not_eq_true, List.any_eq_true] at this ⊢
      rintro ⟨d, hd, hx⟩
      exact this ⟨d, h1.mem_iff.1 hd, hx⟩

theorem forall₂_mem_left {γ δ : Type} {R : γ → δ → Prop} {l : List γ} {m : List δ} (h : List.Forall₂ R l m) {a : γ} (ha : a ∈ l) : ∃ b ∈ m, R a b := by
  obtain ⟨b, hb, hr⟩ := forall₂_mem_right h.flip ha
  exact ⟨b, hb, hr⟩

theorem labelsAlong_oriented {dims : List String} {p r : PatchM α} (h : Oriented dims p r) (dim : String) : labelsAlong dim r = labelsAlong dim p := by
  unfold labelsAlong; rw [h.ents]

theorem joinedLabels_oriented {dims : List String} {dim : String} : ∀ {ps qs : List (PatchM α)}, List.Forall₂ (Oriented dims) ps qs → joinedLabels dim qs = joinedLabels dim ps := by
  intro ps qs h
  induction h with
  | nil => rfl
  | cons h _ ih =>
    unfold joinedLabels at ih ⊢
    rw [List.flatMap_cons, List.flatMap_cons, ih, labelsAlong_oriented h]

theorem inMinOrder_oriented {dims : List String} {dim : String} {ps qs : List (PatchM α)} (h : List.Forall₂ (Oriented dims) ps qs) (ho : InMinOrder dim ps) : InMinOrder dim qs := by
  unfold InMinOrder at *
  induction h with
  | nil => exact List.Pairwise.nil
  | @cons p q l m h hl ih =>
    rw [List.pairwise_cons] at ho ⊢
    refine ⟨fun r hr => ?_, ih ho.2⟩
    obtain ⟨p', hp', hpr⟩ := forall₂_mem_right hl hr
    obtain ⟨a, b, ha, hb, hab⟩ := ho.1 p' hp'
    exact ⟨a, b, by rw [labelsAlong_oriented h]; exact ha, by rw [labelsAlong_oriented hpr]; exact hb, hab⟩

theorem stepIs_oriented {dims : List String} {p r : PatchM α} (h : Oriented dims p r) (dim : String) (s : ℚ) : StepIs dim s r ↔ StepIs dim s p := by
  unfold StepIs; rw [h.ents]

/-- **C37 (partial).** Merging patches one at a time into a buffer (the default of a spool that reads from disk): whatever the buffer holds at first and however large it is taken to be,
the patches, turned to have the dimensions in the order of the first, are laid one after the other as by `C37_merge_partial` and `C37_snap_partial`. -/
theorem C37_stream_partial (argsort : List ℚ → List ℕ) (junk : α) (dropConf snap : Bool) (samples : ℕ) (p0 : PatchM α) (l : List (PatchM α)) (q : PatchM α) (dim : String)
    (hs : ∀ p ∈ p0 :: l, SoundM p) (ho : InMinOrder dim (p0 :: l))
    (hasc : snap = true → (joinedLabels dim (p0 :: l)).Pairwise (· < ·) ∧ 2 ≤ (joinedLabels dim (p0 :: l)).length)
    (h : streamPatches argsort junk dropConf snap dim samples (p0 :: l) = .ok q) :
    ∃ qs, List.Forall₂ (Oriented p0.cm.dims) (p0 :: l) qs ∧ ((∀ p ∈ l, p.cm.dims = p0.cm.dims) → qs = p0 :: l) ∧ Merged dim qs q ∧ (dropConf = false → NoConflicts dim qs) ∧
    (∀ a s n, 0 < s → 2 ≤ n → joinedLabels dim (p0 :: l) = progression a s n → OwnLabels dim qs q) ∧
    ((snap = false ∨ ∃ p ∈ p0 :: l, ∀ s, ¬ StepIs dim s p) → Storable (joinedLabels dim (p0 :: l)) → OwnLabels dim qs q) ∧
    (snap = true → ∀ s, (∀ p ∈ p0 :: l, StepIs dim s p) → EvenFrom dim ((joinedLabels dim (p0 :: l)).getD 0 0) q) := by
  unfold streamPatches at h
  simp only at h
  split at h
  · cases h
  rename_i hdim
  have hdim : dim ∈ p0.cm.dims := by simpa using hdim
  simp only [bind, Except.bind] at h
  split at h
  · cases h
  rename_i qs hqs
  split at h
  · cases h
  rename_i data hdata
  split at h
  · cases h
  rename_i found hfound
  split at h
  · cases h
  split at h
  · cases h
  rename_i cm hcm
  obtain ⟨rfl, hsh⟩ := new_ok h
  have hdn : p0.cm.dims ≠ [] := (hs p0 (by simp)).dims
  have hF0 := mapM_forall₂ hqs
  have hF : List.Forall₂ (fun p r => Oriented p0.cm.dims p r ∧ SoundM r) (p0 :: l) qs :=
    forall₂_mono_mem hF0 fun p hp r hr => orient_spec hdn (hs p hp) hr
  have hO : List.Forall₂ (Oriented p0.cm.dims) (p0 :: l) qs := hF.imp fun _ _ h => h.1
  have hS : ∀ r ∈ qs, SoundM r := fun r hr => by obtain ⟨p, _, h⟩ := forall₂_mem_right hF hr; exact h.2
  have hD : ∀ r ∈ qs, r.cm.dims = p0.cm.dims := fun r hr => by obtain ⟨p, _, h⟩ := forall₂_mem_right hF hr; exact h.1.order
  rw [← joinedLabels_oriented hO] at hasc ⊢
  have hstep : ∀ s, (∀ r ∈ qs, StepIs dim s r) ↔ ∀ p ∈ p0 :: l, StepIs dim s p := by
    intro s
    constructor
    · intro H p hp
      obtain ⟨r, hr, hpr⟩ := forall₂_mem_left hO hp
      exact (stepIs_oriented hpr dim s).1 (H r hr)
    · intro H r hr
      obtain ⟨p, hp, hpr⟩ := forall₂_mem_right hO hr
      exact (stepIs_oriented hpr dim s).2 (H p hp)
  refine ⟨qs, hO, fun hsame => ?_, ?_⟩
  · rw [mapM_ok' _ id _ (fun p hp => by
      have : p.cm.dims = p0.cm.dims := by
        rcases List.mem_cons.1 hp with rfl | hp
        · rfl
        · exact hsame p hp
      unfold PatchM.orient; rw [if_pos this]; rfl)] at hqs
    cases hqs
    simp
  have hom := inMinOrder_oriented hO ho
  cases hq : qs with
  | nil => rw [hq] at hO; cases hO
  | cons q0 m =>
    subst hq
    have hd0 : q0.cm.dims = p0.cm.dims := hD q0 (by simp)
    rw [← hd0] at hdata hdim
    obtain ⟨⟨h1, h2⟩, h3, h4, h5⟩ := merge_result hS hdim hom hasc (data := data) (fun hlen hdm => by
      refine stream_laid ?_ ?_ hdata
      · rw [(hS q0 (by simp)).shape_eq, List.length_map]; exact List.idxOf_lt_length_of_mem hdim
      · intro b hb
        rw [← List.map_cons, List.mem_map] at hb
        obtain ⟨r, hr, rfl⟩ := hb
        have e1 := (hS q0 (by simp)).shape_eq
        have e2 := (hS r hr).shape_eq
        rw [hdm r hr] at e2
        refine ⟨by rw [e1, e2]; simp, fun k hk => ?_⟩
        rw [e1, e2, List.getD_eq_getElem?_getD, List.getD_eq_getElem?_getD, List.getElem?_map, List.getElem?_map]
        cases hg : q0.cm.dims[k]? with
        | none => rfl
        | some d =>
          have hdd : d ≠ dim := by
            rintro rfl
            obtain ⟨hlt, rfl⟩ := List.getElem?_eq_some_iff.1 hg
            exact hk ((hS q0 (by simp)).reg.distinct.idxOf_getElem k hlt).symm
          simp [hlen d (List.mem_of_getElem? hg) hdd r hr]) hcm hsh
    refine ⟨h1, h2, h5, fun hc => h3 (hc.imp id ?_), fun hsn s hst => h4 hsn s ((hstep s).2 hst)⟩
    rintro ⟨p, hp, hps⟩
    obtain ⟨r, hr, hpr⟩ := forall₂_mem_left hO hp
    exact ⟨r, hr, fun s hrs => hps s ((stepIs_oriented hpr dim s).1 hrs)⟩

/-! ## Examples -/

/-- An argsort that is right for what is in order already. -/
def exInOrder (vs : List ℚ) : List ℕ := List.range vs.length

/-- A patch with two samples along `distance`, starting at `s`, one of which another coordinate marks. -/
def exMarked (s : ℚ) : PatchM ℕ :=
  { cm := ⟨["distance"], [("distance", ["distance"], .one .int (.range ⟨s, s + 2, 1, 2⟩)), ("mark", ["distance"], .one .int (.mono [5, 7]))]⟩,
    data := ⟨[2], fun i => i.getD 0 0⟩ }

/-- A patch with unevenly spaced labels. -/
def exRagged (k : Kind) (vs : List ℚ) : PatchM ℕ :=
  { cm := ⟨["distance"], [("distance", ["distance"], .one k (.mono vs))]⟩, data := ⟨[vs.length], fun i => i.getD 0 0⟩ }

/-- The two pieces are merged, whether all at once or one at a time into a buffer that is too small, with a transposed piece or not. -/
example : (mergePatches exInOrder false true [(exPiece 0 4 0).toPatchM, (exPiece 0 4 2).toPatchM]).map (fun q =>
      (q.data.shape, q.data.get [1, 3], label q "distance" [1, 3])) = .ok ([2, 4], 11, some (some 3)) ∧
    (streamPatches exInOrder 99 false true "distance" 1 [(exPiece 0 4 0).toPatchM, (exPiece 0 4 2).toPatchM]).map (fun q =>
      (q.data.shape, q.data.get [1, 3], label q "distance" [1, 3])) = .ok ([2, 4], 11, some (some 3)) ∧
    (((exPiece 0 4 2).toPatchM.transpose []).bind fun r => streamPatches exInOrder 99 false true "distance" 9 [(exPiece 0 4 0).toPatchM, r]).map (fun q =>
      (q.data.shape, q.data.get [1, 3], label q "distance" [1, 3])) = .ok ([2, 4], 11, some (some 3)) ∧
    (mergePatches exInOrder false true [exRagged .time [0, 2, 3], exRagged .time [5, 9]]).map (fun q => (q.data.shape, label q "distance" [4])) = .ok ([5], some (some 9)) := by
  refine ⟨?_, ?_, ?_, ?_⟩ <;> decide +kernel

theorem exPieces_soundM : ∀ p ∈ [(exPiece 0 4 0).toPatchM, (exPiece 0 4 2).toPatchM], SoundM p := by
  intro p hp
  simp only [List.mem_cons, List.not_mem_nil, or_false] at hp
  rcases hp with rfl | rfl
  · exact ⟨(exPiece_sound (Or.inl rfl)).reg, (exPiece_sound (Or.inl rfl)).dims, (exPiece_sound (Or.inl rfl)).shape⟩
  · exact ⟨(exPiece_sound (Or.inr rfl)).reg, (exPiece_sound (Or.inr rfl)).dims, (exPiece_sound (Or.inr rfl)).shape⟩

theorem exPieces_labels : labelsAlong "distance" (exPiece 0 4 0).toPatchM = [0, 1] ∧ labelsAlong "distance" (exPiece 0 4 2).toPatchM = [2, 3] := by
  constructor <;> decide +kernel

theorem exPieces_order : InMinOrder "distance" [(exPiece 0 4 0).toPatchM, (exPiece 0 4 2).toPatchM] := by
  unfold InMinOrder
  rw [List.pairwise_cons]
  refine ⟨fun p hp => ?_, List.pairwise_singleton _ _⟩
  rw [List.mem_singleton] at hp
  subst hp
  rw [exPieces_labels.1, exPieces_labels.2]
  exact ⟨0, 2, ⟨by simp, by simp⟩, ⟨by simp, by simp; norm_num⟩, by norm_num⟩

/-- The hypotheses of the theorems are met. -/
example : ∃ q, mergePatches exInOrder false true [(exPiece 0 4 0).toPatchM, (exPiece 0 4 2).toPatchM] = .ok q ∧
    Merged "distance" [(exPiece 0 4 0).toPatchM, (exPiece 0 4 2).toPatchM] q ∧ OwnLabels "distance" [(exPiece 0 4 0).toPatchM, (exPiece 0 4 2).toPatchM] q := by
  cases h : mergePatches exInOrder false true [(exPiece 0 4 0).toPatchM, (exPiece 0 4 2).toPatchM] with
  | error e =>
    have : (mergePatches exInOrder false true [(exPiece 0 4 0).toPatchM, (exPiece 0 4 2).toPatchM]).map (fun q => q.data.shape) = .ok [2, 4] := by decide +kernel
    rw [h] at this; cases this
  | ok q =>
    have hj : joinedLabels "distance" [(exPiece 0 4 0).toPatchM, (exPiece 0 4 2).toPatchM] = [0, 1, 2, 3] := by decide +kernel
    have hr := C37_snap_partial exInOrder false _ q "distance" exPieces_soundM (by intro p hp; simp only [List.mem_cons, List.not_mem_nil, or_false] at hp; rcases hp with rfl | rfl <;> decide)
      exPieces_order ⟨(exPiece 0 4 0).toPatchM, by simp, (exPiece 0 4 2).toPatchM, by simp, 0, 2, by rw [exPieces_labels.1]; exact ⟨by simp, by simp⟩, by rw [exPieces_labels.2]; exact ⟨by simp, by simp; norm_num⟩, by norm_num⟩
      (by rw [hj]; decide +kernel) (by rw [hj]; simp) h
    exact ⟨q, rfl, hr.1, hr.2.2.1 0 1 4 (by norm_num) (by rw [hj]; decide +kernel)⟩

/-- **C37 violated** (other coordinates of the dimension): the marks `[5, 7]` and `[5, 7]` of the samples become the distances `[0, 1, 2, 3]`. -/
theorem C37_attached_violated : (mergePatches exInOrder false false [exMarked 0, exMarked 2]).map (fun q => [0, 1, 2, 3].map fun i => label q "mark" [i]) =
      .ok [some (some 0), some (some 1), some (some 2), some (some 3)] ∧
    label (exMarked 0) "mark" [0] = some (some 5) := by
  constructor <;> decide +kernel

/-- **C37 violated** (snapping): of two patches a little apart, as the tolerance of `chunk` allows, the labels of the second are moved. Without snapping they are kept. -/
theorem C37_snap_violated : (mergePatches exInOrder false true [(exPiece 0 4 0).toPatchM, (exPiece 0 4 (5 / 2)).toPatchM]).map (fun q => label q "distance" [0, 2]) =
      .ok (some (some (7 / 3))) ∧
    (mergePatches exInOrder false false [(exPiece 0 4 0).toPatchM, (exPiece 0 4 (5 / 2)).toPatchM]).map (fun q => label q "distance" [0, 2]) = .ok (some (some (5 / 2))) := by
  constructor <;> decide +kernel

/-- **C37 violated** (whole numbers): unevenly sampled patches are merged if their labels are times, but not if they are whole numbers. -/
theorem C37_int_violated : (mergePatches exInOrder false true [exRagged .time [0, 2, 3], exRagged .time [5, 9]]).map (fun q => q.data.shape) = .ok [5] ∧
    (mergePatches exInOrder false true [exRagged .int [0, 2, 3], exRagged .int [5, 9]]).map (fun q => q.data.shape) = .error .typeError := by
  constructor <;> decide +kernel

/-- **C37 violated** (turned patches): merged all at once, patches with their dimensions in another order raise; one at a time they are merged. -/
theorem C37_order_violated : (((exPiece 0 4 2).toPatchM.transpose []).bind fun r => mergePatches exInOrder false true [(exPiece 0 4 0).toPatchM, r]).map (fun q => q.data.shape) =
      .error .assertionError ∧
    (((exPiece 0 4 2).toPatchM.transpose []).bind fun r => streamPatches exInOrder 99 false true "distance" 4 [(exPiece 0 4 0).toPatchM, r]).map (fun q => q.data.shape) =
      .ok [2, 4] := by
  constructor <;> decide +kernel

/-- **C37.** Patches with the coordinates of the first are the first again: merged all at once the result is the first patch; one at a time they
are not merged at all. -/
theorem C37_identical (argsort : List ℚ → List ℕ) (dropConf snap : Bool) (p0 : PatchM α) (l : List (PatchM α)) (h : ∀ p ∈ l, p.cm = p0.cm) :
    mergePatches argsort dropConf snap (p0 :: l) = .ok p0 ∧
    ∀ junk dim samples q, streamPatches argsort junk dropConf snap dim samples (p0 :: l) ≠ .ok q := by
  have hms : (p0 :: l).map PatchM.cm = List.replicate (l.length + 1) p0.cm := by
    rw [List.eq_replicate_iff]
    refine ⟨by simp, fun m hm => ?_⟩
    obtain ⟨p, hp, rfl⟩ := List.mem_map.1 hm
    rcases List.mem_cons.1 hp with rfl | hp
    · rfl
    · exact h p hp
  have hcol : ∀ (n : ℕ) (x : Option ℚ), columnEqual (List.replicate n x) = true := by
    intro n x
    cases n with
    | zero => rfl
    | succ n =>
      rw [List.replicate_succ]
      simp [columnEqual]
  have hvar : ∀ n d, varies (List.replicate n p0.cm) d = false := by
    intro n d
    unfold varies
    have : ∃ k c, (List.replicate n p0.cm).filterMap (fun m => (m.ents.get? d).map Prod.snd) = List.replicate k c := by
      cases hd : p0.cm.ents.get? d with
      | none =>
        refine ⟨0, .nd ⟨[], fun _ => none⟩, ?_⟩
        rw [List.replicate_zero, List.filterMap_eq_nil_iff]
        intro m hm
        rw [List.eq_of_mem_replicate hm, hd]; rfl
      | some e =>
        refine ⟨n, e.2, ?_⟩
        induction n with
        | zero => rfl
        | succ n ih => rw [List.replicate_succ, List.filterMap_cons, hd, ih]; rfl
    obtain ⟨k, c, hk⟩ := this
    rw [hk]
    simp [List.map_replicate, hcol]
  have hdim : mergeDim (List.replicate (l.length + 1) p0.cm) = .ok none := by
    rw [List.replicate_succ]
    unfold mergeDim
    simp only
    rw [if_neg (by simp), ← List.replicate_succ]
    have : p0.cm.dims.filter (varies (List.replicate (l.length + 1) p0.cm)) = [] := by
      rw [List.filter_eq_nil_iff]; intro d _; rw [hvar]; simp
    rw [this]
  constructor
  · unfold mergePatches
    simp only [bind, Except.bind]
    rw [hms, hdim]
  · intro junk dim samples q hq
    unfold streamPatches at hq
    simp only at hq
    split at hq
    · cases hq
    simp only [bind, Except.bind] at hq
    have : (p0 :: l).mapM (PatchM.orient p0.cm.dims) = .ok (p0 :: l) := by
      have := mapM_ok' (l := p0 :: l) (f := PatchM.orient p0.cm.dims) (g := id) (by
        intro p hp
        have : p.cm = p0.cm := by
          rcases List.mem_cons.1 hp with rfl | hp
          · rfl
          · exact h p hp
        unfold PatchM.orient
        rw [if_pos (by rw [this])]; rfl)
      rw [this, List.map_id]
    rw [this] at hq
    simp only at hq
    split at hq
    · cases hq
    rw [hms, hdim] at hq
    simp only at hq
    rw [if_pos (by simp)] at hq
    cases hq

example : ∀ p ∈ [exMarked 0, exMarked 0], p.cm = (exMarked 0).cm := by
  intro p hp
  simp only [List.mem_cons, List.not_mem_nil, or_false, or_self] at hp
  rw [hp]

/-- **C37 violated** (the same limits): only the limits and the steps are compared, and a missing step agrees with any. The samples at 1 are lost when patches with the same
limits are merged, evenly sampled or not. -/
theorem C37_limits_violated :
    (mergePatches exInOrder false false [exRagged .time [0, 2, 3], exRagged .time [0, 1, 3]]).map (fun q => (q.data.shape, label q "distance" [1])) =
      .ok ([3], some (some 2)) ∧
    (mergePatches exInOrder false false [⟨⟨["distance"], [("distance", ["distance"], .one .time (.range ⟨0, 9, 3, 3⟩))]⟩, [3], fun _ => 7⟩,
        exRagged .time [0, 1, 6]]).map (fun q => (q.data.shape, label q "distance" [1])) = .ok ([3], some (some 3)) := by
  constructor <;> decide +kernel

/-- Why the patches have to be in the order of their labels: data are joined as given, labels in order. -/
example : (mergePatches exInOrder false false [exRagged .time [5, 9], exRagged .time [0, 2, 3]]).map (fun q => label q "distance" [0]) = .ok (some (some 0)) := by
  decide +kernel

end Verif
