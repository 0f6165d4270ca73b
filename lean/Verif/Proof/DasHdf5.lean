import Verif.Proof.Labelled
import Verif.Spec.DasHdf5
/-! # Lemmas: DAS-HDF5 files -/
namespace Verif
open Spec
variable {α : Type}

section
variable {C T : ℕ} {c tr t x y z : Coord}

/-- The six coordinates make a manager, whichever the order of the dimensions. -/
theorem cf_manager (hc : c.length = C) (htr : tr.length = T) (ht : t.length = T) (hx : x.length = C) (hy : y.length = C) (hz : z.length = C) {ds : List String}
    (hds : ds = ["channel", "time"] ∨ ds = ["time", "channel"]) : CM.mk? ds (cfEnts c tr t x y z) = .ok ⟨ds, cfEnts c tr t x y z⟩ := by
  have lc : (cfEnts c tr t x y z).lenOf "channel" = C := by show (MCoord.one .int c).shape.getD 0 0 = C; rw [one_shape]; exact hc
  have lt : (cfEnts c tr t x y z).lenOf "time" = T := by show (MCoord.one .time t).shape.getD 0 0 = T; rw [one_shape]; exact ht
  refine CM.mk?_of ?_ ?_
  · intro d hd
    have : d = "channel" ∨ d = "time" := by rcases hds with rfl | rfl <;> simp at hd <;> tauto
    rcases this with rfl | rfl
    · exact ⟨_, rfl⟩
    · exact ⟨_, rfl⟩
  · have hmc : "channel" ∈ ds := by rcases hds with rfl | rfl <;> simp
    have hmt : "time" ∈ ds := by rcases hds with rfl | rfl <;> simp
    intro p hp
    simp only [cfEnts, List.mem_cons, List.not_mem_nil, or_false] at hp
    rcases hp with rfl | rfl | rfl | rfl | rfl | rfl <;>
      refine ⟨fun d hd => ?_, Or.inr ?_⟩ <;>
      first
        | (simp only [List.mem_cons, List.not_mem_nil, or_false] at hd; subst hd; assumption)
        | (simp only [List.map_cons, List.map_nil, lc, lt, one_shape, hc, htr, ht, hx, hy, hz])

theorem cf_regular (hc : c.length = C) (htr : tr.length = T) (ht : t.length = T) (hx : x.length = C) (hy : y.length = C) (hz : z.length = C)
    (wc : c.Wf) (wtr : tr.Wf) (wt : t.Wf) (wx : x.Wf) (wy : y.Wf) (wz : z.Wf) {ds : List String}
    (hds : ds = ["channel", "time"] ∨ ds = ["time", "channel"]) : Regular ⟨ds, cfEnts c tr t x y z⟩ := by
  refine ⟨CM.mk?_wf (cf_manager hc htr ht hx hy hz hds) (by show ["channel", "trace", "time", "x", "y", "z"].Nodup; decide), ?_, ?_, ?_, ?_⟩
  · show ds.Nodup
    rcases hds with rfl | rfl <;> decide
  · intro n ds' c' hp
    simp only [cfEnts, List.mem_cons, List.not_mem_nil, or_false, Prod.mk.injEq] at hp
    rcases hp with ⟨_, rfl, _⟩ | ⟨_, rfl, _⟩ | ⟨_, rfl, _⟩ | ⟨_, rfl, _⟩ | ⟨_, rfl, _⟩ | ⟨_, rfl, _⟩ <;> simp
  · intro n ds' k c' hp
    simp only [cfEnts, List.mem_cons, List.not_mem_nil, or_false, Prod.mk.injEq, MCoord.one.injEq] at hp
    rcases hp with ⟨_, _, _, rfl⟩ | ⟨_, _, _, rfl⟩ | ⟨_, _, _, rfl⟩ | ⟨_, _, _, rfl⟩ | ⟨_, _, _, rfl⟩ | ⟨_, _, _, rfl⟩ <;> assumption
  · intro n hn
    have hn' : n ∈ ["channel", "trace", "time", "x", "y", "z"] := hn
    simp only [List.mem_cons, List.not_mem_nil, or_false] at hn'
    show matchesPrefixSuffix ds n = false
    rcases hds with rfl | rfl <;> rcases hn' with rfl | rfl | rfl | rfl | rfl | rfl <;> decide +kernel

theorem cf_shape (hc : c.length = C) (ht : t.length = T) {ds : List String} (hds : ds = ["channel", "time"] ∨ ds = ["time", "channel"]) :
    (⟨ds, cfEnts c tr t x y z⟩ : CM).shape = ds.map fun d => if d = "time" then T else C := by
  have lc : (cfEnts c tr t x y z).lenOf "channel" = C := by show (MCoord.one .int c).shape.getD 0 0 = C; rw [one_shape]; exact hc
  have lt : (cfEnts c tr t x y z).lenOf "time" = T := by show (MCoord.one .time t).shape.getD 0 0 = T; rw [one_shape]; exact ht
  unfold CM.shape
  rcases hds with rfl | rfl
  · rw [if_neg (by simp)]
    simp [lc, lt]
  · rw [if_neg (by simp)]
    simp [lc, lt]

end

theorem label_along {p : PatchM α} {n d : String} {k : Kind} {c : Coord} (h : p.cm.ents.get? n = some ([d], .one k c)) (j : List ℕ) :
    label p n j = some (c.labels.getD (posAlong p d j) none) := by
  unfold label
  rw [h]
  rfl

/-- The coordinates of the file, along `ds`: as they are stored, or, if there are as many channels as times, channels first. -/
theorem cf_coords {f : CfFile α} (h : CfLayout f) {ds : List String} (hds : ds = ["channel", "time"] ∨ ds = ["time", "channel"])
    (hd : ds = if f.channel.length = f.t.length then ["channel", "time"] else cfDims f) :
    ∃ cm, f.coords = .ok cm ∧ Regular cm ∧ cm.shape = f.das.shape ∧ HoldsCf f ds ⟨cm, f.das⟩ ∧ "time" ∈ cm.ents.keys ∧ "channel" ∈ cm.ents.keys := by
  obtain ⟨c, c1, c2, c3⟩ := C14_represents_partial .int _ (h.storable "channel" _ _ rfl)
  obtain ⟨tr, tr1, tr2, tr3⟩ := C14_represents_partial .int _ (h.storable "trace" _ _ rfl)
  obtain ⟨t, t1, t2, t3⟩ := C14_represents_partial .time _ (h.storable "time" _ _ rfl)
  obtain ⟨x, x1, x2, x3⟩ := C14_represents_partial .float _ (h.storable "x" _ _ rfl)
  obtain ⟨y, y1, y2, y3⟩ := C14_represents_partial .float _ (h.storable "y" _ _ rfl)
  obtain ⟨z, z1, z2, z3⟩ := C14_represents_partial .float _ (h.storable "z" _ _ rfl)
  rw [h.traces] at tr3
  rw [h.places.1] at x3
  rw [h.places.2.1] at y3
  rw [h.places.2.2] at z3
  have hreg := cf_regular c3 tr3 t3 x3 y3 z3 (getCoordData_wf c1) (getCoordData_wf tr1) (getCoordData_wf t1) (getCoordData_wf x1) (getCoordData_wf y1) (getCoordData_wf z1) hds
  have hshape : (⟨ds, cfEnts c tr t x y z⟩ : CM).shape = f.das.shape := by
    rw [cf_shape c3 t3 hds, h.shape]
    by_cases he : f.channel.length = f.t.length
    · rw [if_pos he] at hd
      rw [hd, he]
      unfold cfDims
      split_ifs <;> simp
    · rw [if_neg he] at hd
      rw [hd]
  refine ⟨⟨ds, cfEnts c tr t x y z⟩, ?_, hreg, hshape, ⟨rfl, rfl, fun _ _ => rfl, ?_, ?_⟩, ?_, ?_⟩
  · unfold CfFile.coords
    rw [c1, tr1, t1, x1, y1, z1]
    simp only [bind, Except.bind]
    rw [cf_manager c3 tr3 t3 x3 y3 z3 (Or.inl rfl)]
    show aligned f.das.shape _ = _
    unfold aligned
    rcases hds with rfl | rfl
    · rw [if_neg (by rw [hshape]; simp)]
    · have he : f.channel.length ≠ f.t.length := by
        intro he
        rw [if_pos he] at hd
        exact absurd hd (by decide)
      rw [if_pos]
      · unfold CM.transpose
        show (CM.transposeDims [.dim "time", .dim "channel"] ["channel", "time"]).bind _ = _
        rw [show CM.transposeDims [.dim "time", .dim "channel"] ["channel", "time"] = .ok ["time", "channel"] by decide +kernel]
        show (if ["time", "channel"] = ["channel", "time"] then (pure ⟨["channel", "time"], cfEnts c tr t x y z⟩ : Except Err CM)
          else CM.mk? ["time", "channel"] (cfEnts c tr t x y z)) = _
        rw [if_neg (by decide)]
        exact cf_manager c3 tr3 t3 x3 y3 z3 (Or.inr rfl)
      · rw [← hshape, cf_shape c3 t3 (Or.inl rfl), cf_shape c3 t3 (Or.inr rfl)]
        simp [he]
  · intro n d l hl i _
    have key : ∀ (k : Kind) (c' : Coord) (l' : List ℚ), (cfEnts c tr t x y z).get? n = some ([d], .one k c') → c'.labels = l'.map some → l = l' →
        label (⟨⟨ds, cfEnts c tr t x y z⟩, f.das⟩ : PatchM α) n i = some (l[posAlong (⟨⟨ds, cfEnts c tr t x y z⟩, f.das⟩ : PatchM α) d i]?) := by
      rintro k c' l' h1 h2 rfl
      rw [label_along (k := k) (c := c') h1, h2]
      congr 1
      rw [List.getD_eq_getElem?_getD, List.getElem?_map]
      cases l[posAlong (⟨⟨ds, cfEnts c tr t x y z⟩, f.das⟩ : PatchM α) d i]? <;> rfl
    have hmem := Dict.mem_of_get? hl
    simp only [cfLabels, List.mem_cons, List.not_mem_nil, or_false, Prod.mk.injEq] at hmem
    rcases hmem with ⟨rfl, rfl, hl'⟩ | ⟨rfl, rfl, hl'⟩ | ⟨rfl, rfl, hl'⟩ | ⟨rfl, rfl, hl'⟩ | ⟨rfl, rfl, hl'⟩ | ⟨rfl, rfl, hl'⟩
    · exact key _ _ _ rfl c2 hl'
    · exact key _ _ _ rfl tr2 hl'
    · exact key _ _ _ rfl t2 hl'
    · exact key _ _ _ rfl x2 hl'
    · exact key _ _ _ rfl y2 hl'
    · exact key _ _ _ rfl z2 hl'
  · intro n hn
    rw [Dict.get?_eq_none] at hn ⊢
    exact hn
  · show "time" ∈ ["channel", "trace", "time", "x", "y", "z"]
    decide
  · show "channel" ∈ ["channel", "trace", "time", "x", "y", "z"]
    decide

theorem cf_read {argsort : List ℚ → List ℕ} (ha : IsArgsort argsort) {f : CfFile α} (h : CfLayout f) {ds : List String}
    (hds : ds = ["channel", "time"] ∨ ds = ["time", "channel"]) (hd : ds = if f.channel.length = f.t.length then ["channel", "time"] else cfDims f) :
    ∃ w, HoldsCf f ds w ∧ ∀ (time channel : Option ℚ × Option ℚ) (o : Option (PatchM α)), f.read argsort time channel = .ok o →
      ∃ gs q, gs.flatten.Perm [("time", CQuery.between time.1 time.2), ("channel", CQuery.between channel.1 channel.2)] ∧ SelectedBy w gs q ∧
        o = if q.data.shape.prod = 0 then none else some q := by
  obtain ⟨cm, h1, h2, h3, h4, h5, h6⟩ := cf_coords h hds hd
  refine ⟨⟨cm, f.das⟩, h4, fun time channel o ho => ?_⟩
  set kw : Dict CQuery := [("time", CQuery.between time.1 time.2), ("channel", CQuery.between channel.1 channel.2)] with hkw
  unfold CfFile.read at ho
  rw [h1] at ho
  obtain ⟨r, hr, ho⟩ := bind_split (show (cm.select argsort f.das kw).bind nonEmpty = .ok o from ho)
  have hp := groups_perm cm kw
  have hmem : ∀ r ∈ kw, r = ("time", CQuery.between time.1 time.2) ∨ r = ("channel", CQuery.between channel.1 channel.2) := by
    intro r hr
    simpa [hkw] using hr
  obtain ⟨g1, g2, g3⟩ := chain_spec ha _ ⟨cm, f.das⟩ r h2 (by rw [show cm.dims = ds from h4.dims]; rcases hds with rfl | rfl <;> simp) h3
    (fun g hg r hr => by rcases hmem r (List.mem_of_mem_filter (hp.mem_iff.1 (List.mem_flatten.2 ⟨g, hg, hr⟩))) with rfl | rfl <;> trivial)
    (groups_onePerDim cm kw) hr
  refine ⟨_, ⟨r.1, r.2⟩, ?_, g1, ?_⟩
  · refine hp.trans (List.Perm.of_eq ?_)
    rw [List.filter_eq_self]
    intro r hr
    rcases hmem r hr with rfl | rfl
    · simpa using h5
    · simpa using h6
  · unfold nonEmpty at ho
    simp only
    split_ifs at ho ⊢
    · cases ho; rfl
    · unfold PatchM.new at ho
      rw [if_pos g3] at ho
      cases ho; rfl

end Verif
