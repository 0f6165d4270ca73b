import Verif.Proof.AggregateData
import Verif.Props.Correlate
/-! # C51: axis arguments, aggregations and reductions -/
namespace Verif
open Spec

/-! ## Axis arguments -/

theorem wrap_eq {n : ℕ} {a : ℤ} (h : -(n : ℤ) ≤ a ∧ a < n) : (a % n).toNat = (if a < 0 then a + (n : ℤ) else a).toNat := by
  congr 1
  split_ifs with h0
  · rw [← Int.add_emod_right, Int.emod_eq_of_lt (by omega) (by omega)]
  · exact Int.emod_eq_of_lt (by omega) h.2

theorem dedupe_append (n : ℕ) : ∀ (as : List ℤ) (out : List ℕ), ∃ r, dedupe n as out = out ++ r
  | [], out => ⟨[], by simp [dedupe]⟩
  | a :: as, out => by
    unfold dedupe
    split_ifs
    · exact dedupe_append n as out
    · obtain ⟨r, hr⟩ := dedupe_append n as (out ++ [(a % n).toNat])
      exact ⟨(a % n).toNat :: r, by rw [hr]; simp⟩

theorem dedupe_concat (n : ℕ) : ∀ (as bs : List ℤ) (out : List ℕ), dedupe n (as ++ bs) out = dedupe n bs (dedupe n as out)
  | [], bs, out => rfl
  | a :: as, bs, out => by simp only [List.cons_append, dedupe]; exact dedupe_concat n as bs _

theorem dedupe_spec (n : ℕ) : ∀ (as : List ℤ) (out : List ℕ), out.Nodup → (dedupe n as out).Nodup ∧
    ∀ k, k ∈ dedupe n as out ↔ k ∈ out ∨ ∃ a ∈ as, k = (a % n).toNat
  | [], out, h => ⟨h, by simp [dedupe]⟩
  | a :: as, out, h => by
    unfold dedupe
    split_ifs with hc
    · obtain ⟨h1, h2⟩ := dedupe_spec n as out h
      refine ⟨h1, fun k => ?_⟩
      rw [h2]
      simp only [List.mem_cons, exists_eq_or_imp]
      constructor
      · rintro (h | h)
        · exact Or.inl h
        · exact Or.inr (Or.inr h)
      · rintro (h | rfl | h)
        · exact Or.inl h
        · exact Or.inl (List.contains_iff_mem.1 hc)
        · exact Or.inr h
    · have hnot : (a % n).toNat ∉ out := fun h => hc (List.contains_iff_mem.2 h)
      obtain ⟨h1, h2⟩ := dedupe_spec n as (out ++ [(a % n).toNat]) (by
        rw [List.nodup_append]
        refine ⟨h, by simp, ?_⟩
        intro x hx y hy
        simp at hy; subst hy
        exact fun h => hnot (h ▸ hx))
      refine ⟨h1, fun k => ?_⟩
      rw [h2]
      simp only [List.mem_cons, exists_eq_or_imp, List.mem_append, List.not_mem_nil, or_false, or_assoc]

/-- The axes in an argument are valid: each is a position, or one counted from the end. -/
def AxesValid (n : ℕ) : AxisArg → Prop
  | .none => True
  | .one a => -(n : ℤ) ≤ a ∧ a < n
  | .many as => ∀ a ∈ as, -(n : ℤ) ≤ a ∧ a < n

theorem denotes_wrap {n : ℕ} {a : ℤ} (h : -(n : ℤ) ≤ a ∧ a < n) (k : ℕ) :
    k = (a % n).toNat ↔ k < n ∧ ((k : ℤ) = a ∨ (k : ℤ) = a + n) := by
  rw [wrap_eq h]
  split_ifs with h0 <;> constructor <;> intro hk <;> omega

/-- **C51** (axis arguments). An axis argument is resolved to the dimensions it denotes, each once; what an argument begins with
comes first. numpy accepts the argument if all axes are valid and denote different dimensions, and reduces over the same ones. -/
theorem C51_axes (n : ℕ) (axis : AxisArg) (h : AxesValid n axis) :
    (normalizeAxes n axis).Nodup ∧ (∀ k, k ∈ normalizeAxes n axis ↔ Denotes n axis k) ∧
    (∀ as bs, axis = .many (as ++ bs) → normalizeAxes n (.many as) <+: normalizeAxes n axis) ∧
    ∀ ax, numpyAxes n axis = .ok ax → ax = normalizeAxes n axis := by
  cases axis with
  | none =>
    refine ⟨List.nodup_range, fun k => ?_, ?_, ?_⟩
    · simp [normalizeAxes, Denotes]
    · intro as bs h; cases h
    · intro ax h; cases h; rfl
  | one a =>
    have h' : -(n : ℤ) ≤ a ∧ a < n := h
    have e : normalizeAxes n (.one a) = [(a % n).toNat] := by simp [normalizeAxes, dedupe]
    refine ⟨by rw [e]; simp, fun k => ?_, ?_, ?_⟩
    · rw [e, List.mem_singleton]; exact denotes_wrap h' k
    · intro as bs h; cases h
    · intro ax hax
      unfold numpyAxes at hax
      simp only at hax
      rw [if_pos h'] at hax
      injection hax with hax
      rw [e, ← hax, wrap_eq h']
  | many as =>
    obtain ⟨h1, h2⟩ := dedupe_spec n as [] List.nodup_nil
    refine ⟨h1, fun k => ?_, ?_, ?_⟩
    · show k ∈ dedupe n as [] ↔ _
      rw [h2]
      simp only [List.not_mem_nil, false_or, Denotes]
      constructor
      · rintro ⟨a, ha, hk⟩
        have := (denotes_wrap (h a ha) k).1 hk
        exact ⟨this.1, a, ha, this.2⟩
      · rintro ⟨hk, a, ha, h3⟩
        exact ⟨a, ha, (denotes_wrap (h a ha) k).2 ⟨hk, h3⟩⟩
    · rintro bs cs hab
      injection hab with hab
      subst hab
      show dedupe n bs [] <+: dedupe n (bs ++ cs) []
      rw [dedupe_concat]
      obtain ⟨r, hr⟩ := dedupe_append n cs (dedupe n bs [])
      rw [hr]
      exact List.prefix_append _ _
    · intro ax hax
      unfold numpyAxes at hax
      simp only at hax
      split at hax
      · split at hax
        · rename_i hnd
          injection hax with hax
          have hm : (as.map fun a => (if a < 0 then a + (n : ℤ) else a).toNat) = as.map fun a : ℤ => (a % (n : ℤ)).toNat :=
            List.map_congr_left fun a ha => (wrap_eq (h a ha)).symm
          rw [hm] at hnd hax
          rw [← hax]
          have key : ∀ (bs : List ℤ) (out : List ℕ), (out ++ bs.map fun a : ℤ => (a % (n : ℤ)).toNat).Nodup →
              dedupe n bs out = out ++ bs.map fun a : ℤ => (a % (n : ℤ)).toNat := by
            intro bs
            induction bs with
            | nil => intro out _; simp [dedupe]
            | cons b bs ih =>
              intro out hno
              unfold dedupe
              have : out.contains (b % n).toNat = false := by
                rw [List.nodup_append] at hno
                by_contra hc
                simp only [Bool.not_eq_false, List.contains_iff_mem] at hc
                exact hno.2.2 _ hc _ (by simp) rfl
              rw [this]
              simp only [Bool.false_eq_true, if_false]
              rw [ih _ (by simpa using hno)]
              simp
          exact (key as [] (by simpa using hnd)).symm
        · cases hax
      · cases hax

example : AxesValid 3 (.many [-1, 0, 2]) ∧ normalizeAxes 3 (.many [-1, 0, 2]) = [2, 0] := ⟨by intro a ha; simp at ha; omega, by decide +kernel⟩

theorem numpyAxes_valid {n : ℕ} {axis : AxisArg} {ax : List ℕ} (h : numpyAxes n axis = .ok ax) : AxesValid n axis := by
  cases axis with
  | none => trivial
  | one a =>
    unfold numpyAxes at h
    simp only at h
    split at h
    · assumption
    · cases h
  | many as =>
    unfold numpyAxes at h
    simp only at h
    split at h
    · rename_i hall
      intro a ha
      have := List.all_eq_true.1 hall a ha
      simpa using this
    · cases h

/-! ## Reductions -/

theorem collapsed_of {α β} {f : List α → β} {p : PatchM α} (hm : Regular p.cm) (hl : DimsListed p.cm) {names : List String}
    (hn : names.Nodup) (hsub : ∀ d ∈ names, d ∈ p.cm.dims) {g : String → MCoord} (hg : Short g names) {cm : CM}
    (hS : Shrunk p.cm cm names g) {a : Nd β} (hshape : a.shape = p.cm.dims.map fun d => if d ∈ names then 1 else lenDim p.cm d)
    (hdata : ∀ i, InRange a.shape i → ∃ js : List (List ℕ), a.get i = f (js.map p.data.get) ∧ js.Pairwise (· < ·) ∧
      ∀ j, j ∈ js ↔ InRange p.data.shape j ∧ ∀ d ∈ p.cm.dims, d ∉ names → posAlong p d j = posAlong p d i) :
    Collapsed f p ⟨cm, a⟩ names := by
  have hlen : ∀ d ∈ names, (g d).len = 1 := by
    intro d hd
    obtain ⟨k, c, x, h1, h2, _⟩ := hg.one d hd
    rw [h1]; simpa [MCoord.len, MCoord.shape, MCoord.arr] using h2
  have hR := resized_iff (g := g) hm hn hsub hl hlen
  have hdrop : dropNames (givenTo names g) = [] := by
    unfold dropNames givenTo
    rw [List.map_eq_nil_iff, List.filter_eq_nil_iff]
    intro p hp
    obtain ⟨d, _, rfl⟩ := List.mem_map.1 hp
    simp [CArg.isDrop]
  refine ⟨hS.dims, hshape, hdata, ?_, ?_, ?_⟩
  · intro name ds c hc hname hds hst i _
    obtain ⟨c', h1, h2⟩ := hS.upd.kept name ds c (givenTo_none g hname) hc (fun d hd => ⟨by rw [hdrop]; simp, by
      rw [hR]; rintro ⟨h1, h2⟩; exact h2 (hds d hd h1)⟩)
    unfold label
    simp only [hc, h2]
    cases ds with
    | nil => rfl
    | cons d ds => simp only [hS.dims, h1.2 hst]
  · rintro name ds c hc hname ⟨d, h1, h2, h3⟩
    exact hS.upd.lost name ds c (givenTo_none g hname) hc ⟨d, h1, Or.inr ((hR d).2 ⟨h2, h3⟩)⟩
  · intro name hc
    refine hS.upd.none name (givenTo_none g fun h => ?_) hc
    obtain ⟨k, c, h1⟩ := hl name (hsub name h)
    rw [hc] at h1; cases h1

/-- The coordinate of an aggregated dimension with `dim_reduce="empty"`. -/
def emptyOf (m : CM) (d : String) : MCoord :=
  match m.ents.get? d with
  | some (_, .one k c) => .one k (if c.length = 1 then c else .part 1)
  | _ => .one .float (.part 1)

theorem emptyOf_eq {m : CM} {d : String} {ds : List String} {k : Kind} {c : Coord} (h : m.ents.get? d = some (ds, .one k c)) :
    emptyOf m d = .one k (if c.length = 1 then c else .part 1) := by
  unfold emptyOf; rw [h]

theorem emptyOf_short {m : CM} (hm : Regular m) (hr : Readable m) (hl : DimsListed m) {names : List String}
    (hsub : ∀ d ∈ names, d ∈ m.dims) : Short (emptyOf m) names := by
  refine ⟨fun d hd => ?_⟩
  obtain ⟨k, c, hc⟩ := hl d (hsub d hd)
  rw [emptyOf_eq hc]
  by_cases h1 : c.length = 1
  · rw [if_pos h1]
    obtain ⟨x, hx⟩ := hr d _ _ hc
    refine ⟨k, c, x, rfl, h1, ?_, hx⟩
    intro r hrr
    subst hrr
    exact hm.classes _ _ _ _ (Dict.mem_of_get? hc)
  · rw [if_neg h1]
    exact ⟨k, .part 1, _, rfl, rfl, (fun r h => nomatch h), rfl⟩

theorem replicate_getD (n i : ℕ) : (List.replicate n (none : Option ℚ)).getD i none = none := by
  rw [List.getD_eq_getElem?_getD, List.getElem?_replicate]
  split_ifs <;> rfl

theorem labels_emptied {α β} {p : PatchM α} (hm : Regular p.cm) (hl : DimsListed p.cm) {names : List String} (hn : names.Nodup)
    (hsub : ∀ d ∈ names, d ∈ p.cm.dims) {cm : CM} (hS : Shrunk p.cm cm names (emptyOf p.cm)) {a : Nd β} {d : String} (hd : d ∈ names) :
    LabelsEmptied p ⟨cm, a⟩ d := by
  intro i hi
  obtain ⟨k, c, hc⟩ := hl d (hsub d hd)
  have hcl : c.length = lenDim p.cm d := (dim_one hm (hsub d hd) hc).2
  obtain ⟨c', h1, h2⟩ := hS.upd.given d _ [d] (emptyOf p.cm d) (givenTo_get hn _ hd) rfl
  rw [emptyOf_eq hc] at h1
  constructor
  · intro hne
    rw [if_neg (by omega)] at h1
    have h3 := h1.2 (by
      intro k x hx
      cases hx
      exact Or.inl (by simp [Coord.vals]))
    unfold label
    simp only [h2]
    rw [h3]
    unfold labelAt
    simp only [MCoord.arr, Coord.labels]
    exact congrArg some (replicate_getD _ _)
  · intro he hst
    rw [if_pos (by omega)] at h1
    unfold label
    simp only [h2, hc, hS.dims]
    rw [h1.2 (by intro k' x hx; cases hx; exact hst _ _ _ hc)]

theorem emptied_eq {m : CM} {d : String} {ds : List String} {k : Kind} {c : Coord} (h : m.ents.get? d = some (ds, .one k c)) :
    PatchM.emptied m d = .ok (d, .simple (emptyOf m d)) := by
  unfold PatchM.emptied
  rw [h, emptyOf_eq h]
  rfl

theorem mapM_emptied {m : CM} (hl : DimsListed m) : ∀ {names : List String}, (∀ d ∈ names, d ∈ m.dims) →
    names.mapM (PatchM.emptied m) = .ok (givenTo names (emptyOf m))
  | [], _ => rfl
  | d :: names, h => by
    obtain ⟨k, c, hc⟩ := hl d (h d (by simp))
    rw [List.mapM_cons, emptied_eq hc, mapM_emptied hl fun e he => h e (by simp [he])]
    rfl

theorem cm_shape {m : CM} (hd : m.dims ≠ []) : m.shape = m.dims.map (lenDim m) := by
  unfold CM.shape; rw [if_neg hd]; rfl

/-- **C51** (numpy reductions). A numpy function which reduces along its axes can be applied to a patch with any valid axes,
and collapses exactly the dimensions they denote. (Without `keepdims`; see `C51_keepdims_violated`.) -/
theorem C51_reduction_partial {α β} (f : List α → β) {p : PatchM α} (hm : Regular p.cm) (hr : Readable p.cm) (hl : DimsListed p.cm)
    (hd : p.cm.dims ≠ []) (hsh : p.cm.shape = p.data.shape) (axis : AxisArg) :
    ((∃ q, p.applyReduction f axis false = .ok q) ↔ ∃ ax, numpyAxes p.cm.dims.length axis = .ok ax) ∧
    ∀ q, p.applyReduction f axis false = .ok q → ∃ names : List String,
      (∀ k (h : k < p.cm.dims.length), p.cm.dims[k] ∈ names ↔ Denotes p.cm.dims.length axis k) ∧ Collapsed f p q names ∧
      ∀ d ∈ names, LabelsEmptied p q d := by
  have hshape : p.data.shape = p.cm.dims.map (lenDim p.cm) := by rw [← hsh, cm_shape hd]
  have hlen : p.data.shape.length = p.cm.dims.length := by rw [hshape]; simp
  have hnd : p.cm.dims.Nodup := hm.distinct
  have main : ∀ ax, numpyAxes p.cm.dims.length axis = .ok ax → ∃ q, p.applyReduction f axis false = .ok q ∧ ∃ names : List String,
      (∀ k (h : k < p.cm.dims.length), p.cm.dims[k] ∈ names ↔ Denotes p.cm.dims.length axis k) ∧ Collapsed f p q names ∧
      ∀ d ∈ names, LabelsEmptied p q d := by
    intro ax hax
    obtain ⟨h1, h2, _, h4⟩ := C51_axes p.cm.dims.length axis (numpyAxes_valid hax)
    have hax' := h4 ax hax
    set names := ax.map (fun x => p.cm.dims.getD x "") with hnames
    have hlt : ∀ k ∈ ax, k < p.cm.dims.length := by
      intro k hk
      rw [hax', h2] at hk
      exact hk.1
    have hget : ∀ k (h : k < p.cm.dims.length), p.cm.dims.getD k "" = p.cm.dims[k] := by
      intro k h
      rw [List.getD_eq_getElem?_getD, List.getElem?_eq_getElem h]; rfl
    have hmem : ∀ k (h : k < p.cm.dims.length), k ∈ ax ↔ p.cm.dims[k] ∈ names := by
      intro k hk
      rw [hnames, List.mem_map]
      constructor
      · intro h; exact ⟨k, h, hget k hk⟩
      · rintro ⟨j, hj, he⟩
        rw [hget j (hlt j hj)] at he
        have : j = k := (List.Nodup.getElem_inj_iff hnd).1 he
        rw [← this]; exact hj
    have hnn : names.Nodup := by
      rw [hnames]
      refine List.Nodup.map_on ?_ (by rw [hax']; exact h1)
      intro x hx y hy hxy
      rw [hget x (hlt x hx), hget y (hlt y hy)] at hxy
      exact (List.Nodup.getElem_inj_iff hnd).1 hxy
    have hsub : ∀ d ∈ names, d ∈ p.cm.dims := by
      intro d hdn
      obtain ⟨k, hk, rfl⟩ := List.mem_map.1 hdn
      rw [hget k (hlt k hk)]; exact List.getElem_mem _
    have hden : ∀ k (h : k < p.cm.dims.length), p.cm.dims[k] ∈ names ↔ Denotes p.cm.dims.length axis k := by
      intro k hk
      rw [← hmem k hk, hax', h2]
    have hrun : p.applyReduction f axis false = if (p.data.reduceAxes f ax).shape = p.data.shape then PatchM.new p.cm (p.data.reduceAxes f ax)
        else (names.mapM (PatchM.emptied p.cm)).bind fun kw => (p.cm.update kw).bind fun cm =>
          PatchM.new cm ((p.data.reduceAxes f ax).expandAxes (Nd.keptAxes p.cm.dims.length ax)) := by
      unfold PatchM.applyReduction
      rw [hlen, hax, ← hax']
      simp only [Bool.false_eq_true, if_false, bind, Except.bind]
      by_cases hc : (p.data.reduceAxes f ax).shape = p.data.shape
      · rw [if_pos hc]
      · rw [if_neg hc]
    by_cases hempty : ax = []
    · -- nothing is reduced
      have hnil : names = [] := by rw [hnames, hempty]; rfl
      have hs' : (p.data.reduceAxes f ax).shape = p.data.shape := by
        rw [reduceAxes_shape f hshape hmem, hnil, hshape]
        simp
      rw [hrun, if_pos hs']
      refine ⟨⟨p.cm, p.data.reduceAxes f ax⟩, by unfold PatchM.new; rw [if_pos (by rw [hs']; exact hsh)], names, hden, ?_, by rw [hnil]; simp⟩
      refine ⟨rfl, ?_, ?_, fun name ds c _ _ _ _ i _ => rfl, ?_, fun _ h => h⟩
      · show (p.data.reduceAxes f ax).shape = _
        rw [hs', hshape, hnil]; simp
      · intro i hi
        have hi' : i.length = p.cm.dims.length := by
          have := inRange_length hi
          show i.length = _
          rw [this]
          show (p.data.reduceAxes f ax).shape.length = _
          rw [hs', hlen]
        have := (expand_reduceAxes f hnd hshape hmem).2 i hi'
        obtain ⟨js, hj1, hj2, hj3⟩ := collapse_get f hnd hshape hmem hi'
        refine ⟨js, ?_, hj2, hj3⟩
        rw [← hj1, ← this]
        show (p.data.reduceAxes f ax).get i = (p.data.reduceAxes f ax).get (Nd.contract _ i)
        congr 1
        rw [keptAxes_map hmem]
        conv_rhs => rw [← index_map hnd hi', contract_map]
        rw [hnil]
        simp only [List.not_mem_nil, not_false_eq_true, decide_true, List.filter_true]
        exact (index_map hnd hi').symm
      · rintro name ds c _ _ ⟨d, _, h, _⟩
        rw [hnil] at h; cases h
    · have hs' : (p.data.reduceAxes f ax).shape ≠ p.data.shape := by
        intro h
        have h0 := congrArg List.length h
        rw [reduceAxes_shape f hshape hmem, hlen, List.length_map] at h0
        obtain ⟨k, hk⟩ := List.exists_mem_of_ne_nil _ hempty
        have h3 := (hmem k (hlt k hk)).1 hk
        have := (List.length_filter_lt_length_iff_exists (p := fun d => decide (d ∉ names)) (l := p.cm.dims)).2
          ⟨p.cm.dims[k]'(hlt k hk), List.getElem_mem _, by simp [h3]⟩
        omega
      obtain ⟨cm, hcm, hS⟩ := shrink hm hr hl hnn hsub (emptyOf_short hm hr hl hsub)
      have hdata := expand_reduceAxes f hnd hshape hmem
      have hfin : p.applyReduction f axis false = .ok ⟨cm, (p.data.reduceAxes f ax).expandAxes (Nd.keptAxes p.cm.dims.length ax)⟩ := by
        rw [hrun, if_neg hs', mapM_emptied hl hsub]
        simp only [Except.bind]
        rw [hcm]
        simp only
        unfold PatchM.new
        rw [if_pos]
        rw [hdata.1, cm_shape (by rw [hS.dims]; exact hd), hS.dims]
        exact List.map_congr_left hS.len
      refine ⟨_, hfin, names, hden, collapsed_of hm hl hnn hsub (emptyOf_short hm hr hl hsub) hS hdata.1 ?_, fun d hdn =>
        labels_emptied hm hl hnn hsub hS hdn⟩
      intro i hi
      have hi' : i.length = p.cm.dims.length := by
        rw [hdata.1] at hi
        simpa using inRange_length hi
      rw [hdata.2 i hi']
      exact collapse_get f hnd hshape hmem hi'
  refine ⟨⟨?_, fun ⟨ax, h⟩ => let ⟨q, hq, _⟩ := main ax h; ⟨q, hq⟩⟩, ?_⟩
  · rintro ⟨q, hq⟩
    unfold PatchM.applyReduction at hq
    rw [hlen] at hq
    cases hax : numpyAxes p.cm.dims.length axis with
    | ok ax => exact ⟨ax, rfl⟩
    | error e => rw [hax] at hq; cases hq
  · intro q hq
    cases hax : numpyAxes p.cm.dims.length axis with
    | ok ax =>
      obtain ⟨q', h1, h2⟩ := main ax hax
      rw [hq] at h1; cases h1
      exact h2
    | error e =>
      unfold PatchM.applyReduction at hq
      rw [hlen, hax] at hq; cases hq

theorem readable_all {m : CM} (h : (m.ents.all fun p => (p.2.2.canon).isOk) = true) : Readable m := by
  intro name ds c hc
  have := List.all_eq_true.1 h _ (Dict.mem_of_get? hc)
  simp only at this
  cases hx : c.canon with
  | ok x => exact ⟨x, rfl⟩
  | error e => rw [hx] at this; cases this

theorem exCM_readable : Readable exCM := readable_all (by decide +kernel)

theorem exCM_listed : DimsListed exCM := by
  intro d hd
  have : d = "time" ∨ d = "distance" := by simpa [exCM] using hd
  rcases this with rfl | rfl
  · exact ⟨.int, .arr [3, 1], rfl⟩
  · exact ⟨.int, .range exUp, rfl⟩

example : (∃ q, exPatch.applyReduction List.sum (.one (-1)) false = .ok q) ∧
    (exPatch.applyReduction List.sum (.one (-1)) false).map (fun q => (q.data.shape, q.data.get [0, 0], q.data.get [1, 0])) =
      .ok ([2, 1], 6, 46) ∧
    (exPatch.applyReduction List.sum (.one (-1)) false).map (fun q => (label q "time" [1, 0], label q "distance" [1, 0], label q "lat" [1, 0])) =
      .ok (some (some 1), some none, none) :=
  ⟨((C51_reduction_partial List.sum exCM_regular exCM_readable exCM_listed (by decide) (by decide +kernel) (.one (-1))).1).2
    ⟨[1], by decide +kernel⟩, by decide +kernel, by decide +kernel⟩

/-- **C51 violated** (`keepdims=True`): the axes are expanded once more and the patch cannot be made. -/
theorem C51_keepdims_violated : (exPatch.applyReduction List.sum (.one 1) true).map (fun q => q.data.shape) = .error .coordError := by
  decide +kernel

/-! ## Aggregations -/

theorem aggStep_run {α} {f : List α → α} {r : DimReduce} {p : PatchM α} {d : String} (hd : d ∈ p.cm.dims) {k : Kind} {c : Coord}
    (hc : p.cm.ents.get? d = some ([d], .one k c)) :
    p.aggStep f r d = (reduceCoord r k c).bind fun c' =>
        match c' with
        | none => (p.cm.dropCoords [d]).bind fun cm => PatchM.new cm (p.data.reduceAxis f (p.cm.dims.idxOf d))
        | some c' => (p.cm.update [(d, .simple c')]).bind fun cm =>
            PatchM.new cm ((p.data.reduceAxis f (p.cm.dims.idxOf d)).expandDims (p.cm.dims.idxOf d)) := by
  unfold PatchM.aggStep
  rw [hc]
  simp only
  rw [if_pos (List.contains_iff_mem.2 hd)]
  rfl

/-- What aggregations need and keep. -/
structure Ready {α} (p : PatchM α) : Prop where
  regular : Regular p.cm
  readable : Readable p.cm
  listed : DimsListed p.cm
  ne : p.cm.dims ≠ []
  shape : p.cm.shape = p.data.shape

theorem step_collapse {α} (f : List α → α) {p : PatchM α} (hp : Ready p) {d : String} (hd : d ∈ p.cm.dims) {g : String → MCoord}
    (hg : Short g [d]) : ∃ cm, p.cm.update [(d, .simple (g d))] = .ok cm ∧ Shrunk p.cm cm [d] g ∧
      let q : PatchM α := ⟨cm, (p.data.reduceAxis f (p.cm.dims.idxOf d)).expandDims (p.cm.dims.idxOf d)⟩
      PatchM.new q.cm q.data = .ok q ∧ Ready q ∧ Collapsed f p q [d] := by
  have hsub : ∀ e ∈ [d], e ∈ p.cm.dims := by simpa using hd
  have hnd : p.cm.dims.Nodup := hp.regular.distinct
  have hshape : p.data.shape = p.cm.dims.map (lenDim p.cm) := by rw [← hp.shape, cm_shape hp.ne]
  obtain ⟨cm, hcm, hS⟩ := shrink hp.regular hp.readable hp.listed (List.nodup_singleton d) hsub hg
  obtain ⟨h1, h2⟩ := expand_reduce f hnd hd hshape
  have hsh : cm.shape = ((p.data.reduceAxis f (p.cm.dims.idxOf d)).expandDims (p.cm.dims.idxOf d)).shape := by
    rw [h1, cm_shape (by rw [hS.dims]; exact hp.ne), hS.dims]
    refine List.map_congr_left fun e he => ?_
    rw [hS.len e he]
    by_cases hed : e = d <;> simp [hed]
  refine ⟨cm, hcm, hS, ?_, ⟨hS.regular, hS.readable, hS.listed, by rw [hS.dims]; exact hp.ne, hsh⟩, ?_⟩
  · unfold PatchM.new; rw [if_pos hsh]
  · refine collapsed_of hp.regular hp.listed (List.nodup_singleton d) hsub hg hS ?_ ?_
    · rw [h1]
      refine List.map_congr_left fun e he => ?_
      by_cases hed : e = d <;> simp [hed]
    · intro i hi
      rw [h1] at hi
      have hi' : i.length = p.cm.dims.length := by simpa using inRange_length hi
      refine ⟨_, h2 i hi', put_sorted hd _ _, fun j => ?_⟩
      rw [mem_put hnd hd (len := lenDim p.cm), hshape]
      · simp only [List.mem_singleton]; rfl
      · intro e he hne
        have := inRange_getD hi he
        rwa [if_neg hne] at this

theorem step_empty {α} (f : List α → α) {p : PatchM α} (hp : Ready p) {d : String} (hd : d ∈ p.cm.dims) :
    ∃ q, p.aggStep f .empty d = .ok q ∧ Ready q ∧ Collapsed f p q [d] ∧ LabelsEmptied p q d := by
  have hsub : ∀ e ∈ [d], e ∈ p.cm.dims := by simpa using hd
  obtain ⟨k, c, hc⟩ := hp.listed d hd
  obtain ⟨cm, h1, h2, h3, h4, h5⟩ := step_collapse f hp hd (emptyOf_short hp.regular hp.readable hp.listed hsub)
  refine ⟨_, ?_, h4, h5, labels_emptied hp.regular hp.listed (List.nodup_singleton d) hsub h2 (by simp)⟩
  rw [aggStep_run hd hc]
  simp only [reduceCoord, Except.bind]
  rw [emptyOf_eq hc] at h1
  rw [h1]
  exact h3

theorem step_squeeze {α} (f : List α → α) {p : PatchM α} (hp : Ready p) {d : String} (hd : d ∈ p.cm.dims)
    (hother : ∃ e ∈ p.cm.dims, e ≠ d) :
    ∃ q, p.aggStep f .squeeze d = .ok q ∧ Ready q ∧ Removed f p q d := by
  have hnd : p.cm.dims.Nodup := hp.regular.distinct
  have hshape : p.data.shape = p.cm.dims.map (lenDim p.cm) := by rw [← hp.shape, cm_shape hp.ne]
  obtain ⟨k, c, hc⟩ := hp.listed d hd
  obtain ⟨cm, hcm, hD⟩ := dropCoords_spec hp.regular.wf [d]
  obtain ⟨h1, h2⟩ := reduce_one f hnd hd hshape
  have hdims : cm.dims = p.cm.dims.filter (· ≠ d) := by
    rw [hD.dims]; exact List.filter_congr fun e _ => by simp
  have hne : cm.dims ≠ [] := by
    obtain ⟨e, he, hed⟩ := hother
    rw [hdims]
    exact List.ne_nil_of_mem (List.mem_filter.2 ⟨he, by simpa using hed⟩)
  obtain ⟨hwf, hdist⟩ := CM.dropCoords_wf hcm hp.regular.wf
  have hback : ∀ name ds c, cm.ents.get? name = some (ds, c) → p.cm.ents.get? name = some (ds, c) ∧ name ≠ d ∧ d ∉ ds := by
    intro name ds c hx
    cases hme : Dict.get? p.cm.ents name with
    | none => rw [hD.none name hme] at hx; cases hx
    | some r =>
      obtain ⟨ds', c'⟩ := r
      by_cases hg : name ∈ [d] ∨ ∃ e ∈ ds', e ∈ [d]
      · rw [hD.gone name ds' c' hme hg] at hx; cases hx
      · push Not at hg
        rw [hD.kept name ds' c' hme hg.1 hg.2] at hx
        cases hx
        exact ⟨rfl, by simpa using hg.1, fun h => (hg.2 d h) (by simp)⟩
  have hlen : ∀ e ∈ cm.dims, lenDim cm e = lenDim p.cm e := by
    intro e he
    rw [hdims, List.mem_filter] at he
    obtain ⟨he1, he2⟩ := he
    obtain ⟨k', c', hc'⟩ := hp.listed e he1
    have hk := hD.kept e [e] _ hc' (by simpa using he2) (by simpa using he2)
    unfold lenDim Ents.lenOf
    rw [hk, hc']
  have hmem : ∀ name ds c, (name, ds, c) ∈ cm.ents → (name, ds, c) ∈ p.cm.ents := by
    intro name ds c h
    exact Dict.mem_of_get? (hback _ _ _ (Dict.get?_of_mem hwf.names h)).1
  have hready : Ready (⟨cm, p.data.reduceAxis f (p.cm.dims.idxOf d)⟩ : PatchM α) := by
    refine ⟨⟨hwf, hdist hp.regular.distinct, fun n ds c h => hp.regular.coordDims n ds c (hmem _ _ _ h),
      fun n ds k c h => hp.regular.classes n ds k c (hmem _ _ _ h), ?_⟩, ?_, ?_, hne, ?_⟩
    · intro n hn
      obtain ⟨v, hv⟩ := Dict.mem_keys.1 hn
      have := hp.regular.plain n (Dict.mem_keys.2 ⟨_, (hback n v.1 v.2 hv).1⟩)
      unfold matchesPrefixSuffix at this ⊢
      simp only at this ⊢
      rw [if_neg (by simpa using hp.ne)] at this
      rw [if_neg (by simpa using hne)]
      rw [List.any_eq_false] at this ⊢
      intro e he
      rw [hdims] at he
      exact this e (List.mem_filter.1 he).1
    · intro n ds c h
      exact hp.readable n ds c (hback n ds c h).1
    · intro e he
      have he' := he
      rw [hdims, List.mem_filter] at he'
      obtain ⟨he1, he2⟩ := he'
      obtain ⟨k', c', hc'⟩ := hp.listed e he1
      exact ⟨k', c', hD.kept e [e] _ hc' (by simpa using he2) (by simpa using he2)⟩
    · rw [cm_shape hne]
      show _ = (p.data.reduceAxis f (p.cm.dims.idxOf d)).shape
      rw [h1, ← hdims]
      exact List.map_congr_left hlen
  refine ⟨_, ?_, hready, hdims, h1, ?_, ?_, ?_, hD.none⟩
  · rw [aggStep_run hd hc]
    simp only [reduceCoord, Except.bind]
    rw [hcm]
    simp only
    unfold PatchM.new
    rw [if_pos hready.shape]
  · intro i hi
    have hi0 : InRange ((p.cm.dims.filter (· ≠ d)).map (lenDim p.cm)) i := by rw [← h1]; exact hi
    have hi' : i.length = (p.cm.dims.filter (· ≠ d)).length := by simpa using inRange_length hi0
    refine ⟨_, h2 i hi', put_sorted hd _ _, fun j => ?_⟩
    rw [mem_put hnd hd (len := lenDim p.cm), hshape]
    · show _ ∧ (∀ e ∈ p.cm.dims, e ≠ d → j.getD _ 0 = _) ↔ _
      rw [hdims]; rfl
    · intro e he hed
      exact inRange_getD hi0 (List.mem_filter.2 ⟨he, by simpa using hed⟩)
  · intro name ds c' hc' hds hname i hi j hj hij
    have hk := hD.kept name ds c' hc' (by simpa using hname) (fun e he h => hds (by simp at h; exact h ▸ he))
    unfold label
    simp only [hk, hc']
    cases ds with
    | nil => rfl
    | cons e es =>
      simp only
      unfold labelAt
      congr 2
      refine List.map_congr_left fun x hx => ?_
      have hxd : x ∈ p.cm.dims := hp.regular.wf.attached name (e :: es) c' (Dict.mem_of_get? hc') x hx
      exact (hij x hxd (fun h => hds (h ▸ hx))).symm
  · intro name ds c' hc' hds
    exact hD.gone name ds c' hc' (Or.inr ⟨d, hds, by simp⟩)

theorem aggregate_empty {α} (f : List α → α) : ∀ (names : List String) {p : PatchM α}, Ready p → (∀ d ∈ names, d ∈ p.cm.dims) →
    ∃ q, names.foldlM (PatchM.aggStep f .empty) p = .ok q ∧ AggregatedBy f .empty p names q ∧ Ready q
  | [], p, hp, _ => ⟨p, rfl, .done p, hp⟩
  | d :: names, p, hp, h => by
    obtain ⟨p1, h1, h2, h3, h4⟩ := step_empty f hp (h d (by simp))
    obtain ⟨q, h5, h6, h7⟩ := aggregate_empty f names h2 fun e he => by rw [h3.dims]; exact h e (by simp [he])
    refine ⟨q, ?_, .emptied rfl h3 h4 h6, h7⟩
    rw [List.foldlM_cons, h1]
    exact h5

theorem aggregate_squeeze {α} (f : List α → α) : ∀ (names : List String) {p : PatchM α}, Ready p → names.Nodup →
    (∀ d ∈ names, d ∈ p.cm.dims) → (∃ e ∈ p.cm.dims, e ∉ names) →
    ∃ q, names.foldlM (PatchM.aggStep f .squeeze) p = .ok q ∧ AggregatedBy f .squeeze p names q ∧ Ready q
  | [], p, hp, _, _, _ => ⟨p, rfl, .done p, hp⟩
  | d :: names, p, hp, hn, h, ⟨e, he, hen⟩ => by
    obtain ⟨p1, h1, h2, h3⟩ := step_squeeze f hp (h d (by simp)) ⟨e, he, fun h => hen (by simp [h])⟩
    rw [List.nodup_cons] at hn
    obtain ⟨q, h5, h6, h7⟩ := aggregate_squeeze f names h2 hn.2 (fun x hx => by
      rw [h3.dims, List.mem_filter]
      exact ⟨h x (by simp [hx]), by simpa using fun h' : x = d => hn.1 (h' ▸ hx)⟩) ⟨e, by
        rw [h3.dims, List.mem_filter]
        exact ⟨he, by simpa using fun h' : e = d => hen (by simp [h'])⟩, fun h' => hen (by simp [h'])⟩
    refine ⟨q, ?_, .removed rfl h3 h6, h7⟩
    rw [List.foldlM_cons, h1]
    exact h5

/-- **C51** (aggregating, `dim_reduce="empty"`). `Patch.aggregate` over dimensions of the patch (over all of them if none are
named) succeeds and collapses one after the other; the patch it returns is again one that can be aggregated. -/
theorem C51_aggregate {α} (f : List α → α) {p : PatchM α} (hp : Ready p) (dim : Option (List String)) :
    ((∃ q, p.aggregate f .empty dim = .ok q) ↔ dim.getD p.cm.dims ≠ [] ∧ ∀ d ∈ dim.getD p.cm.dims, d ∈ p.cm.dims) ∧
    ∀ q, p.aggregate f .empty dim = .ok q → AggregatedBy f .empty p (dim.getD p.cm.dims) q ∧ Ready q := by
  set names := dim.getD p.cm.dims with hnames
  have hrun : p.aggregate f .empty dim = if ¬ names.any p.cm.dims.contains then .error .parameterError
      else if ¬ names.all p.cm.dims.contains then .error .patchCoordinateError
      else names.foldlM (PatchM.aggStep f .empty) p := by
    unfold PatchM.aggregate
    simp only [← hnames, PatchM.squeezes, Bool.false_and, Bool.false_eq_true, if_false]
  have key : (names ≠ [] ∧ ∀ d ∈ names, d ∈ p.cm.dims) → p.aggregate f .empty dim = names.foldlM (PatchM.aggStep f .empty) p := by
    rintro ⟨h1, h2⟩
    obtain ⟨d, hd⟩ := List.exists_mem_of_ne_nil _ h1
    rw [hrun, if_neg (by simp only [not_not]; exact List.any_eq_true.2 ⟨d, hd, List.contains_iff_mem.2 (h2 d hd)⟩),
      if_neg (by simp only [not_not]; exact List.all_eq_true.2 fun d hd => List.contains_iff_mem.2 (h2 d hd))]
  have hcond : ∀ q, p.aggregate f .empty dim = .ok q → names ≠ [] ∧ ∀ d ∈ names, d ∈ p.cm.dims := by
    intro q hq
    rw [hrun] at hq
    split at hq
    · cases hq
    rename_i h1
    split at hq
    · cases hq
    rename_i h2
    simp only [not_not] at h1 h2
    refine ⟨?_, fun d hd => List.contains_iff_mem.1 (List.all_eq_true.1 h2 d hd)⟩
    rintro h
    rw [h] at h1; cases h1
  refine ⟨⟨fun ⟨q, hq⟩ => hcond q hq, fun h => ?_⟩, fun q hq => ?_⟩
  · obtain ⟨q, hq, _⟩ := aggregate_empty f names hp h.2
    exact ⟨q, by rw [key h, hq]⟩
  · have hc := hcond q hq
    obtain ⟨q', h1, h2, h3⟩ := aggregate_empty f names hp hc.2
    rw [key hc, h1] at hq
    cases hq
    exact ⟨h2, h3⟩

/-- **C51** (aggregating, `dim_reduce="squeeze"`). If the dimensions are different, belong to the patch and are not all it has,
aggregating succeeds and removes exactly those. -/
theorem C51_squeeze {α} (f : List α → α) {p : PatchM α} (hp : Ready p) {names : List String} (hn : names.Nodup) (h0 : names ≠ [])
    (h : ∀ d ∈ names, d ∈ p.cm.dims) (ho : ∃ e ∈ p.cm.dims, e ∉ names) :
    ∃ q, p.aggregate f .squeeze (some names) = .ok q ∧ AggregatedBy f .squeeze p names q ∧ Ready q := by
  obtain ⟨q, h1, h2, h3⟩ := aggregate_squeeze f names hp hn h ho
  refine ⟨q, ?_, h2, h3⟩
  obtain ⟨d, hd⟩ := List.exists_mem_of_ne_nil _ h0
  obtain ⟨e, he, hen⟩ := ho
  unfold PatchM.aggregate
  simp only [Option.getD_some]
  rw [if_neg (by simp only [not_not]; exact List.any_eq_true.2 ⟨d, hd, List.contains_iff_mem.2 (h d hd)⟩),
    if_neg (by simp only [not_not]; exact List.all_eq_true.2 fun d hd => List.contains_iff_mem.2 (h d hd)), if_neg, h1]
  simp only [PatchM.squeezes, Bool.true_and, List.all_eq_true, not_forall]
  exact ⟨e, he, fun h' => hen (List.contains_iff_mem.1 h')⟩

/-- **C51** (aggregating to a value). If the dimension's coordinate has values, and is not one of integers reduced to an integer, the
dimension keeps one position labelled with the aggregate of its labels. -/
theorem C51_value_partial {α} (f : List α → α) (g : List ℚ → ℚ) (b : Bool) {p : PatchM α} (hp : Ready p) {d : String} (hd : d ∈ p.cm.dims)
    {k : Kind} {c : Coord} (hc : p.cm.ents.get? d = some ([d], .one k c)) (hv : ∀ n, c ≠ .part n) (hi : ¬ (k = .int ∧ b = true)) :
    ∃ q, p.aggregate f (.value g b) (some [d]) = .ok q ∧ Collapsed f p q [d] ∧ LabelIs g p q d ∧ Ready q := by
  have hred : reduceCoord (.value g b) k c = .ok (some (.one k (.mono [g c.vals]))) := by
    unfold reduceCoord
    cases c with
    | part n => exact absurd rfl (hv n)
    | range r => simp only; rw [if_neg hi]
    | mono vs => simp only; rw [if_neg hi]
    | arr vs => simp only; rw [if_neg hi]
  have hshort : Short (fun _ => MCoord.one k (.mono [g c.vals])) [d] :=
    ⟨fun e _ => ⟨k, .mono [g c.vals], _, rfl, rfl, (fun r h => nomatch h), rfl⟩⟩
  obtain ⟨cm, h1, h2, h3, h4, h5⟩ := step_collapse f hp hd hshort
  refine ⟨_, ?_, h5, ?_, h4⟩
  · unfold PatchM.aggregate
    simp only [Option.getD_some, List.any_cons, List.any_nil, List.all_cons, List.all_nil, List.contains_iff_mem.2 hd, Bool.or_false,
      Bool.and_true, not_true_eq_false, if_false, PatchM.squeezes, Bool.false_and, Bool.false_eq_true, List.foldlM_cons, List.foldlM_nil]
    rw [aggStep_run hd hc, hred]
    simp only [Except.bind]
    rw [h1]
    simp only
    rw [h3]
    rfl
  · intro ds k' c' hc' i hi
    rw [hc] at hc'
    cases hc'
    obtain ⟨c', h6, h7⟩ := h2.upd.given d _ [d] (MCoord.one k (.mono [g c.vals])) (givenTo_get (List.nodup_singleton d) _ (by simp)) rfl
    have h8 := h6.2 (by intro k x hx; cases hx; exact Or.inl (by simp [Coord.vals]))
    unfold label
    simp only [h7, h8]
    have hr := inRange_getD (dims := p.cm.dims) (f := fun e => if e ∈ [d] then 1 else lenDim p.cm e) (i := i) (by rw [← h5.shape]; exact hi) hd
    rw [if_pos (by simp)] at hr
    have h0 : i.getD (p.cm.dims.idxOf d) 0 = 0 := by omega
    unfold labelAt
    simp only [MCoord.arr, List.map_cons, List.map_nil, h2.dims, h0, List.getD_cons_zero]
    rfl

theorem exPatch_ready : Ready exPatch := ⟨exCM_regular, exCM_readable, exCM_listed, by decide, by decide +kernel⟩

example : Ready exPatch ∧
    (exPatch.aggregate List.sum .empty none).map (fun q => (q.data.shape, q.data.get [0, 0])) = .ok ([1, 1], 52) ∧
    (exPatch.aggregate List.sum .squeeze (some ["time"])).map (fun q => (q.cm.dims, q.data.shape, q.data.get [1], label q "depth" [1])) =
      .ok (["distance"], [4], 12, some (some 4)) ∧
    (exPatch.aggregate List.sum (.value (fun l => l.sum / l.length) false) (some ["distance"])).map
      (fun q => (q.data.shape, q.data.get [1, 0], label q "distance" [1, 0])) = .ok ([2, 1], 46, some (some (19/2))) :=
  ⟨exPatch_ready, by decide +kernel, by decide +kernel, by decide +kernel⟩

/-- **C51 violated** (integer coordinates): the largest label is taken for the length of a coordinate without labels; the patch
cannot be made. With `1` as the largest label, the label is lost. -/
theorem C51_integer_violated :
    (exPatch.aggregate List.sum (.value (fun l => l.foldl max 0) true) (some ["distance"])).map (fun q => q.data.shape) = .error .coordError ∧
    (exPatch.aggregate List.sum (.value (fun l => l.foldl min 100) true) (some ["time"])).map
      (fun q => (q.data.shape, label q "time" [0, 0])) = .ok ([1, 4], some none) := by
  constructor <;> decide +kernel

end Verif
