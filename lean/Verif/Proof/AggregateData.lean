import Verif.Proof.Aggregate
/-! # Lemmas: the data of aggregations -/
namespace Verif
open Spec

theorem indices_sorted : ∀ sh : List ℕ, (Nd.indices sh).Pairwise (· < ·)
  | [] => by simp [Nd.indices]
  | n :: ns => by
    unfold Nd.indices
    rw [List.pairwise_flatMap]
    refine ⟨fun k _ => ?_, ?_⟩
    · rw [List.pairwise_map]
      refine (indices_sorted ns).imp fun {a b} h => ?_
      exact List.cons_lt_cons_iff.2 (Or.inr ⟨rfl, h⟩)
    · refine List.pairwise_lt_range.imp fun {a b} h => ?_
      intro x hx y hy
      obtain ⟨x', _, rfl⟩ := List.mem_map.1 hx
      obtain ⟨y', _, rfl⟩ := List.mem_map.1 hy
      exact List.cons_lt_cons_iff.2 (Or.inl h)

theorem index_map {dims : List String} (hn : dims.Nodup) {i : List ℕ} (hi : i.length = dims.length) :
    dims.map (fun d => i.getD (dims.idxOf d) 0) = i := by
  apply List.ext_getElem
  · simp [hi]
  · intro j h1 h2
    have hj : j < dims.length := by simpa using h1
    rw [List.getElem_map, hn.idxOf_getElem j hj, List.getD_eq_getElem?_getD, List.getElem?_eq_getElem h2]
    rfl

theorem getD_map_idxOf {dims : List String} {g : String → ℕ} {d : String} (hd : d ∈ dims) : (dims.map g).getD (dims.idxOf d) 0 = g d := by
  have h1 := List.idxOf_lt_length_of_mem hd
  rw [List.getD_eq_getElem?_getD, List.getElem?_map, List.getElem?_eq_getElem h1]
  simp

/-- The index with position `k` along `dim`, and `π d` along any other dimension `d`. -/
def put (dims : List String) (dim : String) (π : String → ℕ) (k : ℕ) : List ℕ := dims.map fun d => if d = dim then k else π d

theorem put_lt {dims : List String} {dim : String} (hd : dim ∈ dims) (π : String → ℕ) {k l : ℕ} (h : k < l) :
    put dims dim π k < put dims dim π l := by
  unfold put
  induction dims with
  | nil => cases hd
  | cons e dims ih =>
    simp only [List.map_cons]
    by_cases he : e = dim
    · rw [if_pos he, if_pos he]; exact List.cons_lt_cons_iff.2 (Or.inl h)
    · rw [if_neg he, if_neg he]
      refine List.cons_lt_cons_iff.2 (Or.inr ⟨rfl, ih ?_⟩)
      cases hd with
      | head => exact absurd rfl he
      | tail _ h => exact h

theorem put_sorted {dims : List String} {dim : String} (hd : dim ∈ dims) (π : String → ℕ) (n : ℕ) :
    ((List.range n).map (put dims dim π)).Pairwise (· < ·) := by
  rw [List.pairwise_map]
  exact List.pairwise_lt_range.imp fun {a b} h => put_lt hd π h

theorem mem_put {dims : List String} (hn : dims.Nodup) {dim : String} (hd : dim ∈ dims) {π len : String → ℕ}
    (hπ : ∀ d ∈ dims, d ≠ dim → π d < len d) (j : List ℕ) :
    j ∈ (List.range (len dim)).map (put dims dim π) ↔
      InRange (dims.map len) j ∧ ∀ d ∈ dims, d ≠ dim → j.getD (dims.idxOf d) 0 = π d := by
  constructor
  · intro h
    obtain ⟨k, hk, rfl⟩ := List.mem_map.1 h
    rw [List.mem_range] at hk
    refine ⟨inRange_map fun d hdd => ?_, fun d hdd hne => ?_⟩
    · by_cases he : d = dim
      · rw [if_pos he, he]; exact hk
      · rw [if_neg he]; exact hπ d hdd he
    · unfold put
      rw [getD_map_idxOf hdd, if_neg hne]
  · rintro ⟨h1, h2⟩
    refine List.mem_map.2 ⟨j.getD (dims.idxOf dim) 0, List.mem_range.2 (inRange_getD h1 hd), ?_⟩
    rw [← index_map hn (i := j) (by simpa using inRange_length h1)]
    unfold put
    refine List.map_congr_left fun d hdd => ?_
    rw [index_map hn (i := j) (by simpa using inRange_length h1)]
    by_cases he : d = dim
    · rw [if_pos he, he]
    · rw [if_neg he, h2 d hdd he]

theorem split_at {dims : List String} (hn : dims.Nodup) {dim : String} (hd : dim ∈ dims) :
    ∃ l r, dims = l ++ dim :: r ∧ dims.idxOf dim = l.length ∧ dim ∉ l ∧ dim ∉ r ∧ dims.filter (· ≠ dim) = l ++ r := by
  obtain ⟨l, r, h⟩ := List.append_of_mem hd
  subst h
  rw [List.nodup_append] at hn
  obtain ⟨h1, h2, h3⟩ := hn
  have hl : dim ∉ l := fun h => h3 dim h dim (by simp) rfl
  have hr : dim ∉ r := (List.nodup_cons.1 h2).1
  refine ⟨l, r, rfl, ?_, hl, hr, ?_⟩
  · rw [List.idxOf_append_of_notMem hl, List.idxOf_cons_self]; simp
  · rw [List.filter_append, List.filter_cons]
    have e1 : l.filter (fun x => decide (x ≠ dim)) = l := List.filter_eq_self.2 fun a ha => by
      have : a ≠ dim := fun h => hl (h ▸ ha)
      simp [this]
    have e2 : r.filter (fun x => decide (x ≠ dim)) = r := List.filter_eq_self.2 fun a ha => by
      have : a ≠ dim := fun h => hr (h ▸ ha)
      simp [this]
    rw [e1, e2]; simp

theorem insertIdx_length {α} (l r : List α) (x : α) : (l ++ r).insertIdx l.length x = l ++ x :: r := by
  induction l with
  | nil => simp
  | cons a l ih => simp [ih]

theorem eraseIdx_length {α} (l r : List α) (x : α) : (l ++ x :: r).eraseIdx l.length = l ++ r := by
  induction l with
  | nil => simp
  | cons a l ih => simp [ih]

theorem put_eq {dims l r : List String} {dim : String} (h : dims = l ++ dim :: r) (hl : dim ∉ l) (hr : dim ∉ r) (π : String → ℕ) (k : ℕ) :
    put dims dim π k = l.map π ++ k :: r.map π := by
  subst h
  unfold put
  rw [List.map_append, List.map_cons, if_pos rfl]
  congr 1
  · exact List.map_congr_left fun d hd => if_neg (c := d = dim) fun h => hl (h ▸ hd)
  · congr 1
    exact List.map_congr_left fun d hd => if_neg (c := d = dim) fun h => hr (h ▸ hd)

/-- Aggregating along one axis and putting it back. -/
theorem expand_reduce {α β} (f : List α → β) {a : Nd α} {dims : List String} (hn : dims.Nodup) {dim : String} (hd : dim ∈ dims)
    {len : String → ℕ} (hs : a.shape = dims.map len) :
    ((a.reduceAxis f (dims.idxOf dim)).expandDims (dims.idxOf dim)).shape = dims.map (fun d => if d = dim then 1 else len d) ∧
    ∀ i, i.length = dims.length → ((a.reduceAxis f (dims.idxOf dim)).expandDims (dims.idxOf dim)).get i =
      f (((List.range (len dim)).map (put dims dim fun d => i.getD (dims.idxOf d) 0)).map a.get) := by
  obtain ⟨l, r, h1, h2, h3, h4, h5⟩ := split_at hn hd
  constructor
  · have h6 := put_eq h1 h3 h4 len 1
    unfold put at h6
    rw [h6]
    show (a.shape.eraseIdx _).insertIdx _ 1 = _
    rw [hs, h2, h1, List.map_append, List.map_cons]
    have : l.length = (l.map len).length := by simp
    rw [this, eraseIdx_length, insertIdx_length]
  · intro i hi
    show f ((List.range (a.shape.getD (dims.idxOf dim) 0)).map fun k => a.get ((i.eraseIdx _).insertIdx _ k)) = _
    rw [hs, getD_map_idxOf hd, List.map_map]
    congr 1
    refine List.map_congr_left fun k _ => ?_
    show a.get _ = a.get _
    congr 1
    rw [put_eq h1 h3 h4]
    have h7 := index_map hn hi
    generalize hg : (fun d => i.getD (dims.idxOf d) 0) = g at *
    rw [h2, ← h7, h1, List.map_append, List.map_cons]
    have : l.length = (l.map g).length := by simp
    rw [this, eraseIdx_length, insertIdx_length]

/-- Aggregating along one axis. -/
theorem reduce_one {α β} (f : List α → β) {a : Nd α} {dims : List String} (hn : dims.Nodup) {dim : String} (hd : dim ∈ dims)
    {len : String → ℕ} (hs : a.shape = dims.map len) :
    (a.reduceAxis f (dims.idxOf dim)).shape = (dims.filter (· ≠ dim)).map len ∧
    ∀ i, i.length = (dims.filter (· ≠ dim)).length → (a.reduceAxis f (dims.idxOf dim)).get i =
      f (((List.range (len dim)).map (put dims dim fun d => i.getD ((dims.filter (· ≠ dim)).idxOf d) 0)).map a.get) := by
  obtain ⟨l, r, h1, h2, h3, h4, h5⟩ := split_at hn hd
  constructor
  · rw [h5]
    show a.shape.eraseIdx _ = _
    rw [hs, h2, h1, List.map_append, List.map_append, List.map_cons]
    have : l.length = (l.map len).length := by simp
    rw [this, eraseIdx_length]
  · intro i hi
    show f ((List.range (a.shape.getD (dims.idxOf dim) 0)).map fun k => a.get (i.insertIdx _ k)) = _
    rw [hs, getD_map_idxOf hd, List.map_map]
    congr 1
    refine List.map_congr_left fun k _ => ?_
    show a.get _ = a.get _
    congr 1
    rw [put_eq h1 h3 h4]
    have h7 := index_map (hn.filter _) hi
    generalize hg : (fun d => i.getD ((dims.filter (· ≠ dim)).idxOf d) 0) = g at *
    rw [h5, List.map_append] at h7
    rw [h2, ← h7]
    have : l.length = (l.map g).length := by simp
    rw [this, insertIdx_length]

/-! ## Several axes at once -/

theorem zeroAt_map {dims : List String} {axes : List ℕ} {names : List String}
    (hax : ∀ k (h : k < dims.length), k ∈ axes ↔ dims[k] ∈ names) (g : String → ℕ) :
    Nd.zeroAt axes (dims.map g) = dims.map fun d => if d ∈ names then 0 else g d := by
  unfold Nd.zeroAt
  apply List.ext_getElem
  · simp
  · intro k h1 h2
    have hk : k < dims.length := by simpa using h2
    simp only [List.getElem_mapIdx, List.getElem_map]
    have := hax k hk
    by_cases h : k ∈ axes
    · rw [if_pos (List.contains_iff_mem.2 h), if_pos (this.1 h)]
    · rw [if_neg (fun h' => h (List.contains_iff_mem.1 h')), if_neg (fun h' => h (this.2 h'))]

theorem keptAxes_map {dims : List String} {axes : List ℕ} {names : List String}
    (hax : ∀ k (h : k < dims.length), k ∈ axes ↔ dims[k] ∈ names) :
    Nd.keptAxes dims.length axes = dims.map fun d => decide (d ∉ names) := by
  unfold Nd.keptAxes
  apply List.ext_getElem
  · simp
  · intro k h1 h2
    have hk : k < dims.length := by simpa using h2
    simp only [List.getElem_map, List.getElem_range]
    have := hax k hk
    by_cases h : k ∈ axes
    · rw [List.contains_iff_mem.2 h]; simp [this.1 h]
    · have h' : dims[k] ∉ names := fun h' => h (this.2 h')
      have : axes.contains k = false := by simpa using h
      rw [this]; simp [h']

theorem collapse_shape {α β} (f : List α → β) {a : Nd α} {dims : List String} {len : String → ℕ} (hs : a.shape = dims.map len)
    {axes : List ℕ} {names : List String} (hax : ∀ k (h : k < dims.length), k ∈ axes ↔ dims[k] ∈ names) :
    (a.collapse f axes).shape = dims.map fun d => if d ∈ names then 1 else len d := by
  show a.shape.mapIdx _ = _
  rw [hs]
  apply List.ext_getElem
  · simp
  · intro k h1 h2
    have hk : k < dims.length := by simpa using h2
    simp only [List.getElem_mapIdx, List.getElem_map]
    have := hax k hk
    by_cases h : k ∈ axes
    · rw [if_pos (List.contains_iff_mem.2 h), if_pos (this.1 h)]
    · rw [if_neg (fun h' => h (List.contains_iff_mem.1 h')), if_neg (fun h' => h (this.2 h'))]

theorem collapse_get {α β} (f : List α → β) {a : Nd α} {dims : List String} (hn : dims.Nodup) {len : String → ℕ} (hs : a.shape = dims.map len)
    {axes : List ℕ} {names : List String} (hax : ∀ k (h : k < dims.length), k ∈ axes ↔ dims[k] ∈ names) {i : List ℕ}
    (hi : i.length = dims.length) :
    ∃ js : List (List ℕ), (a.collapse f axes).get i = f (js.map a.get) ∧ js.Pairwise (· < ·) ∧
      ∀ j, j ∈ js ↔ InRange a.shape j ∧ ∀ d ∈ dims, d ∉ names → j.getD (dims.idxOf d) 0 = i.getD (dims.idxOf d) 0 := by
  refine ⟨_, rfl, (indices_sorted _).filter _, ?_⟩
  intro j
  rw [List.mem_filter, mem_indices]
  refine and_congr_right fun hj => ?_
  rw [decide_eq_true_iff]
  have hj' : j.length = dims.length := by rw [hs] at hj; simpa using inRange_length hj
  rw [← index_map hn hi, ← index_map hn hj', zeroAt_map hax, zeroAt_map hax, index_map hn hi, index_map hn hj']
  rw [List.map_inj_left]
  refine forall₂_congr fun d _ => ?_
  by_cases hd : d ∈ names
  · simp [hd]
  · simp [hd]

theorem expandShape_map (len : String → ℕ) (keep : String → Bool) (l : List String) :
    Nd.expandShape (l.map keep) ((l.filter keep).map len) = l.map fun d => if keep d then len d else 1 := by
  induction l with
  | nil => rfl
  | cons d l ih =>
    simp only [List.map_cons, List.filter_cons]
    cases hk : keep d with
    | true => simp [Nd.expandShape, ih]
    | false => simp [Nd.expandShape, ih]

theorem contract_map (g : String → ℕ) (keep : String → Bool) (l : List String) :
    Nd.contract (l.map keep) (l.map g) = (l.filter keep).map g := by
  induction l with
  | nil => rfl
  | cons d l ih =>
    simp only [List.map_cons, List.filter_cons]
    cases hk : keep d with
    | true => simp [Nd.contract, ih]
    | false => simp [Nd.contract, ih]

theorem reduceAxes_shape {α β} (f : List α → β) {a : Nd α} {dims : List String} {len : String → ℕ} (hs : a.shape = dims.map len)
    {axes : List ℕ} {names : List String} (hax : ∀ k (h : k < dims.length), k ∈ axes ↔ dims[k] ∈ names) :
    (a.reduceAxes f axes).shape = (dims.filter fun d => decide (d ∉ names)).map len := by
  show maskIdx (a.collapse f axes).shape (Nd.keptAxes a.shape.length axes) = _
  have hl : a.shape.length = dims.length := by rw [hs]; simp
  rw [collapse_shape f hs hax, hl, keptAxes_map hax, maskIdx_map_filter]
  refine List.map_congr_left fun d hd => ?_
  have := (List.mem_filter.1 hd).2
  rw [if_neg (by simpa using this)]

theorem expand_reduceAxes {α β} (f : List α → β) {a : Nd α} {dims : List String} (hn : dims.Nodup) {len : String → ℕ} (hs : a.shape = dims.map len)
    {axes : List ℕ} {names : List String} (hax : ∀ k (h : k < dims.length), k ∈ axes ↔ dims[k] ∈ names) :
    ((a.reduceAxes f axes).expandAxes (Nd.keptAxes dims.length axes)).shape = dims.map (fun d => if d ∈ names then 1 else len d) ∧
    ∀ i, i.length = dims.length → ((a.reduceAxes f axes).expandAxes (Nd.keptAxes dims.length axes)).get i = (a.collapse f axes).get i := by
  constructor
  · show Nd.expandShape _ (a.reduceAxes f axes).shape = _
    rw [reduceAxes_shape f hs hax, keptAxes_map hax, expandShape_map]
    refine List.map_congr_left fun d _ => ?_
    by_cases hd : d ∈ names <;> simp [hd]
  · intro i hi
    have hl : a.shape.length = dims.length := by rw [hs]; simp
    show (a.collapse f axes).get (Nd.unsqueeze (Nd.keptAxes a.shape.length axes) (Nd.contract _ i)) = _
    rw [hl, keptAxes_map hax, ← index_map hn hi, contract_map, unsqueeze_map, index_map hn hi]
    show f _ = f _
    congr 2
    refine List.filter_congr fun j _ => ?_
    congr 2
    rw [zeroAt_map hax]
    conv_rhs => rw [← index_map hn hi, zeroAt_map hax]
    refine List.map_congr_left fun d _ => ?_
    by_cases hd : d ∈ names <;> simp [hd]

end Verif
