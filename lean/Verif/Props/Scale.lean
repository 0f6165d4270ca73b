import Verif.Proof.Scale
import Verif.Props.Resample
import Mathlib.Analysis.Real.Sqrt
import Mathlib.Data.Sign.Basic
/-! # C72: scaling the lines of a patch -/
namespace Verif
open Spec

theorem dim_axis {α : Type} {p : PatchM α} (hsh : p.cm.shape = p.data.shape) {d : String} (hd : d ∈ p.cm.dims) {i : List ℕ} (hi : InRange p.data.shape i) :
    p.cm.dims.idxOf d < i.length := by
  rw [inRange_length hi, shape_dims hsh hd, List.length_map]
  exact List.idxOf_lt_length_of_mem hd

theorem lineAt_get {α : Type} {a b : Nd α} (hs : a.shape = b.shape) {axis : ℕ} {i : List ℕ} (hi : InRange a.shape i) (ha : axis < i.length)
    (h : lineAt a axis i = lineAt b axis i) : a.get i = b.get i := by
  have hx : i.getD axis 0 < a.shape.getD axis 0 := inRange_axis hi (by rw [← inRange_length hi]; exact ha)
  have := congrArg (fun l => l[i.getD axis 0]?) h
  simp only [lineAt, List.getElem?_map] at this
  rw [List.getElem?_range hx, List.getElem?_range (hs ▸ hx), Option.map_some, Option.map_some, set_self_getD] at this
  exact Option.some.inj this

section
variable {K : Type} [Field K] [LinearOrder K] [IsStrictOrderedRing K]

omit [IsStrictOrderedRing K] in
theorem normalize_ok {root : K → K} {bits : Option ℕ} {p q : PatchM (Option K)} {d : String} {kind : NormKind} (h : p.normalize root bits d kind = .ok q) :
    p.eachLine (normalizeLine root bits kind) d = .ok q := by
  unfold PatchM.normalize at h
  split_ifs at h
  exact h

/-- Normalizing keeps the coordinates and divides every line by one positive number: NaN stays NaN and influences nothing, lines of zeros are kept as they are,
and all other lines have norm one. Missing (see below): integers that have no absolute value. -/
theorem C72_normalize_partial {root : K → K} (hroot : IsRoot root) {bits : Option ℕ} {p q : PatchM (Option K)} {d : String} {kind : NormKind} (hk : kind ≠ .bit)
    (hsh : p.cm.shape = p.data.shape) (h : p.normalize root bits d kind = .ok q) :
    q.cm = p.cm ∧ q.data.shape = p.data.shape ∧
      ∀ i, InRange p.data.shape i →
        let line := lineAt p.data (p.cm.dims.idxOf d) i
        let out := lineAt q.data (p.cm.dims.idxOf d) i
        NoLeast bits (known line) →
          (∃ c, 0 < c ∧ Changed (· / c) line out) ∧ ((∀ x ∈ known line, x = 0) → out = line) ∧ ((∃ x ∈ known line, x ≠ 0) → UnitNorm kind (known out)) := by
  obtain ⟨hd, h1, h2, h3⟩ := eachLine_ok (normalizeLine_length root bits kind) (normalize_ok h)
  refine ⟨h1, h2, fun i hi => ?_⟩
  intro line out hb
  have ho : out = normalizeLine root bits kind line := h3 i (dim_axis hsh hd hi)
  obtain ⟨c, c1, c2, c3, c4⟩ := normalizeLine_spec hroot hk hb
  rw [ho]
  refine ⟨⟨c, c1, c2⟩, fun hz => changed_id c2 fun x _ => by rw [c3 hz, div_one], c4⟩

/-- Normalizing by "bit" leaves the signs of the samples. Missing: integers that have no absolute value. -/
theorem C72_bit_partial {root : K → K} {bits : Option ℕ} {p q : PatchM (Option K)} {d : String} (hsh : p.cm.shape = p.data.shape)
    (h : p.normalize root bits d .bit = .ok q) {i : List ℕ} (hi : InRange p.data.shape i) (hb : ∀ x, p.data.get i = some x → NoLeast bits [x]) :
    q.data.get i = (p.data.get i).map fun x => (SignType.sign x : K) := by
  obtain ⟨hd, h1, h2, h3⟩ := eachLine_ok (normalizeLine_length root bits .bit) (normalize_ok h)
  have ha := dim_axis hsh hd hi
  have := h3 i ha
  have hx : i.getD (p.cm.dims.idxOf d) 0 < p.data.shape.getD (p.cm.dims.idxOf d) 0 := inRange_axis hi (by rw [← inRange_length hi]; exact ha)
  have := congrArg (fun l => l[i.getD (p.cm.dims.idxOf d) 0]?) this
  simp only [normalizeLine, lineAt, List.getElem?_map] at this
  rw [List.getElem?_range hx, List.getElem?_range (h2 ▸ hx)] at this
  simp only [Option.map_some, set_self_getD, Option.some.injEq] at this
  rw [this]
  cases e : p.data.get i with
  | none => rfl
  | some x =>
    show some (x / if npAbs bits x = 0 then 1 else npAbs bits x) = some (SignType.sign x : K)
    rw [npAbs_eq (hb x e) (List.mem_singleton.2 rfl)]
    rcases lt_trichotomy x 0 with c | c | c
    · rw [if_neg (by simp [c.ne]), abs_of_neg c, sign_neg c, div_neg, div_self c.ne]
      simp
    · subst c
      simp
    · rw [if_neg (by simp [c.ne']), abs_of_pos c, sign_pos c, div_self c.ne']
      simp

/-- Normalizing what is normalized changes nothing. -/
theorem C72_normalize_again {root : K → K} (hroot : IsRoot root) {p q r : PatchM (Option K)} {d : String} {kind : NormKind} (hk : kind ≠ .bit)
    (hsh : p.cm.shape = p.data.shape) (h : p.normalize root none d kind = .ok q) (h' : q.normalize root none d kind = .ok r) :
    r.cm = q.cm ∧ r.data.shape = q.data.shape ∧ ∀ i, InRange p.data.shape i → r.data.get i = q.data.get i := by
  obtain ⟨a1, a2, a3⟩ := C72_normalize_partial hroot hk hsh h
  have hsh' : q.cm.shape = q.data.shape := by rw [a1, a2, hsh]
  obtain ⟨b1, b2, b3⟩ := C72_normalize_partial hroot hk hsh' h'
  refine ⟨b1, b2, fun i hi => ?_⟩
  have hd : d ∈ p.cm.dims := (eachLine_ok (normalizeLine_length root none kind) (normalize_ok h)).1
  rw [a1, a2] at b3
  obtain ⟨-, u2, u3⟩ := a3 i hi (fun b hb => by cases hb)
  obtain ⟨⟨c, v0, v1⟩, v2, v3⟩ := b3 i hi (fun b hb => by cases hb)
  refine lineAt_get b2 (b2 ▸ a2 ▸ hi) (dim_axis hsh hd hi) ?_
  by_cases hz : ∀ x ∈ known (lineAt q.data (p.cm.dims.idxOf d) i), x = 0
  · exact v2 hz
  · push Not at hz
    by_cases hz' : ∀ x ∈ known (lineAt p.data (p.cm.dims.idxOf d) i), x = 0
    · rw [u2 hz'] at hz
      obtain ⟨x, hx, h0⟩ := hz
      exact absurd (hz' x hx) h0
    · push Not at hz'
      have n1 := u3 hz'
      have n2 := v3 hz
      rw [v1, known_map] at n2
      have := unitNorm_unique hk v0 n1 n2
      exact changed_id v1 fun x _ => by rw [this, div_one]

omit [IsStrictOrderedRing K] in
/-- Normalizing is refused for a dimension that is not there, and for the greatest sample of lines without samples; otherwise it succeeds. -/
theorem C72_normalize_accepted (root : K → K) (bits : Option ℕ) (p : PatchM (Option K)) (d : String) (kind : NormKind) :
    (d ∉ p.cm.dims → p.normalize root bits d kind = .error .coordError) ∧
      (d ∈ p.cm.dims → kind = .max → p.data.shape.getD (p.cm.dims.idxOf d) 0 = 0 → p.normalize root bits d kind = .error .valueError) ∧
      (d ∈ p.cm.dims → (kind = .max → p.data.shape.getD (p.cm.dims.idxOf d) 0 ≠ 0) → ∃ q, p.normalize root bits d kind = .ok q) := by
  refine ⟨fun h => ?_, fun h h1 h2 => ?_, fun h h1 => ?_⟩
  · unfold PatchM.normalize PatchM.eachLine
    rw [if_neg (by tauto), if_pos h]
  · unfold PatchM.normalize
    rw [if_pos ⟨h, h1, h2⟩]
  · unfold PatchM.normalize PatchM.eachLine
    rw [if_neg (by tauto), if_neg (not_not.2 h)]
    exact ⟨_, rfl⟩

/-- Standardizing a line that is not constant: the same shift and the same positive factor for all samples, with mean zero and variance one as the result. -/
theorem C72_standardize_partial {root : K → K} (hroot : IsRoot root) {p q : PatchM (Option K)} {d : String}
    (hsh : p.cm.shape = p.data.shape) (h : p.standardize root d = .ok q) :
    q.cm = p.cm ∧ q.data.shape = p.data.shape ∧
      ∀ i, InRange p.data.shape i →
        let line := lineAt p.data (p.cm.dims.idxOf d) i
        let out := lineAt q.data (p.cm.dims.idxOf d) i
        (∃ x ∈ known line, ∃ y ∈ known line, x ≠ y) →
          (∃ m c, 0 < c ∧ Changed (fun x => (x - m) / c) line out) ∧ (known out).sum = 0 ∧ ((known out).map fun x : K => x ^ 2).sum = (known out).length := by
  obtain ⟨hd, h1, h2, h3⟩ := eachLine_ok (fun l => by simp [standardizeLine]) h
  refine ⟨h1, h2, fun i hi => ?_⟩
  intro line out hv
  have ho : out = standardizeLine root line := h3 i (dim_axis hsh hd hi)
  have hp := lineVar_pos hv
  have hr := root_pos hroot hp
  have hc : Changed (fun x => (x - lineMean (known line)) / root (lineVar (known line))) line out := by
    rw [ho]
    refine List.map_congr_left fun x _ => ?_
    cases x with
    | none => rfl
    | some x =>
      show (if root (lineVar (present line)) = 0 then none else _) = _
      rw [present_eq, if_neg hr.ne']
      rfl
  have hl : (0 : K) < (known line).length := by
    obtain ⟨x, hx, -⟩ := hv
    have := List.length_pos_of_mem hx
    exact_mod_cast this
  refine ⟨⟨_, _, hr, hc⟩, ?_, ?_⟩
  · rw [hc, known_map, sum_map_div (fun x => x - lineMean (known line)), sum_demeaned, zero_div]
  · rw [hc, known_map, List.map_map, List.length_map]
    have : ((· ^ 2) ∘ fun x : K => (x - lineMean (known line)) / root (lineVar (known line))) =
        fun x => (x - lineMean (known line)) ^ 2 / lineVar (known line) := by
      funext x
      simp only [Function.comp, div_pow]
      rw [sq (root _), (hroot _ hp.le).2]
    rw [this, sum_map_div (fun x => (x - lineMean (known line)) ^ 2)]
    have e : ((known line).map fun x => (x - lineMean (known line)) ^ 2).sum = lineVar (known line) * (known line).length := by
      unfold lineVar
      field_simp
    rw [e]
    field_simp

/-- Standardizing a constant line leaves nothing but NaN. -/
theorem C72_constant {root : K → K} (hroot : IsRoot root) {p q : PatchM (Option K)} {d : String} (hsh : p.cm.shape = p.data.shape)
    (h : p.standardize root d = .ok q) {i : List ℕ} (hi : InRange p.data.shape i) {c : K} (hc : ∀ x ∈ known (lineAt p.data (p.cm.dims.idxOf d) i), x = c) :
    ∀ y ∈ lineAt q.data (p.cm.dims.idxOf d) i, y = none := by
  obtain ⟨hd, h1, h2, h3⟩ := eachLine_ok (fun l => by simp [standardizeLine]) h
  rw [h3 i (dim_axis hsh hd hi)]
  intro y hy
  obtain ⟨x, -, rfl⟩ := List.mem_map.1 hy
  have hr : root (lineVar (present (lineAt p.data (p.cm.dims.idxOf d) i))) = 0 := by
    rw [present_eq, lineVar_const hc]
    exact mul_self_eq_zero.1 (hroot 0 le_rfl).2
  cases x with
  | none => rfl
  | some x =>
    show (if _ then _ else _) = _
    rw [if_pos hr]

/-- Demeaning subtracts one number from all samples of a line, and the samples of the result add up to zero. -/
theorem C72_demean {p q : PatchM (Option K)} {d : String} (hsh : p.cm.shape = p.data.shape) (h : p.demean d = .ok q) :
    q.cm = p.cm ∧ q.data.shape = p.data.shape ∧
      ∀ i, InRange p.data.shape i →
        (∃ m, Changed (· - m) (lineAt p.data (p.cm.dims.idxOf d) i) (lineAt q.data (p.cm.dims.idxOf d) i)) ∧
          (known (lineAt q.data (p.cm.dims.idxOf d) i)).sum = 0 := by
  obtain ⟨hd, h1, h2, h3⟩ := eachLine_ok (fun l => by simp) h
  refine ⟨h1, h2, fun i hi => ?_⟩
  have ho := h3 i (dim_axis hsh hd hi)
  refine ⟨⟨lineMean (known (lineAt p.data (p.cm.dims.idxOf d) i)), ho⟩, ?_⟩
  rw [ho]
  show (known (List.map (Option.map fun x => x - _) _)).sum = 0
  rw [known_map]
  exact sum_demeaned

/-- Demeaning twice is demeaning once. -/
theorem C72_demean_again {p q r : PatchM (Option K)} {d : String} (hsh : p.cm.shape = p.data.shape) (h : p.demean d = .ok q) (h' : q.demean d = .ok r) :
    r.cm = q.cm ∧ r.data.shape = q.data.shape ∧ ∀ i, InRange p.data.shape i → r.data.get i = q.data.get i := by
  obtain ⟨a1, a2, a3⟩ := C72_demean hsh h
  have hsh' : q.cm.shape = q.data.shape := by rw [a1, a2, hsh]
  obtain ⟨b1, b2, b3⟩ := C72_demean hsh' h'
  refine ⟨b1, b2, fun i hi => ?_⟩
  have hd : d ∈ p.cm.dims := (eachLine_ok (fun l => by simp) h).1
  rw [a1, a2] at b3
  obtain ⟨⟨m, hm⟩, hs⟩ := b3 i hi
  refine lineAt_get b2 (b2 ▸ a2 ▸ hi) (dim_axis hsh hd hi) (changed_id hm fun x hx => ?_)
  rw [hm, known_map, sum_map_sub, (a3 i hi).2, zero_sub, neg_eq_zero, mul_eq_zero] at hs
  rcases hs with e | e
  · have := List.length_pos_of_mem hx
    rw [Nat.cast_eq_zero] at e
    omega
  · rw [e, sub_zero]

/-- Detrending subtracts a straight line from every line of the data: the one that leaves the least squares. -/
theorem C72_detrend {p q : PatchM K} {d : String} (hsh : p.cm.shape = p.data.shape) (h : p.detrend d true = .ok q) :
    q.cm = p.cm ∧ q.data.shape = p.data.shape ∧
      ∀ i, InRange p.data.shape i →
        let n := p.data.shape.getD (p.cm.dims.idxOf d) 0
        let x := fun t : ℕ => p.data.get (i.set (p.cm.dims.idxOf d) t)
        let y := fun t : ℕ => q.data.get (i.set (p.cm.dims.idxOf d) t)
        (∃ a b, ∀ t < n, y t = x t - (a + b * t)) ∧
          ∀ a b, ∑ t ∈ Finset.range n, y t ^ 2 ≤ ∑ t ∈ Finset.range n, (x t - (a + b * t)) ^ 2 := by
  unfold PatchM.detrend at h
  rw [if_pos rfl] at h
  split_ifs at h with hd
  cases h
  refine ⟨rfl, rfl, fun i hi => ?_⟩
  intro n x y
  have ha := dim_axis hsh hd hi
  have hy : ∀ t < n, y t = x t - ((∑ s ∈ Finset.range n, x s) / n +
      (∑ s ∈ Finset.range n, ((s : K) - ((n : K) - 1) / 2) * x s) / (∑ s ∈ Finset.range n, ((s : K) - ((n : K) - 1) / 2) ^ 2) * ((t : K) - ((n : K) - 1) / 2)) := by
    intro t ht
    have hl : lineAt p.data (p.cm.dims.idxOf d) i = (List.range n).map x := rfl
    show (detrendLine (lineAt p.data (p.cm.dims.idxOf d) (i.set (p.cm.dims.idxOf d) t))).getD ((i.set (p.cm.dims.idxOf d) t).getD (p.cm.dims.idxOf d) 0) 0 = _
    rw [lineAt_set, getD_set_self ha, hl]
    unfold detrendLine lineMean
    simp only [mapIdx_range, List.length_map, List.length_range, sum_range_eq]
    rw [List.getD_eq_getElem?_getD, List.getElem?_map, List.getElem?_range ht]
    rfl
  obtain ⟨z0, z1⟩ := leastSquares hy
  have hy' : ∃ a b, ∀ t < n, y t = x t - (a + b * t) := by
    refine ⟨(∑ s ∈ Finset.range n, x s) / n - (∑ s ∈ Finset.range n, ((s : K) - ((n : K) - 1) / 2) * x s) /
      (∑ s ∈ Finset.range n, ((s : K) - ((n : K) - 1) / 2) ^ 2) * (((n : K) - 1) / 2),
      (∑ s ∈ Finset.range n, ((s : K) - ((n : K) - 1) / 2) * x s) / (∑ s ∈ Finset.range n, ((s : K) - ((n : K) - 1) / 2) ^ 2), fun t ht => ?_⟩
    rw [hy t ht]
    ring
  obtain ⟨a, b, hab⟩ := id hy'
  exact ⟨hy', fun a' b' => residual_least hab z0 z1 a' b'⟩

/-- What lies on a straight line is detrended to zero. -/
theorem C72_straight {p q : PatchM K} {d : String} (hsh : p.cm.shape = p.data.shape) (h : p.detrend d true = .ok q) {i : List ℕ} (hi : InRange p.data.shape i)
    {a b : K} (hab : ∀ t < p.data.shape.getD (p.cm.dims.idxOf d) 0, p.data.get (i.set (p.cm.dims.idxOf d) t) = a + b * t) :
    ∀ t < p.data.shape.getD (p.cm.dims.idxOf d) 0, q.data.get (i.set (p.cm.dims.idxOf d) t) = 0 := by
  obtain ⟨-, -, h1⟩ := C72_detrend hsh h
  obtain ⟨-, h2⟩ := h1 i hi
  have h3 := h2 a b
  rw [Finset.sum_eq_zero (s := Finset.range _) (f := fun t : ℕ => (p.data.get (i.set (p.cm.dims.idxOf d) t) - (a + b * t)) ^ 2)
    (fun t ht => by rw [hab t (Finset.mem_range.1 ht)]; ring)] at h3
  intro t ht
  have h4 := (Finset.sum_eq_zero_iff_of_nonneg (fun (s : ℕ) _ => sq_nonneg (q.data.get (i.set (p.cm.dims.idxOf d) s)))).1
    (le_antisymm h3 (Finset.sum_nonneg fun s _ => sq_nonneg _)) t (Finset.mem_range.2 ht)
  exact pow_eq_zero_iff (two_ne_zero) |>.1 h4

/-- Detrending by a constant is demeaning. -/
theorem C72_detrend_constant {p q : PatchM K} {d : String} (hsh : p.cm.shape = p.data.shape) (h : p.detrend d false = .ok q) :
    q.cm = p.cm ∧ q.data.shape = p.data.shape ∧
      ∀ i, InRange p.data.shape i → ∃ m, lineAt q.data (p.cm.dims.idxOf d) i = (lineAt p.data (p.cm.dims.idxOf d) i).map (· - m) ∧
        (lineAt q.data (p.cm.dims.idxOf d) i).sum = 0 := by
  unfold PatchM.detrend at h
  rw [if_neg Bool.false_ne_true] at h
  split_ifs at h with hd
  cases h
  refine ⟨rfl, rfl, fun i hi => ⟨lineMean (lineAt p.data (p.cm.dims.idxOf d) i), ?_⟩⟩
  have e : lineAt (@Nd.eachLine K ⟨0⟩ (fun l => l.map fun x => x - lineMean l) p.data (p.cm.dims.idxOf d)) (p.cm.dims.idxOf d) i =
      (lineAt p.data (p.cm.dims.idxOf d) i).map (· - lineMean (lineAt p.data (p.cm.dims.idxOf d) i)) :=
    @lineAt_eachLine K ⟨0⟩ _ _ _ _ (fun l => by simp) (dim_axis hsh hd hi)
  refine ⟨e, ?_⟩
  show (lineAt (@Nd.eachLine K ⟨0⟩ (fun l => l.map fun x => x - lineMean l) p.data (p.cm.dims.idxOf d)) (p.cm.dims.idxOf d) i).sum = 0
  rw [e]
  exact sum_demeaned

end

/-- Demedianing subtracts one number from all samples of a line, and the median of the result is zero. -/
theorem C72_demedian {p q : PatchM (Option ℚ)} {d : String} (hsh : p.cm.shape = p.data.shape) (h : p.demedian d = .ok q) :
    q.cm = p.cm ∧ q.data.shape = p.data.shape ∧
      ∀ i, InRange p.data.shape i →
        (∃ m, Changed (· - m) (lineAt p.data (p.cm.dims.idxOf d) i) (lineAt q.data (p.cm.dims.idxOf d) i)) ∧
          (known (lineAt p.data (p.cm.dims.idxOf d) i) ≠ [] → IsMedian (known (lineAt q.data (p.cm.dims.idxOf d) i)) 0) := by
  obtain ⟨hd, h1, h2, h3⟩ := eachLine_ok (fun l => by simp) h
  refine ⟨h1, h2, fun i hi => ?_⟩
  have ho := h3 i (dim_axis hsh hd hi)
  set l := lineAt p.data (p.cm.dims.idxOf d) i with hl
  have hc : Changed (· - npMedian false (known l)) l (lineAt q.data (p.cm.dims.idxOf d) i) := ho
  refine ⟨⟨_, hc⟩, fun hne => ?_⟩
  rw [hc, known_map]
  generalize known l = v at hne
  have hm := npMedian_isMedian v
  intro s hp hs
  have hp' : (s.map (· + npMedian false v)).Perm v := by
    have := hp.map (· + npMedian false v)
    rw [List.map_map] at this
    simpa [Function.comp_def] using this
  have hs' : (s.map (· + npMedian false v)).Pairwise (· ≤ ·) := by
    rw [List.pairwise_map]
    exact hs.imp fun h => by simpa using h
  have e := hm _ hp' hs'
  have hlen : s.length = v.length := by rw [hp.length_eq, List.length_map]
  have hv : 0 < v.length := List.length_pos_iff.2 hne
  have hg : ∀ k < v.length, (s.map (· + npMedian false v)).getD k 0 = s.getD k 0 + npMedian false v := by
    intro k hk
    rw [List.getD_eq_getElem?_getD, List.getD_eq_getElem?_getD, List.getElem?_map, List.getElem?_eq_getElem (by omega)]
    rfl
  rw [hg _ (by omega), hg _ (by omega)] at e
  rw [List.length_map]
  linarith

/-! ### Examples -/

/-- Two rows, one of them with a NaN. -/
def exScale (K : Type) [Field K] : PatchM (Option K) :=
  ⟨⟨["y", "x"], [("y", ["y"], .one .int (.range ⟨0, 2, 1, 2⟩)), ("x", ["x"], .one .float (.range ⟨0, 3, 1, 3⟩))]⟩, [2, 3],
    fun i => if i = [0, 0] then some 3 else if i = [0, 1] then some (-4) else if i = [0, 2] then none else some 0⟩

theorem isRoot_real : IsRoot Real.sqrt := fun _ h => ⟨Real.sqrt_nonneg _, Real.mul_self_sqrt h⟩

/-- The hypotheses of `C72_normalize_partial`, `C72_normalize_again` and `C72_standardize_partial` for real numbers. -/
example : IsRoot Real.sqrt ∧ (exScale ℝ).cm.shape = (exScale ℝ).data.shape ∧ InRange (exScale ℝ).data.shape [0, 1] ∧
    lineAt (exScale ℝ).data ((exScale ℝ).cm.dims.idxOf "x") [0, 1] = [some 3, some (-4), none] ∧
    lineAt (exScale ℝ).data ((exScale ℝ).cm.dims.idxOf "x") [1, 1] = [some 0, some 0, some 0] ∧
    (∃ q, (exScale ℝ).normalize Real.sqrt none "x" .l2 = .ok q) ∧ (∃ q, (exScale ℝ).standardize Real.sqrt "x" = .ok q) := by
  refine ⟨isRoot_real, by simp only [exScale]; decide +kernel, .cons (by decide) (.cons (by decide) .nil), ?_, ?_, ?_, ?_⟩
  · simp [exScale, lineAt, List.idxOf, List.findIdx_cons, List.range_succ]
  · simp [exScale, lineAt, List.idxOf, List.findIdx_cons, List.range_succ]
  · exact (C72_normalize_accepted _ _ _ _ _).2.2 (by simp [exScale]) (by simp)
  · unfold PatchM.standardize PatchM.eachLine
    rw [if_neg (not_not.2 (by simp [exScale]))]
    exact ⟨_, rfl⟩

example : ((exScale ℚ).normalize id none "x" .l1).map (fun q => lineAt q.data 1 [0, 1]) = .ok [some (3 / 7), some (-4 / 7), none] ∧
    ((exScale ℚ).normalize id none "x" .max).map (fun q => lineAt q.data 1 [0, 1]) = .ok [some (3 / 4), some (-1), none] ∧
    ((exScale ℚ).normalize id none "x" .bit).map (fun q => lineAt q.data 1 [0, 1]) = .ok [some 1, some (-1), none] ∧
    ((exScale ℚ).normalize id none "x" .max).map (fun q => lineAt q.data 1 [1, 1]) = .ok [some 0, some 0, some 0] ∧
    ((exScale ℚ).demean "x").map (fun q => lineAt q.data 1 [0, 1]) = .ok [some (7 / 2), some (-7 / 2), none] ∧
    ((exScale ℚ).demedian "y").map (fun q => lineAt q.data 0 [0, 1]) = .ok [some (-2), some 2] ∧
    ((exScale ℚ).standardize id "x").map (fun q => lineAt q.data 1 [0, 1]) = .ok [some (2 / 7), some (-2 / 7), none] := by decide +kernel

/-- A row of numbers without NaN. -/
def exLine (v : List ℚ) : PatchM ℚ := ⟨(exRow .float 0 1 v.length).cm, [v.length], fun i => v.getD (i.getD 0 0) 0⟩

/-- The hypotheses of `C72_detrend` and `C72_straight`. -/
example : (exLine [1, 3, 5, 7]).cm.shape = (exLine [1, 3, 5, 7]).data.shape ∧ InRange (exLine [1, 3, 5, 7]).data.shape [2] ∧
    ((exLine [1, 3, 5, 7]).detrend "x" true).map (fun q => lineAt q.data 0 [0]) = .ok [0, 0, 0, 0] ∧
    ((exLine [1, 0, 2]).detrend "x" true).map (fun q => lineAt q.data 0 [0]) = .ok [1 / 2, -1, 1 / 2] ∧
    ((exLine [1, 0, 2]).detrend "x" false).map (fun q => lineAt q.data 0 [0]) = .ok [0, -1, 1] ∧
    ((exLine [1, 0, 2]).detrend "t" false).map (fun q => lineAt q.data 0 [0]) = .error .parameterError :=
  ⟨by decide +kernel, .cons (by decide) .nil, by decide +kernel, by decide +kernel, by decide +kernel, by decide +kernel⟩

/-- A row of samples, NaN or not. -/
def exSamples (v : List (Option ℚ)) : PatchM (Option ℚ) := ⟨(exRow .float 0 1 v.length).cm, [v.length], fun i => (v.getD (i.getD 0 0) none)⟩

/-- The least integer of 16 bits has the sign of a positive number after normalizing by "bit", as by "max" and "l1" where it is alone, and beside others it may
become larger than one. -/
theorem C72_least_violated :
    ((exSamples [some (-32768), some 1]).normalize id (some 16) "x" .bit).map (fun q => lineAt q.data 0 [0]) = .ok [some 1, some 1] ∧
    ((exSamples [some (-32768)]).normalize id (some 16) "x" .max).map (fun q => lineAt q.data 0 [0]) = .ok [some 1] ∧
    ((exSamples [some (-32768), some 32]).normalize id (some 16) "x" .max).map (fun q => lineAt q.data 0 [0]) = .ok [some (-1024), some 1] ∧
    ((exSamples [some (-32768), some 32767]).normalize id (some 16) "x" .l1).map (fun q => lineAt q.data 0 [0]) = .ok [some 32768, some (-32767)] := by
  decide +kernel

/-- Standardizing a line of ones gives NaN, not zeros, though NaN was not there before. -/
theorem C72_constant_violated :
    ((exSamples [some 1, some 1, none]).standardize id "x").map (fun q => lineAt q.data 0 [0]) = .ok [none, none, none] := by decide +kernel

end Verif
