import Verif.Proof.Calculus
/-! # Derivatives and integrals of patches -/
namespace Verif
open Spec

theorem stepFloat_number (k : Kind) (v : ℚ) : stepFloat k v = stepNumber k v := by
  unfold stepFloat stepNumber
  cases k <;> simp; norm_num

/-- What is known about one ordered dimension of a patch. -/
structure Axis {α} (p : PatchM α) (d : String) (s : Spacing) (x : ℕ → ℚ) : Prop where
  run : p.spacing d = .ok (s, p.cm.dims.idxOf d)
  spaced : Spaced s (lenDim p.cm d) x
  place : ∀ i, posAlong p d i < lenDim p.cm d → place p d i = x (posAlong p d i)

theorem shape_dims {α} {p : PatchM α} (hsh : p.cm.shape = p.data.shape) {d : String} (hd : d ∈ p.cm.dims) :
    p.data.shape = p.cm.dims.map (lenDim p.cm) := by
  rw [← hsh]
  unfold CM.shape
  rw [if_neg (by rintro h; rw [h] at hd; cases hd)]
  rfl

theorem shape_getD {α} {p : PatchM α} (hsh : p.cm.shape = p.data.shape) {d : String} (hd : d ∈ p.cm.dims) :
    p.data.shape.getD (p.cm.dims.idxOf d) 0 = lenDim p.cm d := by
  rw [shape_dims hsh hd, List.getD_eq_getElem?_getD, List.getElem?_map, List.getElem?_eq_getElem (List.idxOf_lt_length_of_mem hd)]
  simp

theorem stepNumber_inj {k : Kind} {a b : ℚ} (h : stepNumber k a = stepNumber k b) : a = b := by
  unfold stepNumber at h
  cases k <;> simp at h <;> exact h

theorem axis_of {α} {p : PatchM α} (hm : Regular p.cm) {d : String} (hd : Sequenced p.cm d) : ∃ s x, Axis p d s x := by
  obtain ⟨hd, k, c, hc, hrc⟩ := hd
  have hw : c.Wf := hm.classes _ _ _ _ (Dict.mem_of_get? hc)
  have hn : ∀ n, c ≠ .part n := by rcases hrc with ⟨r, rfl⟩ | ⟨vs, rfl⟩ <;> simp
  have hlen : lenDim p.cm d = c.vals.length := by
    unfold lenDim Ents.lenOf
    rw [hc]
    show c.length = _
    rw [← labels_length hw, labels_vals hn, List.length_map]
  have hplace : ∀ i, posAlong p d i < lenDim p.cm d → place p d i = stepNumber k (c.vals.getD (posAlong p d i) 0) := by
    intro i hi
    rw [hlen] at hi
    unfold place
    rw [label_dim hc, hc, labels_vals hn, List.getD_eq_getElem?_getD, List.getElem?_map, List.getElem?_eq_getElem hi]
    simp [List.getElem?_eq_getElem hi]
  rcases hrc with ⟨r, rfl⟩ | ⟨vs, rfl⟩
  · refine ⟨.dx (stepFloat k r.step), fun t => stepNumber k (r.values.getD t 0), ⟨?_, ?_, hplace⟩⟩
    · unfold PatchM.spacing
      rw [hc]
      simp [hd]
    · have hv : r.Valid := hw
      rw [stepFloat_number]
      refine ⟨?_, fun i hi => ?_⟩
      · intro h0
        have : stepNumber k r.step = stepNumber k 0 := by rw [h0]; unfold stepNumber; cases k <;> simp
        exact hv.step_ne (stepNumber_inj this)
      · rw [hlen] at hi
        change i < r.values.length at hi
        rw [hv.length_values] at hi
        simp only
        rw [hv.values_eq]
        unfold progression
        rw [getD_range_map _ _ _ _ hi, getD_range_map _ _ _ _ (by omega)]
        unfold stepNumber
        cases k <;> simp; ring
  · refine ⟨.places (vs.map (stepFloat k)), fun t => stepNumber k (vs.getD t 0), ⟨?_, ?_, hplace⟩⟩
    · unfold PatchM.spacing
      rw [hc]
      simp [hd]
    · refine ⟨?_, fun i j hij hj => ?_⟩
      · rw [hlen]
        apply List.ext_getElem
        · simp [Coord.vals]
        · intro t h1 h2
          simp at h1
          simp [stepFloat_number, h1]
      · rw [hlen] at hj
        change j < vs.length at hj
        intro h
        have h := stepNumber_inj h
        have hvs : StrictMono' vs := hw.1
        rw [List.getD_eq_getElem?_getD, List.getD_eq_getElem?_getD, List.getElem?_eq_getElem (by omega), List.getElem?_eq_getElem hj] at h
        simp only [Option.getD_some] at h
        rcases hvs with hvs | hvs
        · have := List.pairwise_iff_getElem.1 hvs i j (by omega) hj hij
          rw [h] at this; exact absurd this (lt_irrefl _)
        · have := List.pairwise_iff_getElem.1 hvs i j (by omega) hj hij
          rw [h] at this; exact absurd this (lt_irrefl _)

theorem posAlong_set_self {α} {p : PatchM α} {d : String} (hd : d ∈ p.cm.dims) {i : List ℕ} (hi : i.length = p.cm.dims.length) (t : ℕ) :
    posAlong p d (i.set (p.cm.dims.idxOf d) t) = t := by
  unfold posAlong
  have := List.idxOf_lt_length_of_mem hd
  rw [List.getD_eq_getElem?_getD, List.getElem?_set_self (by omega)]
  rfl

theorem sameLine_set {α} {p : PatchM α} {d : String} (i : List ℕ) (t : ℕ) : SameLine p d i (i.set (p.cm.dims.idxOf d) t) := by
  intro e he hne
  unfold posAlong
  have : p.cm.dims.idxOf d ≠ p.cm.dims.idxOf e := by
    intro h
    have h1 := List.idxOf_lt_length_of_mem he
    have h2 := List.getElem_idxOf (xs := p.cm.dims) h1
    have h3 := List.getElem_idxOf (xs := p.cm.dims) (h ▸ h1 : p.cm.dims.idxOf d < p.cm.dims.length)
    apply hne
    rw [← h2, ← h3]
    congr 1
    exact h.symm
  rw [List.getD_eq_getElem?_getD, List.getElem?_set_ne this, ← List.getD_eq_getElem?_getD]

/-- An index on the same line is one with another position along the dimension. -/
theorem sameLine_eq {α} {p : PatchM α} {d : String} {i j : List ℕ} (hi : i.length = p.cm.dims.length) (hj : j.length = p.cm.dims.length)
    (hnd : p.cm.dims.Nodup) (h : SameLine p d i j) : j = i.set (p.cm.dims.idxOf d) (posAlong p d j) := by
  apply List.ext_getElem
  · simp [hi, hj]
  · intro t h1 h2
    rw [List.getElem_set]
    split
    · rename_i e
      unfold posAlong
      rw [List.getD_eq_getElem?_getD, e, List.getElem?_eq_getElem h1]
      rfl
    · rename_i e
      have hlt : t < p.cm.dims.length := by omega
      have := h (p.cm.dims[t]) (List.getElem_mem hlt) (by
        intro he
        apply e
        rw [← he]
        exact List.Nodup.idxOf_getElem hnd t hlt)
      unfold posAlong at this
      rw [List.Nodup.idxOf_getElem hnd t hlt, List.getD_eq_getElem?_getD, List.getD_eq_getElem?_getD, List.getElem?_eq_getElem h1,
        List.getElem?_eq_getElem (by omega)] at this
      exact this

/-! ### Derivatives -/

theorem gradient_ok {a : Nd ℚ} {s : Spacing} {axis n : ℕ} {x : ℕ → ℚ} (hn : a.shape.getD axis 0 = n) (h3 : 3 ≤ n) (hs : Spaced s n x) :
    a.gradient s axis = .ok (a.alongAxis (gradLine s) axis) := by
  unfold Nd.gradient
  rw [if_neg (by omega)]
  cases s with
  | dx h => rfl
  | places xs =>
    obtain ⟨rfl, _⟩ := hs
    simp only [List.length_map, List.length_range]
    rw [if_pos hn.symm]

theorem gradient_short {a : Nd ℚ} {s : Spacing} {axis : ℕ} (h : a.shape.getD axis 0 < 3) : a.gradient s axis = .error .valueError := by
  unfold Nd.gradient
  rw [if_pos h]

/-- The array of every `step`-th sample. -/
theorem stride_shape {a : Nd ℚ} {axis step r n : ℕ} (hax : axis < a.shape.length) (_ : a.shape.getD axis 0 = n) :
    (a.takeAxis axis (strideIdx n step r)).shape.getD axis 0 = (n - r + step - 1) / step := by
  show (a.shape.set axis _).getD axis 0 = _
  rw [List.getD_eq_getElem?_getD, List.getElem?_set_self hax, strideIdx_length]
  rfl

theorem stride_line {a : Nd ℚ} {axis step r n : ℕ} (hax : axis < a.shape.length) (hn : a.shape.getD axis 0 = n) {i : List ℕ}
    (hi : i.length = a.shape.length) (t : ℕ) :
    (a.takeAxis axis (strideIdx n step r)).lineThrough axis (i.set axis t) =
      (List.range ((n - r + step - 1) / step)).map fun j => a.get (i.set axis (r + step * j)) := by
  unfold Nd.lineThrough
  rw [stride_shape hax hn]
  apply List.map_congr_left
  intro j hj
  rw [List.mem_range] at hj
  show a.get ((((i.set axis t).set axis j)).set axis _) = _
  rw [List.set_set, List.set_set]
  congr 2
  rw [List.set_set, List.getD_eq_getElem?_getD (l := i.set axis j), List.getElem?_set_self (by omega)]
  simp only [Option.getD_some]
  exact strideIdx_getD (by rw [strideIdx_length]; exact hj)

/-- Differentiation with strides of a patch with floats; with a stride of one, of any patch. -/
theorem differentiate_spec {p : PatchM ℚ} (hm : Regular p.cm) (hsh : p.cm.shape = p.data.shape) {d : String} (hd : Sequenced p.cm d)
    {step : ℕ} (h0 : 0 < step) (h3 : 3 * step ≤ lenDim p.cm d) {isInt : Bool} (hint : isInt = false ∨ step = 1) :
    ∃ q, p.differentiate isInt (some [d]) step = .ok q ∧ Derivative p q d step := by
  obtain ⟨s, x, hax⟩ := axis_of hm hd
  have hdim := hd.1
  set n := lenDim p.cm d with hn
  set axis := p.cm.dims.idxOf d with haxis
  have hnd : p.cm.dims.Nodup := hm.distinct
  have hshape := shape_dims hsh hdim
  have hgn : p.data.shape.getD axis 0 = n := shape_getD hsh hdim
  have hlt : axis < p.data.shape.length := by
    rw [hshape, List.length_map]; exact List.idxOf_lt_length_of_mem hdim
  have hlen : ∀ i, InRange p.data.shape i → i.length = p.cm.dims.length := by
    intro i hi; rw [inRange_length hi, hshape, List.length_map]
  have hpos : ∀ i, InRange p.data.shape i → posAlong p d i < n := by
    intro i hi
    rw [hshape] at hi
    exact inRange_getD hi hdim
  have hplace : ∀ i, InRange p.data.shape i → ∀ t < n, place p d (i.set axis t) = x t := by
    intro i hi t ht
    have := posAlong_set_self hdim (hlen i hi) t
    rw [hax.place _ (by rw [this]; exact ht), this]
  -- the value of the result
  obtain ⟨b, hb, hbs, hval⟩ : ∃ b, diffData isInt p.data [(s, axis)] step = .ok b ∧
      b.shape = p.data.shape ∧ ∀ i, InRange p.data.shape i → b.get i =
        (gradLine (s.every step (posAlong p d i % step)) ((List.range ((n - posAlong p d i % step + step - 1) / step)).map fun j =>
          p.data.get (i.set axis (posAlong p d i % step + step * j)))).getD (posAlong p d i / step) 0 := by
    by_cases h1 : 1 < step
    · have hrun : diffData isInt p.data [(s, axis)] step = stridedDiff isInt p.data [(s, axis)] step := by
        unfold diffData
        rw [if_pos (by exact_mod_cast h1), Int.toNat_natCast]
      rw [hrun]
      have hint' : isInt = false := hint.resolve_right (by omega)
      subst hint'
      have hsub : (List.range step).mapM (fun r => (p.data.takeAxis axis (strideIdx (p.data.shape.getD axis 0) step r)).gradient (s.every step r) axis) =
          .ok ((List.range step).map fun r => (p.data.takeAxis axis (strideIdx n step r)).alongAxis (gradLine (s.every step r)) axis) := by
        apply mapM_ok'
        intro r hr
        rw [List.mem_range] at hr
        rw [hgn]
        have hge : 3 ≤ (n - r + step - 1) / step := by
          rw [Nat.le_div_iff_mul_le h0]; omega
        exact gradient_ok (stride_shape hlt hgn) hge (hax.spaced.every h0 (by omega))
      have hrun2 : stridedDiff false p.data [(s, axis)] step = .ok ⟨p.data.shape, fun i => storeIn false
          (((((List.range step).map fun r => (p.data.takeAxis axis (strideIdx n step r)).alongAxis (gradLine (s.every step r)) axis)[i.getD axis 0 % step]?).map
            fun b => b.get (i.set axis (i.getD axis 0 / step))).getD 0)⟩ := by
        unfold stridedDiff
        simp only [bind, Except.bind, pure, Except.pure]
        rw [hsub]
      refine ⟨_, hrun2, rfl, ?_⟩
      intro i hi
      have hr : posAlong p d i % step < step := Nat.mod_lt _ h0
      have hgi : i.getD axis 0 = posAlong p d i := rfl
      simp only [storeIn, Bool.false_eq_true, if_false]
      rw [hgi, List.getElem?_map, List.getElem?_range hr]
      simp only [Option.map_some, Option.getD_some]
      show (gradLine _ (Nd.lineThrough _ axis _)).getD ((i.set axis _).getD axis 0) 0 = _
      have hil : axis < i.length := by rw [hlen i hi]; exact List.idxOf_lt_length_of_mem hdim
      rw [stride_line hlt hgn (by rw [hlen i hi, hshape, List.length_map]), List.getD_eq_getElem?_getD (l := i.set axis _),
        List.getElem?_set_self hil]
      rfl
    · have h1' : step = 1 := by omega
      subst h1'
      have hrun : diffData isInt p.data [(s, axis)] (1 : ℕ) = .ok (p.data.alongAxis (gradLine s) axis) := by
        unfold diffData
        rw [if_neg (by simp)]
        unfold gradDiff
        simp only [List.foldlM_cons, List.foldlM_nil]
        rw [gradient_ok hgn (by omega) hax.spaced]
        rfl
      refine ⟨_, hrun, rfl, ?_⟩
      intro i hi
      have hgi : i.getD axis 0 = posAlong p d i := rfl
      show (gradLine s (Nd.lineThrough p.data axis i)).getD (i.getD axis 0) 0 = _
      rw [hgi, Nat.mod_one, Nat.div_one]
      unfold Nd.lineThrough
      rw [hgn]
      have e : gradLine (s.every 1 0) = gradLine s := by
        cases s with
        | dx h => simp [Spacing.every]
        | places xs =>
          have : takeIdx xs (strideIdx xs.length 1 0) = xs := by
            unfold strideIdx
            simp only [Nat.sub_zero, Nat.add_sub_cancel, Nat.div_one, zero_add, one_mul, List.map_id']
            exact takeIdx_range_self xs
          simp [Spacing.every, this]
      rw [e]
      simp
  refine ⟨⟨p.cm, b⟩, ?_, rfl, hbs, ?_, ?_⟩
  · unfold PatchM.differentiate
    simp only [Option.getD_some, List.mapM_cons, List.mapM_nil, bind, Except.bind, pure, Except.pure, hax.run]
    rw [hb]
  · intro i hi a b' c hf
    show b.get i = _
    rw [hval i hi]
    have hr : posAlong p d i % step < step := Nat.mod_lt _ h0
    have hge : 3 ≤ (n - posAlong p d i % step + step - 1) / step := by
      rw [Nat.le_div_iff_mul_le h0]; omega
    have hpi := hpos i hi
    have hdm : posAlong p d i % step + step * (posAlong p d i / step) = posAlong p d i := Nat.mod_add_div _ _
    rw [gradLine_exact hge (hax.spaced.every h0 (by omega)) (a := a) (b := b') (c := c) ?_ (by rw [stride_lt h0, hdm]; exact hpi)]
    · show b' + 2 * c * x _ = _
      rw [hdm, ← hax.place i hpi]
    · intro j hj
      rw [stride_lt h0] at hj
      have hir : InRange p.data.shape (i.set axis (posAlong p d i % step + step * j)) := inRange_set hi (by rw [hgn]; exact hj)
      rw [hf _ hir (sameLine_set _ _) (by
        rw [posAlong_set_self hdim (hlen i hi), Nat.add_mul_mod_self_left, Nat.mod_mod]), hplace i hi _ hj]
  · intro i j k hi hj hk hij hik h1 h2 he
    show b.get i = _
    rw [hval i hi]
    have hr : posAlong p d i % step < step := Nat.mod_lt _ h0
    have hpk := hpos k hk
    have hpi := hpos i hi
    have hpj := hpos j hj
    have ej := sameLine_eq (hlen i hi) (hlen j hj) hnd hij
    have ek := sameLine_eq (hlen i hi) (hlen k hk) hnd hik
    set r := posAlong p d j % step with hrdef
    set m := posAlong p d j / step with hmdef
    have hj' : posAlong p d j = r + step * m := (Nat.mod_add_div _ _).symm
    have hi' : posAlong p d i = r + step * (m + 1) := by rw [← h1, hj']; ring
    have hk' : posAlong p d k = r + step * (m + 2) := by rw [← h2, hi']; ring
    have hrr : r < step := Nat.mod_lt _ h0
    have e1 : posAlong p d i % step = r := by rw [hi', Nat.add_mul_mod_self_left, Nat.mod_eq_of_lt hrr]
    have e2 : posAlong p d i / step = m + 1 := by
      rw [hi', Nat.add_mul_div_left _ _ h0, Nat.div_eq_of_lt hrr]; omega
    rw [e1, e2]
    have pj : place p d j = x (r + step * m) := by rw [hax.place j hpj, hj']
    have pi : place p d i = x (r + step * (m + 1)) := by rw [hax.place i hpi, hi']
    have pk : place p d k = x (r + step * (m + 2)) := by rw [hax.place k hpk, hk']
    rw [gradLine_central (hax.spaced.every h0 (r := r) (by omega)) (i := m) (by rw [stride_lt h0, ← hk']; exact hpk) (by
      show x _ - x _ = x _ - x _
      rw [← pj, ← pi, ← pk]; exact he)]
    rw [← pj, ← pk, ← hj', ← hk', ← ej, ← ek]

theorem mapM_first_error {α β ε} {f : α → Except ε β} {e : ε} {l : List α} (h : ∀ a ∈ l, f a = .error e ∨ ∃ b, f a = .ok b)
    (hx : ∃ a ∈ l, f a = .error e) : l.mapM f = .error e := by
  induction l with
  | nil => obtain ⟨a, ha, _⟩ := hx; cases ha
  | cons a l ih =>
    rw [List.mapM_cons]
    rcases h a (by simp) with h1 | ⟨b, h1⟩
    · rw [h1]; rfl
    · rw [h1]
      obtain ⟨a', ha', he⟩ := hx
      rcases List.mem_cons.1 ha' with rfl | ha'
      · rw [h1] at he; cases he
      · have := ih (fun a ha => h a (List.mem_cons_of_mem _ ha)) ⟨a', ha', he⟩
        simp only [bind, Except.bind]
        rw [this]

/-- Too few samples. -/
theorem differentiate_short {p : PatchM ℚ} (hm : Regular p.cm) (hsh : p.cm.shape = p.data.shape) {d : String} (hd : Sequenced p.cm d)
    {step : ℕ} (h0 : 0 < step) (h3 : lenDim p.cm d < 3 * step) (isInt : Bool) : p.differentiate isInt (some [d]) step = .error .valueError := by
  obtain ⟨s, x, hax⟩ := axis_of hm hd
  have hdim := hd.1
  have hgn := shape_getD hsh hdim
  have hlt : p.cm.dims.idxOf d < p.data.shape.length := by
    rw [shape_dims hsh hdim, List.length_map]; exact List.idxOf_lt_length_of_mem hdim
  unfold PatchM.differentiate
  simp only [Option.getD_some, List.mapM_cons, List.mapM_nil, bind, Except.bind, pure, Except.pure, hax.run]
  unfold diffData
  by_cases h1 : 1 < step
  · rw [if_pos (by exact_mod_cast h1)]
    unfold stridedDiff
    simp only [Int.toNat_natCast, bind, Except.bind]
    have : (List.range step).mapM (fun r => (p.data.takeAxis (p.cm.dims.idxOf d) (strideIdx (p.data.shape.getD (p.cm.dims.idxOf d) 0) step r)).gradient
        (s.every step r) (p.cm.dims.idxOf d)) = .error .valueError := by
      apply mapM_first_error
      · intro r hr
        rw [List.mem_range] at hr
        by_cases hc : (lenDim p.cm d - r + step - 1) / step < 3
        · exact Or.inl (gradient_short (by rw [stride_shape hlt rfl, hgn]; exact hc))
        · right
          rw [hgn]
          rw [Nat.not_lt, Nat.le_div_iff_mul_le h0] at hc
          exact ⟨_, gradient_ok (stride_shape hlt hgn) (by rw [Nat.le_div_iff_mul_le h0]; exact hc) (hax.spaced.every h0 (by omega))⟩
      · refine ⟨step - 1, by rw [List.mem_range]; omega, gradient_short ?_⟩
        rw [stride_shape hlt rfl, hgn, Nat.div_lt_iff_lt_mul h0]
        omega
    rw [this]
  · have h1' : step = 1 := by omega
    subst h1'
    rw [if_neg (by simp)]
    unfold gradDiff
    simp only [List.foldlM_cons, List.foldlM_nil]
    rw [gradient_short (by rw [hgn]; omega)]
    rfl

end Verif
