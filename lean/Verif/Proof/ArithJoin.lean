import Verif.Proof.Arith
/-! # Lemmas: the result of arithmetic between patches -/
namespace Verif
open Spec

/-- The dimensions of the result. -/
def joinDims' (a b : List String) : List String := a ++ b.filter fun d => d ∉ a

theorem mem_joinDims' {a b : List String} {d : String} : d ∈ joinDims' a b ↔ d ∈ a ∨ d ∈ b := by
  unfold joinDims'
  rw [List.mem_append, List.mem_filter]
  by_cases h : d ∈ a <;> simp [h]

theorem joinDims'_nodup {a b : List String} (ha : a.Nodup) (hb : b.Nodup) : (joinDims' a b).Nodup := by
  unfold joinDims'
  refine List.nodup_append.2 ⟨ha, hb.filter _, ?_⟩
  intro x hx y hy hxy
  subst hxy
  simp [hx] at hy

theorem getD_of_getElem? {l : List (Option ℚ)} {t : ℕ} {v : ℚ} (h : l.getD t none = some v) : l[t]? = some (some v) := by
  rw [List.getD_eq_getElem?_getD] at h
  cases h1 : l[t]? with
  | none => rw [h1] at h; cases h
  | some w => rw [h1] at h; simpa using h

theorem not_part_of_some {x : Coord} {t : ℕ} {v : ℚ} (h : x.labels.getD t none = some v) : ∀ n, x ≠ .part n := by
  rintro n rfl
  have := List.mem_of_getElem? (getD_of_getElem? h)
  simp [Coord.labels] at this

theorem part_none {n t : ℕ} : (Coord.part n).labels.getD t none = none := by
  cases h : (Coord.part n).labels.getD t none with
  | none => rfl
  | some v => exact absurd rfl (not_part_of_some h n)

theorem none_not_mem {x : Coord} (h : ∀ n, x ≠ .part n) : ∀ v ∈ x.labels, v ≠ none := by
  rw [labels_vals h]
  intro v hv
  obtain ⟨w, _, rfl⟩ := List.mem_map.1 hv
  simp

theorem mem_takeIdx' {α} {l : List α} {ps : List ℕ} {v : α} (h : v ∈ takeIdx l ps) : v ∈ l := by
  unfold takeIdx at h
  obtain ⟨j, _, hj⟩ := List.mem_filterMap.1 h
  exact List.mem_of_getElem? hj

section
variable {α β γ : Type} {f : α → β → γ} {p p'' : PatchM α} {q q'' : PatchM β} {r : PatchM γ} {P Q : String → List ℕ}

theorem sides (hp : Regular p.cm) (hq : Regular q.cm) (hpl : DimsListed p.cm) (hql : DimsListed q.cm)
    (hLp : Lay p p'' (joinDims' p.cm.dims q.cm.dims) P) (hLq : Lay q q'' (joinDims' p.cm.dims q.cm.dims) Q)
    (hG : ∀ d k c k' c', d ∈ p.cm.dims → d ∈ q.cm.dims → p.cm.ents.get? d = some ([d], .one k c) → q.cm.ents.get? d = some ([d], .one k' c') →
      Glued c.labels c'.labels (P d) (Q d))
    (hPs : ∀ d ∈ p.cm.dims, d ∉ q.cm.dims → P d = List.range (lenDim p.cm d))
    (hQs : ∀ d ∈ q.cm.dims, d ∉ p.cm.dims → Q d = List.range (lenDim q.cm d))
    (hM : Merged p''.cm q''.cm r.cm)
    (hB : ∀ d ∈ joinDims' p.cm.dims q.cm.dims, ((P d).length = (Q d).length ∧ lenDim r.cm d = (P d).length) ∨
      ((P d).length = 1 ∧ lenDim r.cm d = (Q d).length) ∨ ((Q d).length = 1 ∧ lenDim r.cm d = (P d).length))
    (hrlen : ∀ d k z, r.cm.ents.get? d = some ([d], .one k z) → lenDim r.cm d = z.length) :
    Side p r (joinDims' p.cm.dims q.cm.dims) P ∧ Side q r (joinDims' p.cm.dims q.cm.dims) Q := by
  set D := joinDims' p.cm.dims q.cm.dims with hD
  have hrd : r.cm.dims = D := by rw [hM.dims, hLp.dims]
  have hsp : ∀ d ∈ p.cm.dims, d ∈ D := fun d h => mem_joinDims'.2 (Or.inl h)
  have hsq : ∀ d ∈ q.cm.dims, d ∈ D := fun d h => mem_joinDims'.2 (Or.inr h)
  -- the coordinates of both laid out patches
  have hx : ∀ d ∈ D, ∃ k x, p''.cm.ents.get? d = some ([d], .one k x) ∧ x.Wf ∧ Storable x.vals ∧
      (∀ k' c, d ∈ p.cm.dims → p.cm.ents.get? d = some ([d], .one k' c) → x.labels = takeIdx c.labels (P d)) ∧
      (d ∉ p.cm.dims → x = .part 1 ∧ P d = [0]) := by
    intro d hd
    by_cases h : d ∈ p.cm.dims
    · obtain ⟨k, c, hc⟩ := hpl d h
      obtain ⟨x, h1, h2, h3, h4⟩ := hLp.own d h k c hc
      refine ⟨k, x, h1, h2, h3, ?_, fun h' => absurd h h'⟩
      intro k' c' _ hc'
      rw [hc] at hc'; cases hc'
      exact h4
    · obtain ⟨h1, h2⟩ := hLp.new d hd h
      exact ⟨_, _, h2, trivial, Or.inl (by simp [Coord.vals]), fun _ _ h' => absurd h' h, fun _ => ⟨rfl, h1⟩⟩
  have hy : ∀ d ∈ D, ∃ k y, q''.cm.ents.get? d = some ([d], .one k y) ∧ y.Wf ∧ Storable y.vals ∧
      (∀ k' c, d ∈ q.cm.dims → q.cm.ents.get? d = some ([d], .one k' c) → y.labels = takeIdx c.labels (Q d)) ∧
      (d ∉ q.cm.dims → y = .part 1 ∧ Q d = [0]) := by
    intro d hd
    by_cases h : d ∈ q.cm.dims
    · obtain ⟨k, c, hc⟩ := hql d h
      obtain ⟨x, h1, h2, h3, h4⟩ := hLq.own d h k c hc
      refine ⟨k, x, h1, h2, h3, ?_, fun h' => absurd h h'⟩
      intro k' c' _ hc'
      rw [hc] at hc'; cases hc'
      exact h4
    · obtain ⟨h1, h2⟩ := hLq.new d hd h
      exact ⟨_, _, h2, trivial, Or.inl (by simp [Coord.vals]), fun _ _ h' => absurd h' h, fun _ => ⟨rfl, h1⟩⟩
  have hxl : ∀ d ∈ D, ∀ k x, p''.cm.ents.get? d = some ([d], .one k x) → x.length = (P d).length := by
    intro d hd k x h1
    rw [← hLp.lens hd]
    unfold lenDim Ents.lenOf
    rw [h1]; rfl
  have hyl : ∀ d ∈ D, ∀ k x, q''.cm.ents.get? d = some ([d], .one k x) → x.length = (Q d).length := by
    intro d hd k x h1
    rw [← hLq.lens hd]
    unfold lenDim Ents.lenOf
    rw [h1]; rfl
  have hboth : ∀ d ∈ D, (∃ kz z, r.cm.ents.get? d = some ([d], .one kz z) ∧
      (∀ k c, d ∈ p.cm.dims → p.cm.ents.get? d = some ([d], .one k c) → ∀ t < lenDim r.cm d, ∀ v,
        (takeIdx c.labels (P d)).getD (clipped (P d).length t) none = some v → z.labels.getD t none = some v) ∧
      (∀ k c, d ∈ q.cm.dims → q.cm.ents.get? d = some ([d], .one k c) → ∀ t < lenDim r.cm d, ∀ v,
        (takeIdx c.labels (Q d)).getD (clipped (Q d).length t) none = some v → z.labels.getD t none = some v)) := by
    intro d hd
    obtain ⟨kx, x, x1, x2, x3, x4, x5⟩ := hx d hd
    obtain ⟨ky, y, y1, y2, y3, y4, y5⟩ := hy d hd
    obtain ⟨kz, z, z1, z2, z3⟩ := hM.own d (by rw [hLp.dims]; exact hd) kx x ky y x1 y1 x2 y2 x3 y3
    have hN := hrlen d kz z z1
    have hclip : ∀ {n t : ℕ}, t < n → clipped n t = t := by
      intro n t ht; unfold clipped; split_ifs <;> omega
    refine ⟨kz, z, z1, ?_, ?_⟩
    · intro k c hdp hc t ht v hv
      rw [← x4 k c hdp hc] at hv
      have hxp := not_part_of_some hv
      obtain ⟨e1, e2⟩ := z2 hxp
      rw [e1]
      rwa [hclip (by rw [← hxl d hd kx x x1, ← e2, ← hN]; exact ht)] at hv
    · intro k c hdq hc t ht v hv
      rw [← y4 k c hdq hc] at hv
      have hyp := not_part_of_some hv
      by_cases hxp : ∃ e, x = .part e
      · obtain ⟨e1, this⟩ := z3 hxp hyp (by omega)
        rw [e1]
        rwa [hclip (by rw [← hyl d hd ky y y1, ← this, ← hN]; exact ht)] at hv
      · have hxp' : ∀ e, x ≠ .part e := fun e he => hxp ⟨e, he⟩
        obtain ⟨e1, e2⟩ := z2 hxp'
        rw [e1]
        have hdp : d ∈ p.cm.dims := by
          by_contra hc'
          exact hxp ⟨1, (x5 hc').1⟩
        obtain ⟨k0, c0, hc0⟩ := hpl d hdp
        have hxlab := x4 k0 c0 hdp hc0
        have hylab := y4 k c hdq hc
        have htx : t < (P d).length := by rw [← hxl d hd kx x x1, ← e2, ← hN]; exact ht
        rcases hG d k0 c0 k c hdp hdq hc0 hc with ⟨_, _, h3, _⟩ | ⟨h1, h2, h3⟩
        · rw [hxlab, h3, ← hylab]
          have : (P d).length = (Q d).length := by
            rw [← hxl d hd kx x x1, ← hyl d hd ky y y1, ← labels_length x2, ← labels_length y2, hxlab, hylab, h3]
          rw [this] at htx
          rwa [hclip htx] at hv
        · exfalso
          rcases h1 with h1 | h1
          · have hv0 : x.labels.length = (P d).length := by rw [labels_length x2, hxl d hd kx x x1]
            have hmem : x.labels[t]'(by omega) ∈ x.labels := List.getElem_mem _
            refine none_not_mem hxp' _ hmem (h1 _ (mem_takeIdx' (ps := P d) ?_))
            rw [← hxlab]; exact hmem
          · have hmem := List.mem_of_getElem? (getD_of_getElem? hv)
            rw [hylab] at hmem
            have := h1 _ (mem_takeIdx' hmem)
            cases this
  refine ⟨⟨hsp, hrd, ?_, ?_, ?_⟩, ⟨hsq, hrd, ?_, ?_, ?_⟩⟩
  · intro d hd h1
    rcases hB d (hsp d hd) with h | h | h
    · exact h.2
    · exact absurd h.1 h1
    · exact h.2
  · intro d hd k c hc
    obtain ⟨kz, z, z1, z2, _⟩ := hboth d (hsp d hd)
    exact ⟨kz, z, z1, z2 k c hd hc⟩
  · rintro d hd k c hc ⟨t, ht, hv⟩
    by_cases hdq : d ∈ q.cm.dims
    · obtain ⟨k', c', hc'⟩ := hql d hdq
      rcases hG d k c k' c' hd hdq hc hc' with ⟨h1, _, _, _⟩ | ⟨_, h2, _⟩
      · exfalso
        have hl : t < (takeIdx c.labels (P d)).length := by
          rw [takeIdx_length]
          · exact ht
          · intro j hj
            rw [labels_length (hp.classes _ _ _ _ (Dict.mem_of_get? hc)), (dim_one hp hd hc).2]
            exact hLp.bound d hd j hj
        rw [List.getD_eq_getElem?_getD, List.getElem?_eq_getElem hl] at hv
        exact h1 _ (mem_takeIdx' (List.getElem_mem hl)) hv
      · rw [h2, labels_length (hp.classes _ _ _ _ (Dict.mem_of_get? hc)), (dim_one hp hd hc).2]; rfl
    · exact hPs d hd hdq
  · intro d hd h1
    rcases hB d (hsq d hd) with h | h | h
    · rw [← h.1]; exact h.2
    · exact h.2
    · exact absurd h.1 h1
  · intro d hd k c hc
    obtain ⟨kz, z, z1, _, z2⟩ := hboth d (hsq d hd)
    exact ⟨kz, z, z1, z2 k c hd hc⟩
  · rintro d hd k c hc ⟨t, ht, hv⟩
    by_cases hdp : d ∈ p.cm.dims
    · obtain ⟨k', c', hc'⟩ := hpl d hdp
      rcases hG d k' c' k c hdp hd hc' hc with ⟨_, h1, _, _⟩ | ⟨_, _, h2⟩
      · exfalso
        have hl : t < (takeIdx c.labels (Q d)).length := by
          rw [takeIdx_length]
          · exact ht
          · intro j hj
            rw [labels_length (hq.classes _ _ _ _ (Dict.mem_of_get? hc)), (dim_one hq hd hc).2]
            exact hLq.bound d hd j hj
        rw [List.getD_eq_getElem?_getD, List.getElem?_eq_getElem hl] at hv
        exact h1 _ (mem_takeIdx' (List.getElem_mem hl)) hv
      · rw [h2, labels_length (hq.classes _ _ _ _ (Dict.mem_of_get? hc)), (dim_one hq hd hc).2]; rfl
    · exact hQs d hd hdp

theorem join_combined (hp : Regular p.cm) (hq : Regular q.cm) (hpl : DimsListed p.cm) (hql : DimsListed q.cm)
    (hpd : p.cm.dims ≠ []) (hqd : q.cm.dims ≠ []) (hps : p.cm.shape = p.data.shape) (hqs : q.cm.shape = q.data.shape)
    (hJ : Joinable p.cm q.cm)
    (hLp : Lay p p'' (joinDims' p.cm.dims q.cm.dims) P) (hLq : Lay q q'' (joinDims' p.cm.dims q.cm.dims) Q)
    (hG : ∀ d k c k' c', d ∈ p.cm.dims → d ∈ q.cm.dims → p.cm.ents.get? d = some ([d], .one k c) → q.cm.ents.get? d = some ([d], .one k' c') →
      Glued c.labels c'.labels (P d) (Q d))
    (hPs : ∀ d ∈ p.cm.dims, d ∉ q.cm.dims → P d = List.range (lenDim p.cm d))
    (hQs : ∀ d ∈ q.cm.dims, d ∉ p.cm.dims → Q d = List.range (lenDim q.cm d))
    (hPu : ∀ d ∈ p.cm.dims, Undisturbed p.cm q.cm d → P d = List.range (lenDim p.cm d))
    {cm : CM} {a : Nd γ} (hM : Merged p''.cm q''.cm cm) (h2 : Nd.zipWith f p''.data q''.data = .ok a)
    (h3 : PatchM.new cm a = .ok r) : Combined f p q r := by
  obtain ⟨rfl, hsh⟩ := new_ok h3
  set D := joinDims' p.cm.dims q.cm.dims with hD
  have hsp : ∀ d ∈ p.cm.dims, d ∈ D := fun d h => mem_joinDims'.2 (Or.inl h)
  have hsq : ∀ d ∈ q.cm.dims, d ∈ D := fun d h => mem_joinDims'.2 (Or.inr h)
  have hDn : D.Nodup := joinDims'_nodup hp.distinct hq.distinct
  have hDne : D ≠ [] := by
    obtain ⟨d0, hd0⟩ := List.exists_mem_of_ne_nil _ hpd
    exact List.ne_nil_of_mem (hsp d0 hd0)
  have hrd : cm.dims = D := by rw [hM.dims, hLp.dims]
  have hash : a.shape = D.map (lenDim cm) := by
    have := shape_lenOf (by rw [hrd]; exact hDne) hsh
    rw [hrd] at this; exact this
  obtain ⟨hB, hval⟩ := zipWith_spec hLp.shape hLq.shape hash h2
  have hrlen : ∀ d k z, cm.ents.get? d = some ([d], .one k z) → lenDim cm d = z.length := by
    intro d k z hz
    unfold lenDim Ents.lenOf
    rw [hz]; rfl
  obtain ⟨hSp, hSq⟩ := sides (r := ⟨cm, a⟩) hp hq hpl hql hLp hLq hG hPs hQs hM hB hrlen
  have hil : ∀ i, InRange a.shape i → i.length = D.length := by
    intro i hi
    have := inRange_length hi
    rw [hash] at this
    simpa using this
  have hposlt : ∀ i, InRange a.shape i → ∀ d ∈ D, i.getD (D.idxOf d) 0 < lenDim cm d := by
    intro i hi d hd
    rw [hash] at hi
    exact inRange_getD hi hd
  have hposd : ∀ (i : List ℕ) (d : String), posAlong (⟨cm, a⟩ : PatchM γ) d i = i.getD (D.idxOf d) 0 := by
    intro i d
    unfold posAlong
    rw [hrd]
  -- values
  have hval' : ∀ i, InRange a.shape i → a.get i = f (p.data.get (sourceOf p (⟨cm, a⟩ : PatchM γ) P i)) (q.data.get (sourceOf q (⟨cm, a⟩ : PatchM γ) Q i)) := by
    intro i hi
    have hcp : InRange p''.data.shape (Nd.clip p''.data.shape i) := by
      refine clip_inRange (by rw [hLp.shape, hil i hi]; simp) ?_
      intro k n t hn ht h1
      rw [hLp.shape, List.getElem?_map] at hn
      obtain ⟨d, hd, rfl⟩ := Option.map_eq_some_iff.1 hn
      have hdm := List.mem_of_getElem? hd
      have hlt := hposlt i hi d hdm
      have hk : D.idxOf d = k := by
        obtain ⟨hk', hk''⟩ := List.getElem?_eq_some_iff.1 hd
        rw [← hk'']; exact hDn.idxOf_getElem k hk'
      rw [hk, List.getD_eq_getElem?_getD, ht] at hlt
      rcases hB d hdm with g | g | g
      · simp only [Option.getD_some] at hlt; omega
      · exact absurd g.1 h1
      · simp only [Option.getD_some] at hlt; omega
    have hcq : InRange q''.data.shape (Nd.clip q''.data.shape i) := by
      refine clip_inRange (by rw [hLq.shape, hil i hi]; simp) ?_
      intro k n t hn ht h1
      rw [hLq.shape, List.getElem?_map] at hn
      obtain ⟨d, hd, rfl⟩ := Option.map_eq_some_iff.1 hn
      have hdm := List.mem_of_getElem? hd
      have hlt := hposlt i hi d hdm
      have hk : D.idxOf d = k := by
        obtain ⟨hk', hk''⟩ := List.getElem?_eq_some_iff.1 hd
        rw [← hk'']; exact hDn.idxOf_getElem k hk'
      rw [hk, List.getD_eq_getElem?_getD, ht] at hlt
      rcases hB d hdm with g | g | g
      · simp only [Option.getD_some] at hlt; omega
      · simp only [Option.getD_some] at hlt; omega
      · exact absurd g.1 h1
    rw [hval i, hLp.data _ hcp, hLq.data _ hcq]
    unfold sourceOf
    congr 2
    · refine List.map_congr_left fun d hd => ?_
      rw [hLp.shape, clip_getD (hil i hi) (hsp d hd), hposd]
    · refine List.map_congr_left fun d hd => ?_
      rw [hLq.shape, clip_getD (hil i hi) (hsq d hd), hposd]
  refine ⟨?_, ?_, ?_, ?_, ?_⟩
  · exact hrd
  · intro i hi
    obtain ⟨a1, a2, a3, a4⟩ := side_stands hp hpl hpd hps hsh hLp hSp hi
    obtain ⟨b1, b2, b3, b4⟩ := side_stands hq hql hqd hqs hsh hLq hSq hi
    refine ⟨_, _, a1, b1, ?_, a2, b2, hval' i hi⟩
    intro d hdp hdq
    obtain ⟨k, c, hc⟩ := hpl d hdp
    obtain ⟨k', c', hc'⟩ := hql d hdq
    refine ⟨?_, ?_⟩
    · intro v w hv hw
      have e1 := (a2 d hdp).1 v hv
      have e2 := (b2 d hdq).1 w hw
      rw [e1] at e2
      injection e2 with e2; injection e2
    · intro hnul
      have hgl := hG d k c k' c' hdp hdq hc hc'
      have hlc : c.labels.length = lenDim p.cm d := by
        rw [labels_length (hp.classes _ _ _ _ (Dict.mem_of_get? hc)), (dim_one hp hdp hc).2]; rfl
      have hlc' : c'.labels.length = lenDim q.cm d := by
        rw [labels_length (hq.classes _ _ _ _ (Dict.mem_of_get? hc')), (dim_one hq hdq hc').2]; rfl
      have hPQ : P d = List.range (lenDim p.cm d) ∧ Q d = List.range (lenDim q.cm d) := by
        rcases hgl with ⟨g1, g2, _, _⟩ | ⟨_, g2, g3⟩
        · exfalso
          have hno : ∀ (l : List (Option ℚ)) (R : List ℕ) (t : ℕ), (∀ x ∈ l, x ≠ none) → (∀ j ∈ R, j < l.length) → t < R.length →
              (takeIdx l R).getD t none ≠ none := by
            intro l R t hl hR ht
            have : t < (takeIdx l R).length := by rw [takeIdx_length hR]; exact ht
            rw [List.getD_eq_getElem?_getD, List.getElem?_eq_getElem this]
            exact hl _ (mem_takeIdx' (List.getElem_mem this))
          rcases hnul with hnul | hnul
          · rw [a4 d hdp k c hc, Option.some.injEq] at hnul
            exact hno c.labels (P d) _ g1 (by rw [hlc]; exact hLp.bound d hdp) (a3 d hdp).1 hnul
          · rw [b4 d hdq k' c' hc', Option.some.injEq] at hnul
            exact hno c'.labels (Q d) _ g2 (by rw [hlc']; exact hLq.bound d hdq) (b3 d hdq).1 hnul
        · rw [hlc] at g2; rw [hlc'] at g3; exact ⟨g2, g3⟩
      obtain ⟨e1, e2⟩ := hPQ
      unfold sourceOf
      rw [posAlong_map hdp, posAlong_map hdq]
      have c1 := (a3 d hdp).1
      have c2 := (b3 d hdq).1
      rw [e1, List.length_range] at c1
      rw [e2, List.length_range] at c2
      rw [e1, e2, List.length_range, List.length_range, range_getD' c1, range_getD' c2]
      unfold clipped
      by_cases n1 : lenDim p.cm d = 1
      · exact Or.inr (Or.inl n1)
      · by_cases n2 : lenDim q.cm d = 1
        · exact Or.inr (Or.inr n2)
        · rw [if_neg n1, if_neg n2]; exact Or.inl rfl
  · intro j k hj hk hT
    have hpshape := shape_lenOf hpd hps
    have hqshape := shape_lenOf hqd hqs
    rw [hpshape] at hj
    rw [hqshape] at hk
    have hjlt : ∀ d ∈ p.cm.dims, posAlong p d j < lenDim p.cm d := fun d hd => inRange_getD hj hd
    have hklt : ∀ d ∈ q.cm.dims, posAlong q d k < lenDim q.cm d := fun d hd => inRange_getD hk hd
    have hclip : ∀ {n t : ℕ}, t < n → clipped n t = t := by
      intro n t ht; unfold clipped; split_ifs <;> omega
    have hex : ∀ d, ∃ t : ℕ, d ∈ D → t < lenDim cm d ∧
        (d ∈ p.cm.dims → (P d).getD (clipped (P d).length t) 0 = posAlong p d j) ∧
        (d ∈ q.cm.dims → (Q d).getD (clipped (Q d).length t) 0 = posAlong q d k) := by
      intro d
      by_cases hd : d ∈ D
      swap
      · exact ⟨0, fun h => absurd h hd⟩
      by_cases hdp : d ∈ p.cm.dims
      · by_cases hdq : d ∈ q.cm.dims
        · obtain ⟨kc, c, hc⟩ := hpl d hdp
          obtain ⟨kc', c', hc'⟩ := hql d hdq
          have hlc : c.labels.length = lenDim p.cm d := by
            rw [labels_length (hp.classes _ _ _ _ (Dict.mem_of_get? hc)), (dim_one hp hdp hc).2]; rfl
          have hlc' : c'.labels.length = lenDim q.cm d := by
            rw [labels_length (hq.classes _ _ _ _ (Dict.mem_of_get? hc')), (dim_one hq hdq hc').2]; rfl
          obtain ⟨T1, T2⟩ := hT d hdp hdq
          have hj1 := hjlt d hdp
          have hk1 := hklt d hdq
          have hja : ∃ x, c.labels[posAlong p d j]? = some x ∧ label p d j = some x := by
            refine ⟨c.labels[posAlong p d j]'(by omega), List.getElem?_eq_getElem _, ?_⟩
            rw [label_dim hc, List.getD_eq_getElem?_getD, List.getElem?_eq_getElem (by omega)]; rfl
          have hkb : ∃ x, c'.labels[posAlong q d k]? = some x ∧ label q d k = some x := by
            refine ⟨c'.labels[posAlong q d k]'(by omega), List.getElem?_eq_getElem _, ?_⟩
            rw [label_dim hc', List.getD_eq_getElem?_getD, List.getElem?_eq_getElem (by omega)]; rfl
          obtain ⟨x, x1, x2⟩ := hja
          obtain ⟨y, y1, y2⟩ := hkb
          rcases hG d kc c kc' c' hdp hdq hc hc' with ⟨g1, g2, g3, g4⟩ | ⟨g1, g2, g3⟩
          · obtain ⟨v, rfl⟩ := Option.ne_none_iff_exists'.1 (g1 x (List.mem_of_getElem? x1))
            obtain ⟨w, rfl⟩ := Option.ne_none_iff_exists'.1 (g2 y (List.mem_of_getElem? y1))
            have := T1 v w x2 y2
            subst this
            obtain ⟨t, t1, t2⟩ := g4 _ _ v x1 y1
            have l1 : t < (P d).length := (List.getElem?_eq_some_iff.1 t1).1
            have l2 : t < (Q d).length := (List.getElem?_eq_some_iff.1 t2).1
            refine ⟨t, fun _ => ⟨?_, fun _ => ?_, fun _ => ?_⟩⟩
            · rcases hB d hd with g | g | g <;> omega
            · rw [hclip l1, List.getD_eq_getElem?_getD, t1]; rfl
            · rw [hclip l2, List.getD_eq_getElem?_getD, t2]; rfl
          · rw [hlc] at g2
            rw [hlc'] at g3
            have hnul : label p d j = some none ∨ label q d k = some none := by
              rcases g1 with g1 | g1
              · left; rw [x2, g1 x (List.mem_of_getElem? x1)]
              · right; rw [y2, g1 y (List.mem_of_getElem? y1)]
            have hor := T2 hnul
            have hb := hB d hd
            rw [g2, g3, List.length_range, List.length_range] at hb
            refine ⟨if lenDim p.cm d = 1 then posAlong q d k else posAlong p d j, fun _ => ?_⟩
            rw [g2, g3, List.length_range, List.length_range]
            by_cases n1 : lenDim p.cm d = 1
            · rw [if_pos n1]
              refine ⟨by rcases hb with g | g | g <;> omega, fun _ => ?_, fun _ => ?_⟩
              · rw [n1]; unfold clipped; rw [if_pos rfl]
                have : posAlong p d j = 0 := by omega
                rw [this]; rfl
              · rw [hclip hk1, range_getD' hk1]
            · rw [if_neg n1]
              refine ⟨by rcases hb with g | g | g <;> omega, fun _ => ?_, fun _ => ?_⟩
              · rw [hclip hj1, range_getD' hj1]
              · by_cases n2 : lenDim q.cm d = 1
                · rw [n2]; unfold clipped; rw [if_pos rfl]
                  have : posAlong q d k = 0 := by omega
                  rw [this]; rfl
                · have he : posAlong p d j = posAlong q d k := by
                    rcases hor with h | h | h
                    · exact h
                    · exact absurd h n1
                    · exact absurd h n2
                  rw [he, hclip hk1, range_getD' hk1]
        · have hj1 := hjlt d hdp
          have e1 := hPs d hdp hdq
          have e2 := (hLq.new d hd hdq).1
          have hb := hB d hd
          rw [e1, e2, List.length_range] at hb
          simp only [List.length_singleton] at hb
          refine ⟨posAlong p d j, fun _ => ⟨by rcases hb with g | g | g <;> omega, fun _ => ?_, fun h => absurd h hdq⟩⟩
          rw [e1, List.length_range, hclip hj1, range_getD' hj1]
      · have hdq : d ∈ q.cm.dims := by
          rcases mem_joinDims'.1 hd with h | h
          · exact absurd h hdp
          · exact h
        have hk1 := hklt d hdq
        have e1 := hQs d hdq hdp
        have e2 := (hLp.new d hd hdp).1
        have hb := hB d hd
        rw [e1, e2, List.length_range] at hb
        simp only [List.length_singleton] at hb
        refine ⟨posAlong q d k, fun _ => ⟨by rcases hb with g | g | g <;> omega, fun h => absurd h hdp, fun _ => ?_⟩⟩
        rw [e1, List.length_range, hclip hk1, range_getD' hk1]
    choose T hT' using hex
    have hi : InRange a.shape (D.map T) := by
      rw [hash]
      exact inRange_map fun d hd => (hT' d hd).1
    have hpos : ∀ d ∈ D, posAlong (⟨cm, a⟩ : PatchM γ) d (D.map T) = T d := by
      intro d hd
      rw [hposd, List.getD_eq_getElem?_getD, List.getElem?_map, List.getElem?_eq_getElem (List.idxOf_lt_length_of_mem hd)]
      simp
    have ej : sourceOf p (⟨cm, a⟩ : PatchM γ) P (D.map T) = j := by
      rw [← map_posAlong (p := p) hp.distinct (i := j) (by simpa using inRange_length hj)]
      refine List.map_congr_left fun d hd => ?_
      rw [hpos d (hsp d hd)]
      exact (hT' d (hsp d hd)).2.1 hd
    have ek : sourceOf q (⟨cm, a⟩ : PatchM γ) Q (D.map T) = k := by
      rw [← map_posAlong (p := q) hq.distinct (i := k) (by simpa using inRange_length hk)]
      refine List.map_congr_left fun d hd => ?_
      rw [hpos d (hsq d hd)]
      exact (hT' d (hsq d hd)).2.2 hd
    obtain ⟨_, a2, _, _⟩ := side_stands hp hpl hpd hps hsh hLp hSp hi
    obtain ⟨_, b2, _, _⟩ := side_stands hq hql hqd hqs hsh hLq hSq hi
    have hv := hval' _ hi
    rw [ej, ek] at hv
    rw [ej] at a2
    rw [ek] at b2
    exact ⟨_, hi, a2, b2, hv⟩
  · intro name ds c hc hnd hund hor hsto i hi
    have hds : ∀ d ∈ ds, d ∈ p.cm.dims := fun d hd => hp.wf.attached _ _ _ (Dict.mem_of_get? hc) d hd
    have hnD : name ∉ D := by
      intro h
      rcases mem_joinDims'.1 h with h | h
      · exact hnd h
      · rw [hJ.fresh.1 name h hnd] at hc; cases hc
    obtain ⟨c1, s1, s2⟩ := hLp.extra name ds c hc hnd (fun d hd => by rw [hPu d (hds d hd) (hund d hd), List.length_range])
    obtain ⟨c2, s3, s4⟩ := hM.extra name ds c1 s1 s2.wf (by
      rcases hor with h | h
      · left
        rw [Dict.get?_eq_none]
        intro hk
        rcases hLq.keys name hk with h' | h'
        · obtain ⟨v, hv⟩ := Dict.mem_keys.1 h'
          rw [h] at hv; cases hv
        · exact hnD h'
      · right; rw [s2.partial]; exact h) (by
      intro d hd
      rw [hLp.lens (hsp d (hds d hd))]
      have hdp := hds d hd
      have hb := hB d (hsp d hdp)
      have : (P d).length = (Q d).length ∨ (Q d).length = 1 := by
        by_cases hdq : d ∈ q.cm.dims
        · left
          obtain ⟨kc, x, hx⟩ := hpl d hdp
          obtain ⟨kc', y, hy⟩ := hql d hdq
          have e1 := labels_length (hp.classes _ _ _ _ (Dict.mem_of_get? hx))
          have e2 := labels_length (hq.classes _ _ _ _ (Dict.mem_of_get? hy))
          have e3 := (dim_one hp hdp hx).2
          have e4 := (dim_one hq hdq hy).2
          obtain ⟨u1, _⟩ := hund d hd kc x kc' y hx hy
          rcases hG d kc x kc' y hdp hdq hx hy with ⟨_, _, g3, _⟩ | ⟨_, g2, g3⟩
          · have b1 : ∀ j ∈ P d, j < x.labels.length := by
              intro j hj; rw [e1, e3]; exact hLp.bound d hdp j hj
            have b2 : ∀ j ∈ Q d, j < y.labels.length := by
              intro j hj; rw [e2, e4]; exact hLq.bound d hdq j hj
            rw [← takeIdx_length b1, ← takeIdx_length b2, g3]
          · rw [g2, g3, u1]
        · right
          rw [(hLq.new d (hsp d hdp) hdq).1]; rfl
      omega)
    have hst := (s2.trans s4).same.2 hsto
    unfold label
    rw [s3, hc]
    cases ds with
    | nil => rfl
    | cons d ds =>
      simp only
      congr 1
      unfold labelAt
      rw [hst]
      congr 1
      refine List.map_congr_left fun e he => ?_
      have := posAlong_map (p := p) (hds e he) (fun d => posAlong (⟨cm, a⟩ : PatchM γ) d i)
      unfold posAlong at this
      simp only at this
      exact this.symm
  · intro name hn hq'
    have hnp : name ∉ p.cm.dims := by
      intro h
      obtain ⟨k, c, hc⟩ := hpl name h
      rw [hn] at hc; cases hc
    refine hM.none name ?_
    rw [Dict.get?_eq_none]
    intro hk
    rcases hLp.keys name hk with h' | h'
    · obtain ⟨v, hv⟩ := Dict.mem_keys.1 h'
      rw [hn] at hv; cases hv
    · rcases mem_joinDims'.1 h' with h | h
      · exact hnp h
      · exact hq' h

end

end Verif
