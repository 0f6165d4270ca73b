import Verif.Proof.Arith
import Verif.Proof.Concat
import Verif.Proof.AggregateData
/-! # Lemmas: arithmetic between a patch and an array -/
namespace Verif
open Spec

theorem broadcastLen_ok {x y z : ℕ} (h : Nd.broadcastLen x y = .ok z) : (z = x ∧ (y = x ∨ y = 1)) ∨ (x = 1 ∧ z = y) := by
  unfold Nd.broadcastLen at h
  split_ifs at h with h1 h2 h3 <;> cases h
  · exact Or.inl ⟨rfl, Or.inl h1.symm⟩
  · exact Or.inr ⟨h2, rfl⟩
  · exact Or.inl ⟨rfl, Or.inr h3⟩

theorem castIdx_eq {s i : List ℕ} (h : s.length ≤ i.length) : Nd.castIdx s i = castTo s i := by
  unfold Nd.castIdx Nd.clip castTo
  apply List.ext_getElem?
  intro t
  rw [List.getElem?_zipWith, List.getElem?_map, List.getElem?_drop]
  by_cases ht : t < s.length
  · rw [List.getElem?_range ht, List.getElem?_eq_getElem ht, List.getElem?_eq_getElem (by omega)]
    simp only [Option.map_some]
    rw [List.getD_eq_getElem?_getD, List.getElem?_eq_getElem ht, List.getD_eq_getElem?_getD, List.getElem?_eq_getElem (by omega)]
    rfl
  · rw [List.getElem?_eq_none (by omega : s.length ≤ t), List.getElem?_eq_none (by simp; omega : (List.range s.length).length ≤ t)]
    rfl

theorem castTo_full {s i : List ℕ} (h : s.length = i.length) : castTo s i = Nd.clip s i := by
  rw [← castIdx_eq h.le]
  unfold Nd.castIdx
  rw [h, Nat.sub_self, List.drop_zero]

theorem castTo_self {s i : List ℕ} (h : InRange s i) : castTo s i = i := by
  rw [castTo_full (inRange_length h).symm]
  induction h with
  | nil => rfl
  | @cons a b l m h _ ih =>
    unfold Nd.clip at ih ⊢
    rw [List.zipWith_cons_cons, ih]
    split_ifs with h1
    · have : a = 0 := by omega
      rw [this]
    · rfl

/-- The facts about the broadcast shape. -/
theorem broadcastShapes_spec {s a t : List ℕ} (hl : a.length ≤ s.length) (h : Nd.broadcastShapes s a = .ok t) :
    t.length = s.length ∧ (∀ k, k < s.length → t.getD k 0 = s.getD k 0 ∨ s.getD k 0 = 1) ∧
    ∀ i, InRange t i → InRange s (castTo s i) ∧ InRange a (castTo a i) := by
  unfold Nd.broadcastShapes at h
  rw [show a.length - s.length = 0 by omega, List.replicate_zero, List.nil_append] at h
  set b := List.replicate (s.length - a.length) 1 ++ a with hb
  have hbl : b.length = s.length := by simp [hb]; omega
  have hf := mapM_forall₂ h
  have htl : t.length = s.length := by
    rw [← hf.length_eq]; simp [hbl]
  have hbk : ∀ k, k < a.length → b.getD (s.length - a.length + k) 0 = a.getD k 0 := by
    intro k hk
    rw [hb, List.getD_eq_getElem?_getD, List.getElem?_append_right (by simp), List.getD_eq_getElem?_getD]
    simp
  have hk : ∀ k, k < s.length → (t.getD k 0 = s.getD k 0 ∧ (b.getD k 0 = s.getD k 0 ∨ b.getD k 0 = 1)) ∨ (s.getD k 0 = 1 ∧ t.getD k 0 = b.getD k 0) := by
    intro k hk
    have := (List.forall₂_iff_get.1 hf).2 k (by simp [hbl]; exact hk) (by omega)
    simp only [List.get_eq_getElem, List.getElem_zip] at this
    have := broadcastLen_ok this
    rw [List.getD_eq_getElem?_getD, List.getD_eq_getElem?_getD, List.getD_eq_getElem?_getD, List.getElem?_eq_getElem hk, List.getElem?_eq_getElem (by omega),
      List.getElem?_eq_getElem (by omega)]
    exact this
  refine ⟨htl, fun k h => ?_, fun i hi => ⟨?_, ?_⟩⟩
  · rcases hk k h with h1 | h1
    · exact Or.inl h1.1
    · exact Or.inr h1.1
  · have hil := inRange_length hi
    rw [inRange_iff]
    refine ⟨by simp [castTo], fun k hk' => ?_⟩
    have h1 := hk k hk'
    have h2 := (inRange_iff.1 hi).2 k (by omega)
    unfold castTo
    rw [List.getD_eq_getElem?_getD, List.getElem?_map, List.getElem?_range hk']
    simp only [Option.map_some, Option.getD_some]
    split_ifs with h3
    · omega
    · rw [show i.length - s.length + k = k by omega]
      rcases h1 with h1 | h1
      · rw [← h1.1]; exact h2
      · exact absurd h1.1 h3
  · have hil := inRange_length hi
    rw [inRange_iff]
    refine ⟨by simp [castTo], fun k hk' => ?_⟩
    have h1 := hk (s.length - a.length + k) (by omega)
    have h2 := (inRange_iff.1 hi).2 (s.length - a.length + k) (by omega)
    rw [hbk k hk'] at h1
    unfold castTo
    rw [List.getD_eq_getElem?_getD, List.getElem?_map, List.getElem?_range hk']
    simp only [Option.map_some, Option.getD_some]
    split_ifs with h3
    · omega
    · rw [show i.length - a.length + k = s.length - a.length + k by omega]
      rcases h1 with ⟨h4, h5⟩ | h1
      · rcases h5 with h5 | h5
        · rw [h5, ← h4]; exact h2
        · exact absurd h5 h3
      · rw [← h1.2]; exact h2

theorem labelAt_congr' {dims ds : List String} {a : Nd (Option ℚ)} {i j : List ℕ}
    (h : ∀ d ∈ ds, i.getD (dims.idxOf d) 0 = j.getD (dims.idxOf d) 0) : labelAt dims ds a i = labelAt dims ds a j := by
  unfold labelAt
  congr 1
  exact List.map_congr_left h

section
variable {α β γ : Type} {f : α → β → γ} {p : PatchM α} {a : Nd β}

theorem zip_maps {l : List String} (g h : String → ℕ) : l.zip ((l.map g).zip (l.map h)) = l.map fun d => (d, g d, h d) := by
  induction l with
  | nil => rfl
  | cons a l ih => simp only [List.map_cons, List.zip_cons_cons, ih]

theorem get?_map_self {V : Type} {l : List String} (hn : l.Nodup) (g : String → V) (d : String) :
    Dict.get? (l.map fun d => (d, g d)) d = if d ∈ l then some (g d) else none := by
  have hk : Dict.keys (l.map fun d => (d, g d)) = l := by simp [Dict.keys, Function.comp_def]
  split_ifs with h
  · exact Dict.get?_of_mem (by rw [hk]; exact hn) (List.mem_map.2 ⟨d, h, rfl⟩)
  · rw [Dict.get?_eq_none, hk]; exact h

theorem grown_spec {m : CM} (hn : m.dims.Nodup) (hd : m.dims ≠ []) {t : List ℕ} (hl : t.length = m.dims.length)
    {kw : Dict CArg} (h : m.grown false t = .ok kw) :
    kw.keys.Nodup ∧ (∀ name ∈ kw.keys, name ∈ m.dims) ∧
    ∀ d ∈ m.dims, (lenDim m d < t.getD (m.dims.idxOf d) 0 ∧ kw.get? d = some (.simple (.one .float (.part (t.getD (m.dims.idxOf d) 0)))) ∧
        ∃ ds c, m.ents.get? d = some (ds, c) ∧ c.isPartial = true) ∨
      (¬ lenDim m d < t.getD (m.dims.idxOf d) 0 ∧ kw.get? d = none) := by
  have hsh : m.shape = m.dims.map (lenDim m) := by
    unfold CM.shape
    rw [if_neg hd]; rfl
  have ht : t = m.dims.map fun d => t.getD (m.dims.idxOf d) 0 := (map_getD_idxOf hn hl).symm
  set T := fun d => t.getD (m.dims.idxOf d) 0 with hT
  unfold CM.grown at h
  rw [hsh, ht, zip_maps, List.filter_map, List.mapM_map] at h
  set l := m.dims.filter ((fun x : String × ℕ × ℕ => decide (x.2.1 < x.2.2)) ∘ fun d => (d, lenDim m d, T d)) with hldef
  have hlm : ∀ d, d ∈ l ↔ d ∈ m.dims ∧ lenDim m d < T d := by
    intro d; rw [hldef, List.mem_filter]; simp
  have hln : l.Nodup := hn.filter _
  have hpart : ∀ d ∈ l, ∃ ds c, m.ents.get? d = some (ds, c) ∧ c.isPartial = true := by
    intro d hdl
    obtain ⟨b, _, hb⟩ := mapM_mem_in h hdl
    simp only [Function.comp] at hb
    cases he : m.ents.get? d with
    | none => rw [he] at hb; cases hb
    | some e =>
      rw [he] at hb
      simp only [Bool.or_false] at hb
      split_ifs at hb with hp
      exact ⟨e.1, e.2, rfl, hp⟩
  have hkw : kw = l.map fun d => (d, CArg.simple (.one .float (.part (T d)))) := by
    have := mapM_ok' _ (fun d => (d, CArg.simple (.one .float (.part (T d))))) l (by
      intro d hdl
      obtain ⟨ds, c, h1, h2⟩ := hpart d hdl
      show (match m.ents.get? d with
        | some (_, c) => if (c.isPartial || false) = true then Except.ok (d, CArg.simple (.one .float (.part (max (lenDim m d) (T d))))) else .error Err.patchBroadcastError
        | none => .error Err.coordError) = _
      rw [h1]
      simp only [h2, Bool.or_false, if_true]
      rw [max_eq_right ((hlm d).1 hdl).2.le])
    have h' := h.symm.trans this
    injection h'
  refine ⟨?_, ?_, ?_⟩
  · rw [hkw]
    have : Dict.keys (l.map fun d => (d, CArg.simple (.one .float (.part (T d))))) = l := by simp [Dict.keys, Function.comp_def]
    rw [this]; exact hln
  · rw [hkw]
    intro name hnm
    have : Dict.keys (l.map fun d => (d, CArg.simple (.one .float (.part (T d))))) = l := by simp [Dict.keys, Function.comp_def]
    rw [this] at hnm
    exact ((hlm name).1 hnm).1
  · intro d hdm
    rw [hkw, get?_map_self hln]
    by_cases hlt : lenDim m d < T d
    · left
      have : d ∈ l := (hlm d).2 ⟨hdm, hlt⟩
      rw [if_pos this]
      exact ⟨hlt, rfl, hpart d this⟩
    · right
      rw [if_neg fun hc => hlt ((hlm d).1 hc).2]
      exact ⟨hlt, rfl⟩

theorem castTo_axis {s i : List ℕ} (hl : s.length = i.length) {k : ℕ} (hk : k < s.length) : (castTo s i).getD k 0 = if s.getD k 0 = 1 then 0 else i.getD k 0 := by
  unfold castTo
  rw [List.getD_eq_getElem?_getD, List.getElem?_map, List.getElem?_range hk]
  simp only [Option.map_some, Option.getD_some]
  rw [show i.length - s.length + k = k by omega]

/-- What a patch is after it has been fitted to the shape of an array. -/
structure FitTo (p q : PatchM α) (shape : List ℕ) : Prop where
  wf : WellFormed q.cm
  dims : q.cm.dims = p.cm.dims
  csh : q.cm.shape = q.data.shape
  lengths : ∀ d ∈ p.cm.dims, lenDim q.cm d = lenDim p.cm d ∨ ∃ k, p.cm.ents.get? d = some ([d], .one k (.part 1))
  one : ∀ k, k < p.data.shape.length → q.data.shape.getD k 0 = p.data.shape.getD k 0 ∨ p.data.shape.getD k 0 = 1
  data : ∀ i, InRange q.data.shape i → InRange p.data.shape (castTo p.data.shape i) ∧ q.data.get i = p.data.get (castTo p.data.shape i)
  ents : ∀ name ds c, p.cm.ents.get? name = some (ds, c) → (∀ d ∈ ds, lenDim q.cm d = lenDim p.cm d) → ∃ c', q.cm.ents.get? name = some (ds, c') ∧ SameValues c c'

theorem fitTo_spec {q : PatchM α} {shape : List ℕ} (hp : Regular p.cm) (hpl : DimsListed p.cm) (hpd : p.cm.dims ≠ []) (hps : p.cm.shape = p.data.shape)
    (h : p.fitTo shape = .ok q) : FitTo p q shape ∧ shape.length ≤ q.data.shape.length := by
  have hsh : p.cm.shape = p.cm.dims.map (lenDim p.cm) := by
    unfold CM.shape
    rw [if_neg hpd]; rfl
  unfold PatchM.fitTo at h
  split_ifs at h with h1 h2
  · cases h
    refine ⟨⟨hp.wf, rfl, hps, fun _ _ => Or.inl rfl, fun _ _ => Or.inl rfl, fun i hi => ?_, fun name ds c hc _ => ⟨c, hc, rfl, fun _ => rfl⟩⟩, by rw [h1]⟩
    rw [castTo_self hi]
    exact ⟨hi, rfl⟩
  · unfold PatchM.broadcastTo at h
    simp only [bind, Except.bind] at h
    split at h
    · cases h
    rename_i target htar
    split at h
    · cases h
    rename_i kw hkw
    split at h
    · cases h
    rename_i cm hcm
    obtain ⟨rfl, hcs⟩ := new_ok h
    simp only at hcs
    rw [hps] at htar
    obtain ⟨b1, b2, b3⟩ := broadcastShapes_spec (by omega) htar
    have hlen : p.data.shape.length = p.cm.dims.length := by rw [← hps, hsh]; simp
    obtain ⟨k1, k2, k3⟩ := grown_spec hp.distinct hpd (by omega : target.length = p.cm.dims.length) hkw
    have hplain : ∀ name ∈ kw.keys, matchesPrefixSuffix p.cm.dims name = false := by
      intro name hn
      obtain ⟨k, c, hc⟩ := hpl name (k2 name hn)
      exact hp.plain name (Dict.mem_keys.2 ⟨_, hc⟩)
    have hU := update_spec hp.wf k1 hplain hcm
    have hwf := (CM.update_wf hcm hp.wf k1).1
    have hdr : dropNames kw = [] := by
      unfold dropNames
      rw [List.map_eq_nil_iff, List.filter_eq_nil_iff]
      rintro ⟨name, x⟩ hx
      have hx1 := Dict.get?_of_mem k1 hx
      have hm : name ∈ p.cm.dims := k2 name (Dict.mem_keys.2 ⟨_, hx1⟩)
      rcases k3 name hm with ⟨_, g, _⟩ | ⟨_, g⟩
      · rw [hx1] at g; cases g; simp [CArg.isDrop]
      · rw [hx1] at g; cases g
    have hdims : cm.dims = p.cm.dims := by
      rw [hU.dims, hdr]
      have : (kw.filter fun x => ((argOf x.1 x.2).map Prod.fst == some [x.1]) && !p.cm.dims.contains x.1) = [] := by
        rw [List.filter_eq_nil_iff]
        rintro ⟨name, x⟩ hx
        have : name ∈ p.cm.dims := k2 name (Dict.mem_keys.2 ⟨_, Dict.get?_of_mem k1 hx⟩)
        simp [this]
      rw [this]; simp
    have hcsh : cm.shape = p.cm.dims.map (lenDim cm) := by
      unfold CM.shape
      rw [hdims, if_neg hpd]; rfl
    have hlt : ∀ d ∈ p.cm.dims, lenDim cm d = target.getD (p.cm.dims.idxOf d) 0 := by
      intro d hd
      rw [← hcs, hcsh, getD_map_idxOf hd]
    have hlp : ∀ d ∈ p.cm.dims, p.data.shape.getD (p.cm.dims.idxOf d) 0 = lenDim p.cm d := by
      intro d hd
      rw [← hps, hsh, getD_map_idxOf hd]
    have hres : ∀ d ∈ p.cm.dims, lenDim cm d = lenDim p.cm d → kw.get? d = none := by
      intro d hd he
      rcases k3 d hd with ⟨g, _⟩ | ⟨_, g⟩
      · rw [← hlt d hd, he] at g; exact absurd g (lt_irrefl _)
      · exact g
    refine ⟨⟨hwf, hdims, hcs, ?_, ?_, ?_, ?_⟩, by simp only; omega⟩
    · intro d hd
      rcases k3 d hd with ⟨g, _, ds, c, hc, hc'⟩ | ⟨g, g'⟩
      · right
        obtain ⟨k, x, hx⟩ := hpl d hd
        rw [hc] at hx
        cases hx
        obtain ⟨n, rfl⟩ := isPartial_one.1 hc'
        have hi := List.idxOf_lt_length_of_mem hd
        rcases b2 (p.cm.dims.idxOf d) (by omega) with h3 | h3
        · rw [hlp d hd] at h3
          rw [h3] at g; exact absurd g (lt_irrefl _)
        · rw [hlp d hd] at h3
          have : lenDim p.cm d = n := by
            unfold lenDim Ents.lenOf
            rw [hc]; rfl
          rw [← this, h3] at hc
          exact ⟨k, hc⟩
      · left
        obtain ⟨k, x, hx⟩ := hpl d hd
        obtain ⟨c', h3, h4⟩ := hU.kept d [d] _ g' hx (by
          intro e he
          rw [List.mem_singleton] at he
          subst he
          refine ⟨by rw [hdr]; simp, ?_⟩
          rintro ⟨_, a, ds, c, ds', c', h5, _⟩
          rw [g'] at h5; cases h5)
        unfold lenDim Ents.lenOf
        rw [hx, h4]
        exact SameValues.len h3
    · exact b2
    · intro i hi
      refine ⟨(b3 i hi).1, ?_⟩
      show p.data.get (Nd.castIdx p.data.shape i) = _
      rw [castIdx_eq (by rw [inRange_length hi]; simp only; omega)]
    · intro name ds c hc hlen'
      have hsub := hp.wf.attached _ _ _ (Dict.mem_of_get? hc)
      have hkn : kw.get? name = none := by
        cases hg : kw.get? name with
        | none => rfl
        | some x =>
          have hm := k2 name (Dict.mem_keys.2 ⟨_, hg⟩)
          obtain ⟨k, x', hx'⟩ := hpl name hm
          rw [hc] at hx'
          cases hx'
          have := hres name hm (hlen' name (by simp))
          rw [hg] at this; exact this
      obtain ⟨c', h3, h4⟩ := hU.kept name ds c hkn hc (by
        intro d hd
        refine ⟨by rw [hdr]; simp, ?_⟩
        rintro ⟨_, a, ds2, c2, ds', c', h5, _⟩
        rw [hres d (hsub d hd) (hlen' d hd)] at h5; cases h5)
      exact ⟨c', h4, h3⟩

theorem withArray_spec {r : PatchM γ} (hp : Regular p.cm) (hpl : DimsListed p.cm) (hpd : p.cm.dims ≠ []) (hps : p.cm.shape = p.data.shape)
    (h : p.withArray f a = .ok r) : WithArray f p a r := by
  unfold PatchM.withArray at h
  simp only [bind, Except.bind] at h
  split at h
  · cases h
  rename_i q hq
  split at h
  · cases h
  rename_i shape hshape
  obtain ⟨rfl, hcs⟩ := new_ok h
  simp only at hcs
  obtain ⟨hF, hle⟩ := fitTo_spec hp hpl hpd hps hq
  obtain ⟨c1, c2, c3⟩ := broadcastShapes_spec hle hshape
  have hs : shape = q.data.shape := by rw [← hcs, hF.csh]
  subst hs
  have hsh : p.cm.shape = p.cm.dims.map (lenDim p.cm) := by
    unfold CM.shape
    rw [if_neg hpd]; rfl
  have hqsh : q.cm.shape = p.cm.dims.map (lenDim q.cm) := by
    unfold CM.shape
    rw [hF.dims, if_neg hpd]; rfl
  refine ⟨hF.dims, hF.lengths, ?_, ?_⟩
  · intro i hi
    simp only at hi ⊢
    obtain ⟨h1, h2⟩ := hF.data i hi
    refine ⟨h1, (c3 i hi).2, ?_⟩
    rw [castIdx_eq (by rw [inRange_length hi]), castTo_self hi, castIdx_eq (by rw [inRange_length hi]; exact hle), h2]
  · intro name ds c hc hlen hst i hi
    simp only at hlen hi
    obtain ⟨c', h1, h2⟩ := hF.ents name ds c hc hlen
    unfold label
    simp only
    rw [hc, h1]
    cases ds with
    | nil => rfl
    | cons d ds =>
      simp only [Option.some.injEq]
      rw [h2.2 hst, hF.dims]
      refine labelAt_congr' fun e he => ?_
      have hem : e ∈ p.cm.dims := hp.wf.attached _ _ _ (Dict.mem_of_get? hc) e he
      have hil : i.length = p.cm.dims.length := by
        rw [inRange_length hi, ← hF.csh, hqsh]; simp
      have hpsl : p.data.shape.length = p.cm.dims.length := by rw [← hps, hsh]; simp
      rw [castTo_axis (by omega) (by rw [hpsl]; exact List.idxOf_lt_length_of_mem hem)]
      split_ifs with h3
      · have h4 : InRange (p.cm.dims.map (lenDim q.cm)) i := by rw [← hqsh, hF.csh]; exact hi
        have h5 := inRange_getD h4 hem
        rw [hlen e he] at h5
        rw [← hps, hsh, getD_map_idxOf hem] at h3
        omega
      · rfl

end

end Verif
