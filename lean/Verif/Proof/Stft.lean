import Verif.Proof.StftData
import Verif.Proof.FourierPatch
import Verif.Proof.Units
import Verif.Proof.Resample
import Verif.Proof.CalculusPatch
import Verif.Props.Aggregate
/-! # Lemmas about the coordinates of short-time Fourier transforms -/
namespace Verif
open Spec

/-- The coordinates of a short-time transform. -/
structure ShortCoords (s : ShortTime) (m q : CM) (d : String) (k : Kind) (c : RangeCoord) (time freq win : Coord) : Prop where
  wf : WellFormed q
  dims : q.dims = (m.dims.map fun e => if e = d then "ft_" ++ d else e) ++ [d]
  time : q.ents.get? d = some ([d], .one (sliceKind k) time)
  freq : q.ents.get? ("ft_" ++ d) = some (["ft_" ++ d], .one .float freq)
  win : q.ents.get? "_stft_window" = some ([], .one .float win)
  old : q.ents.get? "_stft_old_coord" = some ([], .one k (.range c))
  kept : ∀ n ≠ d, ∀ ds c, m.ents.get? n = some (ds, c) → d ∉ ds → ∃ x, c.canon = .ok x ∧ q.ents.get? n = some (ds, x)
  lost : ∀ n ≠ d, ∀ ds c, m.ents.get? n = some (ds, c) → d ∈ ds → q.ents.get? n = none
  none : ∀ n, m.ents.get? n = none → n ∉ ["ft_" ++ d, "_stft_window", "_stft_old_coord"] → q.ents.get? n = none

theorem suffixless_of {d : String} (h : ∀ t ∈ ["_min", "_max", "_step"], ¬ t.toList <:+: d.toList) : Suffixless d := by
  unfold Suffixless matchesPrefixSuffix
  simp only [List.isEmpty_nil, if_true]
  rw [List.any_eq_false]
  intro t ht hc
  rw [List.any_eq_true] at hc
  obtain ⟨r, hr, hc⟩ := hc
  refine h t (by simp only [List.mem_cons, List.not_mem_nil, or_false] at ht ⊢; tauto) ?_
  have h1 := List.isPrefixOf_iff_prefix.1 hc
  have h2 := (List.mem_tails _ _).1 hr
  exact h1.isInfix.trans h2.isInfix

theorem ft_ne_stft (d : String) : "ft_" ++ d ≠ "_stft_window" ∧ "ft_" ++ d ≠ "_stft_old_coord" := by
  constructor <;>
  · intro h
    have := congrArg String.toList h
    rw [String.toList_append] at this
    have h1 := congrArg List.head? this
    revert h1
    rw [show "ft_".toList = ['f', 't', '_'] from rfl]
    intro h1
    simp at h1

theorem stftCoords_spec {s : ShortTime} {m : CM} (hw : WellFormed m) (hr : Readable m) {d : String} (hd : Sliceable m d) {k : Kind} {c : RangeCoord}
    (hc : m.ents.get? d = some ([d], .one k (.range c))) {time freq win : Coord} (ht : getCoordData (sliceKind k) (sliceTimes s c) = .ok time)
    (hf : getCoordData .float (sliceFreqs s (stepFloat k c.step)) = .ok freq) (hwin : getCoordData .float s.win = .ok win) :
    ∃ q, stftCoords s m d k c = .ok q ∧ ShortCoords s m q d k c time freq win := by
  obtain ⟨old, h1, hold⟩ := disassociate_spec hw hr (D := [d]) (by simp) (by simpa using hd.even.1) (by simpa using suffixless_of hd.plain)
  have hft : ftName d = "ft_" ++ d := ftName_eq hd.forward
  set new : Dict CArg := [(d, .simple (.one (sliceKind k) time)), ("ft_" ++ d, .simple (.one .float freq)),
    ("_stft_window", .nested [] (.one .float (.arr s.win))), ("_stft_old_coord", .nested [] (.one k (.range c)))] with hnewdef
  have hfree : ∀ n ∈ ["ft_" ++ d, "_stft_window", "_stft_old_coord"], n ≠ d := by
    rintro n hn rfl
    rw [hd.free _ hn] at hc; cases hc
  have n1 : "ft_" ++ d ≠ d := hfree _ (by simp)
  have n2 : "_stft_window" ≠ d := hfree _ (by simp)
  have n3 : "_stft_old_coord" ≠ d := hfree _ (by simp)
  obtain ⟨n4, n5⟩ := ft_ne_stft d
  have hnk : (Dict.keys new).Nodup := by
    show [d, "ft_" ++ d, "_stft_window", "_stft_old_coord"].Nodup
    simp only [List.nodup_cons, List.mem_cons, List.not_mem_nil, or_false, not_or, not_false_eq_true, List.nodup_nil, and_true]
    exact ⟨⟨n1.symm, n2.symm, n3.symm⟩, ⟨n4, n5⟩, by decide⟩
  have hnewget : ∀ n, Dict.get? new n = if d = n then some (.simple (.one (sliceKind k) time)) else if "ft_" ++ d = n then some (.simple (.one .float freq)) else
      if "_stft_window" = n then some (.nested [] (.one .float (.arr s.win))) else if "_stft_old_coord" = n then some (.nested [] (.one k (.range c))) else .none := by
    intro n
    rw [hnewdef]
    simp only [Dict.get?_cons, Dict.get?_nil]
  have hnewno : ∀ n, n ≠ d → n ∉ ["ft_" ++ d, "_stft_window", "_stft_old_coord"] → Dict.get? new n = .none := by
    intro n h2 h3
    simp only [List.mem_cons, List.not_mem_nil, or_false, not_or] at h3
    rw [hnewget, if_neg (Ne.symm h2), if_neg (Ne.symm h3.1), if_neg (Ne.symm h3.2.1), if_neg (Ne.symm h3.2.2)]
  have hnewsome : ∀ n a, Dict.get? new n = some a → (n = d ∧ a = .simple (.one (sliceKind k) time)) ∨ (n = "ft_" ++ d ∧ a = .simple (.one .float freq)) ∨
      (n = "_stft_window" ∧ a = .nested [] (.one .float (.arr s.win))) ∨ (n = "_stft_old_coord" ∧ a = .nested [] (.one k (.range c))) := by
    intro n a h
    rw [hnewget] at h
    split_ifs at h with g1 g2 g3 g4 <;> cases h
    · exact Or.inl ⟨g1.symm, rfl⟩
    · exact Or.inr (Or.inl ⟨g2.symm, rfl⟩)
    · exact Or.inr (Or.inr (Or.inl ⟨g3.symm, rfl⟩))
    · exact Or.inr (Or.inr (Or.inr ⟨g4.symm, rfl⟩))
  set coords := (CM.nested old.ents).update new with hcoords
  set dims := (m.dims.map fun e => if e = d then "ft_" ++ d else e) ++ [d] with hdims
  have hck : (Dict.keys coords).Nodup := by
    apply Dict.nodup_update
    rw [CM.nested_keys]
    exact hold.wf.names
  have hget : ∀ n, Dict.get? coords n = (Dict.get? new n).or (Dict.get? (CM.nested old.ents) n) := fun n => Dict.get?_update _ _ hnk n
  have hmnot : ∀ n v, m.ents.get? n = some v → n ∉ ["ft_" ++ d, "_stft_window", "_stft_old_coord"] := by
    intro n v hv hn
    rw [hd.free n hn] at hv; cases hv
  have holdget : ∀ n ds c, old.ents.get? n = some (ds, c) → c.canon = .ok c ∧ (n = d ∧ ds = [] ∨
      n ≠ d ∧ d ∉ ds ∧ ∃ c', m.ents.get? n = some (ds, c') ∧ c'.canon = .ok c) := by
    intro n ds c hc
    cases hm : m.ents.get? n with
    | none => rw [hold.none n hm] at hc; cases hc
    | some v =>
      obtain ⟨ds', c'⟩ := v
      by_cases hn : n = d
      · obtain ⟨x, h3, h4⟩ := hold.named n (by simpa using hn) ds' c' hm
        rw [hc] at h4; cases h4
        exact ⟨canon_fixed h3, Or.inl ⟨hn, rfl⟩⟩
      · by_cases hl : d ∈ ds'
        · rw [hold.lost n (by simpa using hn) ds' c' hm ⟨d, hl, by simp⟩] at hc; cases hc
        · obtain ⟨x, h3, h4⟩ := hold.kept n (by simpa using hn) ds' c' hm (by intro e he h; rw [List.mem_singleton] at h; exact hl (h ▸ he))
          rw [hc] at h4; cases h4
          exact ⟨canon_fixed h3, Or.inr ⟨hn, hl, c', rfl, h3⟩⟩
  have hmd : ∀ e ∈ m.dims, e ≠ d → e ∈ dims := fun e he h => List.mem_append_left _ (List.mem_map.2 ⟨e, he, if_neg h⟩)
  have hdd : d ∈ dims := List.mem_append_right _ (by simp)
  have hfd : "ft_" ++ d ∈ dims := List.mem_append_left _ (List.mem_map.2 ⟨d, hd.even.1, if_pos rfl⟩)
  have hdm : ∀ e ∈ dims, e = d ∨ e = "ft_" ++ d ∨ (e ∈ m.dims ∧ e ≠ d) := by
    intro e he
    rcases List.mem_append.1 he with he | he
    · obtain ⟨x, hx, h⟩ := List.mem_map.1 he
      split_ifs at h with hxd
      · exact Or.inr (Or.inl h.symm)
      · subst h; exact Or.inr (Or.inr ⟨hx, hxd⟩)
    · exact Or.inl (by simpa using he)
  have hmdim : ∀ e ∈ m.dims, e ∉ ["ft_" ++ d, "_stft_window", "_stft_old_coord"] := by
    intro e he
    obtain ⟨x, _, h, _⟩ := CM.WellFormed.get_dim hw he
    exact hmnot e _ h
  let len : String → ℕ := fun e => if e = d then time.length else if e = "ft_" ++ d then freq.length else m.ents.lenOf e
  have hlenm : ∀ e ∈ m.dims, e ≠ d → len e = m.ents.lenOf e := by
    intro e he h
    simp only [len]
    rw [if_neg h, if_neg]
    intro h'
    exact hmdim e he (by simp [h'])
  obtain ⟨q, hq, hqd, hqk, hqg⟩ := getCoordManager_total hck (dims := dims) len (by
    intro n a ha
    rw [hget] at ha
    cases hn : Dict.get? new n with
    | some a' =>
      rw [hn] at ha; cases ha
      rcases hnewsome _ _ hn with ⟨rfl, rfl⟩ | ⟨rfl, rfl⟩ | ⟨rfl, rfl⟩ | ⟨rfl, rfl⟩
      · refine ⟨_, _, _, rfl, getCoordData_fixed ht, by simpa using hdd, fun _ => rfl, Or.inr ?_⟩
        simp only [List.map_cons, List.map_nil, len, if_true]; rfl
      · refine ⟨_, _, _, rfl, getCoordData_fixed hf, by simpa using hfd, fun _ => rfl, Or.inr ?_⟩
        simp only [List.map_cons, List.map_nil, len, if_neg n1, if_true]; rfl
      · refine ⟨[], _, .one .float win, rfl, by simp only [MCoord.canon, hwin]; rfl, by simp, fun hin => ?_, Or.inl rfl⟩
        rcases hdm _ hin with h | h | ⟨h, _⟩
        · exact absurd h n2
        · exact absurd h.symm n4
        · exact absurd (by simp) (hmdim _ h)
      · refine ⟨[], _, _, rfl, rfl, by simp, fun hin => ?_, Or.inl rfl⟩
        rcases hdm _ hin with h | h | ⟨h, _⟩
        · exact absurd h n3
        · exact absurd h.symm n5
        · exact absurd (by simp) (hmdim _ h)
    | none =>
      rw [hn, Option.none_or, get?_nested] at ha
      cases hx : old.ents.get? n with
      | none => rw [hx] at ha; cases ha
      | some v =>
        obtain ⟨ds, c⟩ := v
        rw [hx] at ha
        cases ha
        obtain ⟨hcan, h⟩ := holdget n ds c hx
        have hnd : n ≠ d := by
          rintro rfl
          rw [hnewget, if_pos rfl] at hn; cases hn
        rcases h with ⟨h, _⟩ | ⟨_, h2, c', h3, h4⟩
        · exact absurd h hnd
        refine ⟨ds, c, c, rfl, hcan, ?_, ?_, ?_⟩
        · intro e he
          exact hmd e (hw.attached _ _ _ (Dict.mem_of_get? h3) e he) fun h => h2 (h ▸ he)
        · intro hin
          rcases hdm _ hin with h | rfl | ⟨h, _⟩
          · exact absurd h hnd
          · exact absurd (by simp) (hmnot _ _ h3)
          · obtain ⟨c'', _, h5, _⟩ := CM.WellFormed.get_dim hw h
            rw [h3] at h5; cases h5; rfl
        · by_cases h0 : ds = []
          · exact Or.inl h0
          · right
            rw [(canon_same h4).1, CM.WellFormed.shape_eq hw (Dict.mem_of_get? h3) h0]
            exact List.map_congr_left fun e he => hlenm e (hw.attached _ _ _ (Dict.mem_of_get? h3) e he) fun h => h2 (h ▸ he)) (by
    intro e he
    rw [Dict.mem_keys]
    rcases hdm e he with rfl | rfl | ⟨he1, he2⟩
    · exact ⟨_, by rw [hget, hnewget, if_pos rfl]; rfl⟩
    · exact ⟨_, by rw [hget, hnewget, if_neg n1.symm, if_pos rfl]; rfl⟩
    · obtain ⟨x, _, h, _⟩ := CM.WellFormed.get_dim hw he1
      obtain ⟨x, _, hx⟩ := hold.kept e (by simpa using he2) _ _ h (by simpa using he2)
      exact ⟨_, by rw [hget, hnewno e he2 (hmdim e he1), Option.none_or, get?_nested, hx]; rfl⟩)
  have hqget : ∀ n a ds c x, Dict.get? coords n = some a → argOf n a = some (ds, c) → c.canon = .ok x → q.ents.get? n = some (ds, x) := by
    intro n a ds c x h2 h3 h4
    obtain ⟨x', h5, h6⟩ := hqg n a ds c h2 h3
    rw [h4] at h5; cases h5
    exact h6
  refine ⟨q, ?_, (CM.getCoordManager_wf hq hck).1, hqd, ?_, ?_, ?_, ?_, ?_, ?_, ?_⟩
  · unfold stftCoords
    simp only [bind, Except.bind, h1, ht, hf, hft]
    exact hq
  · exact hqget _ _ _ _ _ (by rw [hget, hnewget, if_pos rfl]; rfl) rfl (getCoordData_fixed ht)
  · exact hqget _ _ _ _ _ (by rw [hget, hnewget, if_neg n1.symm, if_pos rfl]; rfl) rfl (getCoordData_fixed hf)
  · exact hqget _ _ _ _ _ (by rw [hget, hnewget, if_neg n2.symm, if_neg n4, if_pos rfl]; rfl) rfl (by simp only [MCoord.canon, hwin]; rfl)
  · exact hqget _ _ _ _ _ (by rw [hget, hnewget, if_neg n3.symm, if_neg n5, if_neg (by decide), if_pos rfl]; rfl) rfl rfl
  · intro n hn ds c hc hds
    obtain ⟨x, h3, h4⟩ := hold.kept n (by simpa using hn) ds c hc (by intro e he h; rw [List.mem_singleton] at h; exact hds (h ▸ he))
    exact ⟨x, h3, hqget n (.nested ds x) ds x x (by rw [hget, hnewno n hn (hmnot n _ hc), Option.none_or, get?_nested, h4]; rfl) rfl (canon_fixed h3)⟩
  · intro n hn ds c hc hds
    rw [Dict.get?_eq_none, hqk, ← Dict.get?_eq_none, hget, hnewno n hn (hmnot n _ hc), Option.none_or, get?_nested, hold.lost n (by simpa using hn) ds c hc ⟨d, hds, by simp⟩]
    rfl
  · intro n hc' h2
    have hn : n ≠ d := by rintro rfl; rw [hc] at hc'; cases hc'
    rw [Dict.get?_eq_none, hqk, ← Dict.get?_eq_none, hget, hnewno n hn h2, Option.none_or, get?_nested, hold.none n hc']
    rfl

/-! ### The transform of a patch -/

theorem sliceTimes_eq (s : ShortTime) (c : RangeCoord) :
    sliceTimes s c = progression (c.cmin - s.before * s.hop * |c.step|) (s.hop * |c.step|) (s.slices c.len) := by
  unfold sliceTimes progression
  apply List.map_congr_left
  intro p _
  ring

theorem sliceFreqs_eq (s : ShortTime) (dx : ℚ) : sliceFreqs s dx =
    progression (-(if s.onesided then 0 else ((s.mfft / 2 : ℕ) : ℚ)) / (s.mfft * |dx|)) (1 / (s.mfft * |dx|)) s.freqs := by
  unfold sliceFreqs progression
  apply List.map_congr_left
  intro p _
  split_ifs <;> push_cast <;> ring

theorem stft_run {P : SPatch} (hp : Ready P.patch) {d : String} (hd : Sliceable P.patch.cm d) {k : Kind} {c : RangeCoord}
    (hc : P.patch.cm.ents.get? d = some ([d], .one k (.range c))) {win : WinReq} {taper : TaperWin} {overlap : Option WinReq} {samples : Bool} {size : ℕ} {hop : Option ℤ}
    (hres : windowStep c overlap none samples win = .ok ((size : ℤ), hop)) {s : ShortTime} (hs : s = ⟨taper.get size, (hop.getD size).toNat, size, !P.isComplex⟩)
    (hne : taper.get size ≠ []) (hlen : (taper.get size).length ≤ size) (hh : 1 ≤ hop.getD size)
    (hhalf : s.len - s.mid ≤ lenDim P.patch.cm d) {wc : Coord} (hwin : getCoordData .float (taper.get size) = .ok wc) (detr : Option ((ℕ → ℂ) → ℕ → ℂ)) :
    ∃ A cm time freq, P.stft d win taper overlap samples detr = .ok ⟨⟨cm, A⟩, true, some ⟨d, "ft_" ++ d, s.hop, s.mfft, s.onesided, detr.isSome⟩⟩ ∧
      s.transform (detr.getD id) P.patch.data (P.patch.cm.dims.idxOf d) (stepFloat k c.step) = .ok A ∧
      ShortCoords s P.patch.cm cm d k c time freq wc ∧ time.labels = (sliceTimes s c).map some ∧
      freq.labels = (sliceFreqs s (stepFloat k c.step)).map some ∧ cm.shape = A.shape := by
  have hv : c.Valid := hp.regular.classes _ _ _ _ (Dict.mem_of_get? hc)
  have hft : ftName d = "ft_" ++ d := ftName_eq hd.forward
  have hsz : 1 ≤ size := by
    have : 0 < (taper.get size).length := List.length_pos_iff.2 hne
    omega
  have hdx : stepFloat k c.step ≠ 0 := stepFloat_ne hv.step_ne
  have hhop : 1 ≤ s.hop := by rw [hs]; show 1 ≤ (hop.getD size).toNat; omega
  have hmfft : 1 ≤ s.mfft := by rw [hs]; exact hsz
  have hslen : lenDim P.patch.cm d = c.len := by
    unfold lenDim Ents.lenOf; rw [hc]; rfl
  obtain ⟨time, ht, htl, htn⟩ := C14_represents_partial (sliceKind k) (sliceTimes s c) (by
    rw [sliceTimes_eq]
    exact storable_progression (mul_ne_zero (by exact_mod_cast (by omega : s.hop ≠ 0)) (abs_ne_zero.2 hv.step_ne)) _)
  obtain ⟨freq, hf, hfl, hfn⟩ := C14_represents_partial .float (sliceFreqs s (stepFloat k c.step)) (by
    rw [sliceFreqs_eq]
    exact storable_progression (one_div_ne_zero (mul_ne_zero (by exact_mod_cast (by omega : s.mfft ≠ 0)) (abs_ne_zero.2 hdx))) _)
  have hmake : ShortTime.make (taper.get size) (hop.getD size) size (!P.isComplex) = .ok s := by
    unfold ShortTime.make
    rw [if_neg, hs]
    · rfl
    · simp only [Bool.or_eq_true, List.isEmpty_iff, decide_eq_true_eq, not_or, not_lt]
      exact ⟨⟨hne, hh⟩, by exact_mod_cast hlen⟩
  have hgetd : P.patch.data.shape.getD (P.patch.cm.dims.idxOf d) 0 = lenDim P.patch.cm d := shape_getD hp.shape hd.even.1
  obtain ⟨A, hA⟩ : ∃ A, s.transform (detr.getD id) P.patch.data (P.patch.cm.dims.idxOf d) (stepFloat k c.step) = .ok A := by
    unfold ShortTime.transform
    rw [if_neg (by rw [hgetd]; omega)]
    split_ifs
    · exact ⟨_, rfl⟩
    · exact ⟨_, rfl⟩
  obtain ⟨cm, hcm, hS⟩ := stftCoords_spec (s := s) hp.regular.wf hp.readable hd hc ht hf (win := wc) (by rw [hs]; exact hwin)
  have hax : P.patch.cm.dims.idxOf d < P.patch.data.shape.length := by
    rw [shape_dims hp.shape hd.even.1, List.length_map]; exact List.idxOf_lt_length_of_mem hd.even.1
  have hshape : cm.shape = A.shape := by
    rw [transform_shape hax hA, hgetd, shape_dims hp.shape hd.even.1, set_idxOf hp.regular.distinct _ hd.even.1]
    unfold CM.shape
    rw [if_neg (by rw [hS.dims]; simp), hS.dims, List.map_append, List.map_map]
    congr 1
    · apply List.map_congr_left
      intro e he
      simp only [Function.comp]
      by_cases hed : e = d
      · rw [if_pos hed, if_pos hed]
        unfold Ents.lenOf
        rw [hS.freq]
        show freq.length = _
        rw [hfn]
        simp [sliceFreqs]
      · rw [if_neg hed, if_neg hed]
        obtain ⟨x, _, h, _⟩ := CM.WellFormed.get_dim hp.regular.wf he
        obtain ⟨y, hy, hy'⟩ := hS.kept e hed _ _ h (by simpa using Ne.symm hed)
        unfold lenDim Ents.lenOf
        rw [hy', h]
        show y.shape.getD 0 0 = x.shape.getD 0 0
        rw [(canon_same hy).1]
    · simp only [List.map_cons, List.map_nil]
      unfold Ents.lenOf
      rw [hS.time]
      show [time.length] = _
      rw [htn, hslen]
      simp [sliceTimes]
  refine ⟨A, cm, time, freq, ?_, hA, hS, htl, hfl, hshape⟩
  unfold SPatch.stft
  rw [if_neg (by simpa using hd.even.1), hc]
  simp only [hres, bind, Except.bind, hmake, hA, hcm]
  unfold PatchM.new
  rw [if_pos hshape, hft]
  rfl

/-! ### The inverse -/

theorem vals_of_some {c : Coord} {l : List ℚ} (hl : l ≠ []) (h : c.labels = l.map some) : c.vals = l := by
  have hn : ∀ n, c ≠ .part n := by
    rintro n rfl
    cases l with
    | nil => exact hl rfl
    | cons a l =>
      cases n with
      | zero => cases h
      | succ n => cases h
  rw [labels_vals hn] at h
  exact List.map_injective_iff.2 (Option.some_injective _) h

theorem istftCoords_spec {s : ShortTime} {m q : CM} (hm : Regular m) {d : String} (hd : Sliceable m d) {k : Kind} {c : RangeCoord}
    (hc : m.ents.get? d = some ([d], .one k (.range c))) (hown : ∀ n ds x, m.ents.get? n = some (ds, x) → d ∉ ds → n ∈ m.dims)
    {time freq win : Coord} (hS : ShortCoords s m q d k c time freq win) :
    ∃ r, istftCoords q (m.dims.idxOf d) m.dims.length = .ok (r, .one k (.range c)) ∧ WellFormed r ∧ r.dims = m.dims ∧
      r.ents.get? d = some ([d], .one k (.range c)) ∧
      (∀ n ≠ d, ∀ ds x, m.ents.get? n = some (ds, x) → d ∉ ds → ∃ y, x.canon = .ok y ∧ r.ents.get? n = some (ds, y)) ∧
      (∀ n ≠ d, ∀ ds x, m.ents.get? n = some (ds, x) → d ∈ ds → r.ents.get? n = none) ∧ ∀ n, m.ents.get? n = none → r.ents.get? n = none := by
  have hfree : ∀ n ∈ ["ft_" ++ d, "_stft_window", "_stft_old_coord"], n ≠ d := by
    rintro n hn rfl
    rw [hd.free _ hn] at hc; cases hc
  have hil : m.dims.idxOf d < m.dims.length := List.idxOf_lt_length_of_mem hd.even.1
  have hgf : q.dims.getD (m.dims.idxOf d) "" = "ft_" ++ d := by
    rw [hS.dims, List.getD_eq_getElem?_getD, List.getElem?_append_left (by simpa using hil), List.getElem?_map, List.getElem?_eq_getElem hil]
    simp
  have hgt : q.dims.getD m.dims.length "" = d := by
    rw [hS.dims, List.getD_eq_getElem?_getD, List.getElem?_append_right (by simp)]
    simp
  have hdims : (q.dims.set (m.dims.idxOf d) d).eraseIdx m.dims.length = m.dims := by
    have hset : (m.dims.map fun e => if e = d then "ft_" ++ d else e).set (m.dims.idxOf d) d = m.dims := by
      apply List.ext_getElem
      · simp
      · intro j h1 h2
        rw [List.getElem_set]
        split_ifs with hj
        · subst hj; exact (List.getElem_idxOf h2).symm
        · rw [List.getElem_map, if_neg]
          intro he
          apply hj
          rw [← he]
          exact List.Nodup.idxOf_getElem hm.distinct _ _
    rw [hS.dims, List.set_append_left _ _ (by simpa using hil), hset, List.eraseIdx_append_of_length_le (le_refl _)]
    simp
  set rest : Ents := q.ents.filter fun e => e.1 != "_stft_window" && e.1 != "_stft_old_coord" && e.1 != "ft_" ++ d with hrest
  have hrestget : ∀ n, Dict.get? rest n = if n ∈ ["ft_" ++ d, "_stft_window", "_stft_old_coord"] then none else q.ents.get? n := by
    intro n
    rw [hrest, Dict.get?_filter q.ents (fun x => x != "_stft_window" && x != "_stft_old_coord" && x != "ft_" ++ d)]
    by_cases h : n ∈ ["ft_" ++ d, "_stft_window", "_stft_old_coord"]
    · rw [if_pos h, if_neg]
      simp only [List.mem_cons, List.not_mem_nil, or_false] at h
      rcases h with rfl | rfl | rfl <;> simp
    · rw [if_neg h, if_pos]
      simp only [List.mem_cons, List.not_mem_nil, or_false, not_or] at h
      simp [h.1, h.2.1, h.2.2]
  set coords : Dict CArg := Dict.set (rest.map fun e => (e.1, CArg.simple e.2.2)) d (.simple (.one k (.range c))) with hcoords
  have hget : ∀ n, Dict.get? coords n = if n = d then some (.simple (.one k (.range c))) else (Dict.get? rest n).map fun v => .simple v.2 := by
    intro n
    rw [hcoords, Dict.get?_set, Dict.get?_map_val rest (fun _ v => CArg.simple v.2)]
  have hck : (Dict.keys coords).Nodup := by
    apply Dict.nodup_set
    rw [Dict.keys_map_val rest (fun _ v => CArg.simple v.2)]
    exact Dict.nodup_filter hS.wf.names _
  -- what is left
  have hleft : ∀ n ≠ d, ∀ v, Dict.get? rest n = some v → n ∈ m.dims ∧ ∃ x y, m.ents.get? n = some ([n], x) ∧ x.canon = .ok y ∧ v = ([n], y) := by
    intro n hn v hv
    rw [hrestget] at hv
    split_ifs at hv with h
    cases hx : m.ents.get? n with
    | none => rw [hS.none n hx h] at hv; cases hv
    | some w =>
      obtain ⟨ds, x⟩ := w
      by_cases hds : d ∈ ds
      · rw [hS.lost n hn ds x hx hds] at hv; cases hv
      · have hnd := hown n ds x hx hds
        obtain ⟨x', _, hx', _⟩ := CM.WellFormed.get_dim hm.wf hnd
        rw [hx] at hx'; cases hx'
        obtain ⟨y, hy, hy'⟩ := hS.kept n hn _ _ hx hds
        rw [hv] at hy'; cases hy'
        exact ⟨hnd, x, y, rfl, hy, rfl⟩
  have hmnot : ∀ n v, m.ents.get? n = some v → n ∉ ["ft_" ++ d, "_stft_window", "_stft_old_coord"] := by
    intro n v hv hn
    rw [hd.free n hn] at hv; cases hv
  obtain ⟨r, hr, hrd, hrk, hrg⟩ := getCoordManager_total hck (dims := m.dims) m.ents.lenOf (by
    intro n a ha
    rw [hget] at ha
    split_ifs at ha with h
    · cases ha
      subst h
      refine ⟨_, _, _, rfl, rfl, by simpa using hd.even.1, fun _ => rfl, Or.inr ?_⟩
      simp only [List.map_cons, List.map_nil]
      unfold Ents.lenOf
      rw [hc]
      rfl
    · cases hv : Dict.get? rest n with
      | none => rw [hv] at ha; cases ha
      | some v =>
        rw [hv] at ha; cases ha
        obtain ⟨hnd, x, y, hx, hy, rfl⟩ := hleft n h v hv
        refine ⟨_, _, _, rfl, canon_fixed hy, by simpa using hnd, fun _ => rfl, Or.inr ?_⟩
        rw [(canon_same hy).1, CM.WellFormed.shape_eq hm.wf (Dict.mem_of_get? hx) (by simp)]) (by
    intro e he
    rw [Dict.mem_keys]
    by_cases h : e = d
    · exact ⟨_, by rw [hget, if_pos h]⟩
    · obtain ⟨x, _, hx, _⟩ := CM.WellFormed.get_dim hm.wf he
      obtain ⟨y, _, hy'⟩ := hS.kept e h _ _ hx (by simpa using Ne.symm h)
      exact ⟨_, by rw [hget, if_neg h, hrestget, if_neg (hmnot _ _ hx), hy']; rfl⟩)
  refine ⟨r, ?_, (CM.getCoordManager_wf hr hck).1, hrd, ?_, ?_, ?_, ?_⟩
  · unfold istftCoords
    rw [hS.old]
    simp only [hgf, hgt, hdims]
    rw [← hrest, ← hcoords, hr]
    rfl
  · obtain ⟨x, h1, h2⟩ := hrg d (.simple (.one k (.range c))) [d] _ (by rw [hget, if_pos rfl]) rfl
    cases h1
    exact h2
  · intro n hn ds x hx hds
    obtain ⟨y, hy, hy'⟩ := hS.kept n hn _ _ hx hds
    have hnd := hown n ds x hx hds
    obtain ⟨x', _, hx', _⟩ := CM.WellFormed.get_dim hm.wf hnd
    rw [hx] at hx'; cases hx'
    obtain ⟨z, h1, h2⟩ := hrg n (.simple y) [n] y (by rw [hget, if_neg hn, hrestget, if_neg (hmnot _ _ hx), hy']; rfl) rfl
    rw [canon_fixed hy] at h1; cases h1
    exact ⟨_, hy, h2⟩
  · intro n hn ds x hx hds
    rw [Dict.get?_eq_none, hrk, ← Dict.get?_eq_none, hget, if_neg hn, hrestget, if_neg (hmnot _ _ hx), hS.lost n hn ds x hx hds]
    rfl
  · intro n hx
    have hn : n ≠ d := by rintro rfl; rw [hc] at hx; cases hx
    rw [Dict.get?_eq_none, hrk, ← Dict.get?_eq_none, hget, if_neg hn, hrestget]
    split_ifs with h
    · rfl
    · rw [hS.none n hx h]; rfl

/-- The inverse of a transform that was just made. -/
theorem istft_run {p : PatchM ℂ} (hp : Ready p) {d : String} (hd : Sliceable p.cm d) {k : Kind} {c : RangeCoord}
    (hc : p.cm.ents.get? d = some ([d], .one k (.range c))) (hown : ∀ n ds x, p.cm.ents.get? n = some (ds, x) → d ∉ ds → n ∈ p.cm.dims)
    {s : ShortTime} (hh : 1 ≤ s.hop) (hlen : s.len ≤ s.mfft) (hcov : SeesAll s.win s.hop) (hreal : s.onesided = true → RealData p.data)
    {A : Nd ℂ} (hA : s.transform id p.data (p.cm.dims.idxOf d) (stepFloat k c.step) = .ok A) {cm : CM} {time freq wc : Coord}
    (hS : ShortCoords s p.cm cm d k c time freq wc) (hwc : wc.vals = s.win) :
    ∃ R, SPatch.istft ⟨⟨cm, A⟩, true, some ⟨d, "ft_" ++ d, s.hop, s.mfft, s.onesided, false⟩⟩ = .ok R ∧ R.isComplex = !s.onesided ∧ R.info = none ∧
      Restored p R.patch [d] := by
  have hv : c.Valid := hp.regular.classes _ _ _ _ (Dict.mem_of_get? hc)
  have hwin1 : 1 ≤ s.len := by
    have := hcov.1
    unfold ShortTime.len
    omega
  have hne : s.win ≠ [] := by
    intro h
    unfold ShortTime.len at hwin1
    rw [h] at hwin1
    simp at hwin1
  obtain ⟨r, hr, hrw, hrd, hrdd, hrk, hrl, hrn⟩ := istftCoords_spec hp.regular hd hc hown hS
  have hslen : lenDim p.cm d = c.len := by unfold lenDim Ents.lenOf; rw [hc]; rfl
  have hgetd : p.data.shape.getD (p.cm.dims.idxOf d) 0 = lenDim p.cm d := shape_getD hp.shape hd.even.1
  have hplen : p.data.shape.length = p.cm.dims.length := by rw [shape_dims hp.shape hd.even.1, List.length_map]
  have hax : p.cm.dims.idxOf d < p.data.shape.length := by rw [hplen]; exact List.idxOf_lt_length_of_mem hd.even.1
  obtain ⟨B, hB, hBs, hBg⟩ := inverse_transform hh hlen hcov hax (stepFloat_ne hv.step_ne) hreal hA
  have hnd : d ∉ p.cm.dims.map fun e => if e = d then "ft_" ++ d else e := by
    intro h
    obtain ⟨e, _, h⟩ := List.mem_map.1 h
    split_ifs at h with he
    · have := hd.free ("ft_" ++ d) (by simp)
      rw [h, hc] at this; cases this
    · exact he h
  have hidxd : cm.dims.idxOf d = p.cm.dims.length := by
    rw [hS.dims, List.idxOf_append_of_notMem hnd]; simp
  have hidxf : cm.dims.idxOf ("ft_" ++ d) = p.cm.dims.idxOf d := by
    have hm : "ft_" ++ d ∈ p.cm.dims.map fun e => if e = d then "ft_" ++ d else e := List.mem_map.2 ⟨d, hd.even.1, if_pos rfl⟩
    rw [hS.dims, List.idxOf_append_of_mem hm]
    have := idxOf_rename (l := p.cm.dims) (g := fun e => if e = d then "ft_" ++ d else e) (by
      have := rename_inj hp.regular.wf (D := [d]) (by simpa using hd.free ("ft_" ++ d) (by simp))
      intro a ha b hb h
      refine this a ha b hb ?_
      simp only [List.mem_singleton]
      by_cases ha' : a = d <;> by_cases hb' : b = d <;> simp_all) hd.even.1
    rw [if_pos rfl] at this
    exact this
  have hshort : StftInfo.short ⟨d, "ft_" ++ d, s.hop, s.mfft, s.onesided, false⟩ cm = .ok s := by
    unfold StftInfo.short
    rw [hS.win]
    simp only [MCoord.reals, bind, Except.bind, hwc]
    unfold ShortTime.make
    rw [if_neg]
    · simp
    · simp only [Bool.or_eq_true, List.isEmpty_iff, decide_eq_true_eq, not_or, not_lt]
      exact ⟨⟨hne, by exact_mod_cast hh⟩, by exact_mod_cast hlen⟩
  have hinv : s.invertible = true := ((covers_iff hh hwin1).1 hcov).1
  have hext := extent_ge hh hcov c.len
  have hkeep : (B.keepFirst (p.cm.dims.idxOf d) c.len).shape = p.data.shape := by
    show B.shape.set _ (min c.len (B.shape.getD _ 0)) = _
    rw [hBs, List.set_set, getD_set_self hax, hgetd, hslen, min_eq_left hext, ← hslen, ← hgetd, set_self_getD]
  have hrs : r.shape = p.data.shape := by
    rw [← hp.shape]
    unfold CM.shape
    rw [hrd, if_neg hp.ne, if_neg hp.ne]
    apply List.map_congr_left
    intro e he
    by_cases hed : e = d
    · subst hed
      unfold Ents.lenOf
      rw [hrdd, hc]
    · obtain ⟨x, _, hx, _⟩ := CM.WellFormed.get_dim hp.regular.wf he
      obtain ⟨y, hy, hy'⟩ := hrk e hed _ _ hx (by simpa using Ne.symm hed)
      unfold Ents.lenOf
      rw [hy', hx]
      show y.shape.getD 0 0 = x.shape.getD 0 0
      rw [(canon_same hy).1]
  refine ⟨⟨⟨r, B.keepFirst (p.cm.dims.idxOf d) c.len⟩, !s.onesided, none⟩, ?_, rfl, rfl, hrd, hkeep, ?_, ?_, ?_, hrn⟩
  · unfold SPatch.istft
    simp only
    rw [if_neg (by
      rw [not_or, not_not, not_not, hS.dims]
      exact ⟨by simp, List.mem_append_left _ (List.mem_map.2 ⟨d, hd.even.1, if_pos rfl⟩)⟩)]
    simp only [hshort, bind, Except.bind, hinv, Bool.not_true, Bool.or_false, Bool.false_eq_true, if_false, hidxd, hidxf, hr]
    have e1 : MCoord.stepNum (.one k (.range c)) = .ok (stepFloat k c.step) := rfl
    have e2 : MCoord.len (.one k (.range c)) = c.len := rfl
    rw [e1, e2]
    simp only [← hplen, hB]
    rw [if_neg (by rw [hkeep, hrs]; simp)]
    unfold PatchM.new
    rw [if_pos (by rw [hrs, hkeep])]
    rfl
  · intro i hi
    exact hBg i hi
  · intro n ds x hx hn hsto i hi
    by_cases hnd' : n = d
    · subst hnd'
      rw [hc] at hx; cases hx
      rw [label_dim hrdd, label_dim hc]
      unfold posAlong
      rw [hrd]
    · have hds : d ∉ ds := by
        rcases hn with h | h
        · exact absurd (by simpa using h) hnd'
        · intro hd'
          exact h d hd' (by simp)
      obtain ⟨y, hy, hy'⟩ := hrk n hnd' ds x hx hds
      exact label_kept hx hy' (canon_same hy) hsto i fun e _ => by rw [hrd]
  · rintro n hn ds x hx ⟨e, he, hed⟩
    rw [List.mem_singleton] at hed hn
    exact hrl n hn ds x hx (hed ▸ he)

end Verif
