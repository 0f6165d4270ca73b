import Verif.Proof.FourierRound
import Verif.Proof.CalculusPatch
import Verif.Spec.Fourier
/-! # Lemmas: the transform of a patch -/
namespace Verif
open Spec

theorem set_idxOf {l : List String} (hn : l.Nodup) (f : String → ℕ) {r : String} (hr : r ∈ l) (v : ℕ) :
    (l.map f).set (l.idxOf r) v = l.map fun d => if d = r then v else f d := by
  induction l with
  | nil => cases hr
  | cons a l ih =>
    rw [List.nodup_cons] at hn
    by_cases h : a = r
    · subst h
      rw [List.idxOf_cons_self, List.map_cons, List.set_cons_zero, List.map_cons, if_pos rfl]
      congr 1
      apply List.map_congr_left
      intro d hd
      rw [if_neg (by rintro rfl; exact hn.1 hd)]
    · rw [List.idxOf_cons_ne _ h, List.map_cons, List.set_cons_succ, ih hn.2 ((List.mem_cons.1 hr).resolve_left (Ne.symm h)), List.map_cons, if_neg h]

theorem idxOf_rename {l : List String} {g : String → String} (hg : ∀ a ∈ l, ∀ b ∈ l, g a = g b → a = b) {d : String} (hd : d ∈ l) :
    (l.map g).idxOf (g d) = l.idxOf d := by
  induction l with
  | nil => cases hd
  | cons a l ih =>
    by_cases h : a = d
    · subst h
      rw [List.map_cons, List.idxOf_cons_self, List.idxOf_cons_self]
    · have hd' := (List.mem_cons.1 hd).resolve_left (Ne.symm h)
      rw [List.map_cons, List.idxOf_cons_ne _ h, List.idxOf_cons_ne _ (fun h' => h (hg a List.mem_cons_self d hd h')),
        ih (fun a ha b hb => hg a (List.mem_cons_of_mem _ ha) b (List.mem_cons_of_mem _ hb)) hd']

/-- The names after the transform are different. -/
theorem rename_inj {m : CM} (hw : WellFormed m) {D : List String} (hf : ∀ d ∈ D, m.ents.get? ("ft_" ++ d) = none) :
    ∀ a ∈ m.dims, ∀ b ∈ m.dims, (if a ∈ D then "ft_" ++ a else a) = (if b ∈ D then "ft_" ++ b else b) → a = b := by
  intro a ha b hb h
  obtain ⟨ca, _, h1, _⟩ := CM.WellFormed.get_dim hw ha
  obtain ⟨cb, _, h2, _⟩ := CM.WellFormed.get_dim hw hb
  split_ifs at h with h3 h4 h4
  · exact ft_inj h
  · rw [← h, hf a h3] at h2; cases h2
  · rw [h, hf b h4] at h1; cases h1
  · exact h

theorem spacing_dx (m : CM) (d : String) : spacingOf m d = dxOf m d := by
  simp only [spacingOf, dxOf, ← stepFloat_number]
  rfl

/-! ### Fourier sums -/

theorem fourierSum_nest (p : PatchM ℂ) {f : String → ℚ} {n : ℕ → ℕ} {φ : ℕ → ℕ → ℂ} : ∀ {D : List String},
    (∀ d ∈ D, n (p.cm.dims.idxOf d) = lenDim p.cm d) →
    (∀ d ∈ D, ∀ j : ℕ, φ (p.cm.dims.idxOf d) j = wave (f d * (j * spacingOf p.cm d))) →
    ∀ i, fourierSum p f D i = nest n φ p.data.get (D.map p.cm.dims.idxOf) i * (((D.map (spacingOf p.cm)).prod : ℚ) : ℂ)
  | [], _, _, i => by simp [fourierSum, nest]
  | d :: D, hn, hφ, i => by
    show ((List.range (lenDim p.cm d)).map fun j : ℕ => _).sum = (∑ j ∈ Finset.range (n (p.cm.dims.idxOf d)), _) * _
    rw [list_sum_range, hn d (by simp), Finset.sum_mul]
    refine Finset.sum_congr rfl fun j _ => ?_
    rw [fourierSum_nest p (fun e he => hn e (by simp [he])) (fun e he => hφ e (by simp [he])), hφ d (by simp), List.map_cons, List.prod_cons]
    push_cast
    ring

theorem fourierSum_perm (p : PatchM ℂ) (f : String → ℚ) (hinj : ∀ a ∈ p.cm.dims, ∀ b, p.cm.dims.idxOf a = p.cm.dims.idxOf b → a = b) {D D' : List String} (h : D.Perm D') :
    (∀ d ∈ D, d ∈ p.cm.dims) → D.Nodup → ∀ i, fourierSum p f D i = fourierSum p f D' i := by
  induction h with
  | nil => intro _ _ i; rfl
  | cons d _ ih =>
    intro hd hn i
    rw [List.nodup_cons] at hn
    show ((List.range (lenDim p.cm d)).map fun j : ℕ => _).sum = ((List.range (lenDim p.cm d)).map fun j : ℕ => _).sum
    congr 1
    apply List.map_congr_left
    intro j _
    rw [ih (fun e he => hd e (by simp [he])) hn.2]
  | swap a b l =>
    intro hd hn i
    have hab : p.cm.dims.idxOf b ≠ p.cm.dims.idxOf a := fun h => by
      have := hinj b (hd b (by simp)) a h
      subst this
      simp at hn
    simp only [fourierSum, list_sum_range, Finset.sum_mul]
    rw [Finset.sum_comm]
    refine Finset.sum_congr rfl fun j _ => Finset.sum_congr rfl fun k _ => ?_
    rw [List.set_comm _ _ hab]
    ring
  | trans h1 _ ih1 ih2 =>
    intro hd hn i
    rw [ih1 hd hn, ih2 (fun d h => hd d (h1.mem_iff.2 h)) (h1.nodup_iff.1 hn)]

theorem idxOf_inj_mem {l : List String} {a b : String} (ha : a ∈ l) (h : l.idxOf a = l.idxOf b) : a = b := by
  have h1 := List.idxOf_lt_length_of_mem ha
  have h2 : l.idxOf b < l.length := by omega
  have e1 : l[l.idxOf a]'h1 = a := List.getElem_idxOf (xs := l) h1
  have e2 : l[l.idxOf b]'h2 = b := List.getElem_idxOf (xs := l) h2
  rw [← e1, ← e2]
  simp [h]

/-! ### The transform -/

/-- Which transforms there are: without a real dimension, or with the last one real and data that are not complex. -/
def RealLast (P : FPatch) (D : List String) (real : Option String) : Prop :=
  real = none ∨ ∃ L r, D = L ++ [r] ∧ real = some r ∧ P.isComplex = false

/-- The number of frequencies or samples. -/
def freqLen (m : CM) (D : List String) (real : Option String) (N : String → ℕ) (d : String) : ℕ :=
  if real = some d then N d / 2 + 1 else if d ∈ D then N d else m.ents.lenOf d

structure Dft (P : FPatch) (D : List String) (real : Option String) (pad : Bool) (N : String → ℕ) (Q : FPatch) (p' : PatchM ℂ) : Prop where
  ext : Extended P.patch p' N D
  spec : Spectrum p'.cm Q.patch.cm (if pad then some P.patch.cm else none) real D
  shape : Q.patch.data.shape = P.patch.cm.dims.map (freqLen P.patch.cm D real N)
  data : dftData false p'.data real (D.map P.patch.cm.dims.idxOf) (D.map (dxOf P.patch.cm)) = .ok Q.patch.data
  complex : Q.isComplex = true
  padded : Q.padded = some pad

theorem dftOver_spec {fast : ℕ → ℕ} {P : FPatch} (hm : Regular P.patch.cm) (hr : Readable P.patch.cm) (hne : P.patch.cm.dims ≠ [])
    (hsh : P.patch.cm.shape = P.patch.data.shape) {D : List String} (hD : FtReady P.patch.cm D) {real : Option String} (hreal : RealLast P D real)
    {pad : Bool} (hpos : pad = true → ∀ d ∈ D, ∀ k r, P.patch.cm.ents.get? d = some ([d], .one k (.range r)) → 0 < r.step) (hf : ∀ n, n ≤ fast n) :
    ∃ Q p', P.dftOver fast D real pad = .ok Q ∧
      Dft P D real pad (fun d => if pad then fast (P.patch.cm.ents.lenOf d) else P.patch.cm.ents.lenOf d) Q p' := by
  set p := P.patch with hp
  set N : String → ℕ := fun d => if pad then fast (p.cm.ents.lenOf d) else p.cm.ents.lenOf d with hN
  have hlen1 : ∀ d ∈ D, 1 ≤ p.cm.ents.lenOf d := by
    intro d hd
    obtain ⟨k, r, h, hv⟩ := hD.even d hd
    unfold Ents.lenOf
    rw [h]
    exact hv.len_pos
  have hN1 : ∀ d ∈ D, 1 ≤ N d := by
    intro d hd
    have := hlen1 d hd
    simp only [hN]
    split_ifs
    · exact le_trans this (hf _)
    · exact this
  obtain ⟨p', h1, hE⟩ := padIf_spec hm hr hne hsh hD hpos hf
  change Extended p p' N D at hE
  have hD' := hE.ready hD hN1
  have hsp : D.mapM p'.evenSpacing = .ok (D.map fun d => (dxOf p'.cm d, p'.cm.dims.idxOf d)) :=
    evenSpacings hD'.dims fun d hd => by obtain ⟨k, r, h, _⟩ := hD'.even d hd; exact ⟨k, r, h⟩
  obtain ⟨cm, h2, hS⟩ := dftCoords_spec hE.wf hE.readable hD' (orig := if pad then some p.cm else none) (by
    intro o ho d hd
    split_ifs at ho
    cases ho
    obtain ⟨k, r, h, _⟩ := hD.even d hd
    exact ⟨_, _, h, rfl⟩) real
  have haxes : (D.map fun d => (dxOf p'.cm d, p'.cm.dims.idxOf d)).map Prod.snd = D.map p.cm.dims.idxOf := by
    rw [List.map_map]
    apply List.map_congr_left
    intro d _
    simp only [Function.comp, hE.dims]
  have hdxs' : (D.map fun d => (dxOf p'.cm d, p'.cm.dims.idxOf d)).map Prod.fst = D.map (dxOf p'.cm) := by
    rw [List.map_map]; rfl
  have hdxs : D.map (dxOf p'.cm) = D.map (dxOf p.cm) := by
    apply List.map_congr_left
    intro d hd
    exact hE.dxOf hD hd
  have hdist : p.cm.dims.Nodup := hm.distinct
  obtain ⟨a, h3, h4, hash⟩ : ∃ a, dftData P.isComplex p'.data real (D.map p.cm.dims.idxOf) (D.map (dxOf p.cm)) = .ok a ∧
      dftData false p'.data real (D.map p.cm.dims.idxOf) (D.map (dxOf p.cm)) = .ok a ∧ a.shape = p.cm.dims.map (freqLen p.cm D real N) := by
    rcases hreal with rfl | ⟨L, r, rfl, rfl, hc⟩
    · refine ⟨_, rfl, rfl, ?_⟩
      rw [shiftAll_shape]
      show ((p'.data.fftn _).shape) = _
      rw [fftn_shape, hE.shape]
      apply List.map_congr_left
      intro d _
      unfold freqLen
      simp
    · rw [hc]
      refine ⟨_, rfl, rfl, ?_⟩
      rw [shiftAll_shape]
      show ((p'.data.rfftn _).shape) = _
      rw [List.map_append, List.map_singleton, rfftn_shape, hE.shape]
      have hr := hD.dims r (by simp)
      rw [set_idxOf hdist _ hr]
      apply List.map_congr_left
      intro d hd
      unfold freqLen
      by_cases hdr : d = r
      · subst hdr
        rw [if_pos rfl, if_pos rfl, getD_map_idxOf hr, if_pos (by simp)]
      · rw [if_neg hdr, if_neg (fun h => hdr (Option.some.inj h).symm)]
  have hcmd : cm.shape = a.shape := by
    unfold CM.shape
    rw [hS.dims, hE.dims, if_neg (by simpa using hne), hash, List.map_map]
    apply List.map_congr_left
    intro d hd
    simp only [Function.comp]
    by_cases hdD : d ∈ D
    · rw [if_pos hdD]
      unfold Ents.lenOf
      rw [hS.ft d hdD]
      show (freqRange _ _ _).len = _
      unfold freqRange freqLen
      rw [hE.lenOf hD hdD]
      by_cases hr : real = some d
      · simp [hr]
      · simp [hr, hdD]
    · rw [if_neg hdD]
      obtain ⟨c, _, hc, _⟩ := CM.WellFormed.get_dim hm.wf hd
      obtain ⟨x, hx, hx'⟩ := hE.kept d hdD _ _ hc (by simpa using hdD)
      obtain ⟨y, hy, hy'⟩ := hS.kept d hdD _ _ hx' (by simpa using hdD)
      have hr : real ≠ some d := by
        rintro rfl
        rcases hreal with h | ⟨L, r, rfl, h, _⟩
        · cases h
        · cases h; simp at hdD
      unfold freqLen Ents.lenOf
      rw [if_neg hr, if_neg hdD, hy', hc]
      simp only [MCoord.len]
      rw [(canon_same hy).1]
      rcases hx with rfl | hx
      · rfl
      · rw [(canon_same hx).1]
  refine ⟨⟨⟨cm, a⟩, true, some pad⟩, p', ?_, ⟨hE, hS, hash, h4, rfl, rfl⟩⟩
  unfold FPatch.dftOver
  rw [← hp]
  simp only [bind, Except.bind, h1, hsp]
  rw [hdxs', haxes, h2]
  simp only
  rw [hdxs, h3]
  simp only
  unfold PatchM.new
  rw [if_pos hcmd]
  rfl

/-- The name of a coordinate cannot be `ift_…` and so on. -/
theorem FtReady.of {m : CM} (hm : Regular m) {D : List String} (h : Transformable m D) : FtReady m D := by
  refine ⟨h.nodup, fun d hd => (h.even d hd).1, ?_, fun d hd => ftName_eq (h.forward d hd), fun d hd => (h.free d hd).1, fun d hd => (h.free d hd).2, ?_⟩
  · intro d hd
    obtain ⟨_, k, r, hc⟩ := h.even d hd
    exact ⟨k, r, hc, hm.classes _ _ _ _ (Dict.mem_of_get? hc)⟩
  · intro d hd
    have key : ∀ s : String, s.toList <:+: ("ft_" ++ d).toList → Suffixless s := by
      intro s hs
      unfold Suffixless matchesPrefixSuffix
      simp only [List.isEmpty_nil, if_true]
      rw [List.any_eq_false]
      intro t ht hc
      rw [List.any_eq_true] at hc
      obtain ⟨r, hr, hc⟩ := hc
      refine h.plain d hd t (by simp only [List.mem_cons, List.not_mem_nil, or_false] at ht ⊢; tauto) (List.IsInfix.trans ?_ hs)
      have h1 := List.isPrefixOf_iff_prefix.1 hc
      have h2 := (List.mem_tails _ _).1 hr
      exact h1.isInfix.trans h2.isInfix
    refine ⟨key d ?_, key _ (List.infix_refl _)⟩
    rw [String.toList_append]
    exact (List.suffix_append _ _).isInfix

theorem realLast_perm {D : List String} {real : Option String} (h : ∀ r, real = some r → r ∈ D) : (realLast D real).Perm D := by
  cases real with
  | none => exact List.Perm.refl _
  | some r =>
    show (D.erase r ++ [r]).Perm D
    exact (List.perm_append_singleton _ _).trans (List.perm_cons_erase (h r rfl)).symm

theorem FtReady.perm {m : CM} {D D' : List String} (h : FtReady m D) (hp : D'.Perm D) : FtReady m D' :=
  ⟨hp.nodup_iff.2 h.nodup, fun d hd => h.dims d (hp.mem_iff.1 hd), fun d hd => h.even d (hp.mem_iff.1 hd), fun d hd => h.fwd d (hp.mem_iff.1 hd),
    fun d hd => h.ftFree d (hp.mem_iff.1 hd), fun d hd => h.unFree d (hp.mem_iff.1 hd), fun d hd => h.plain d (hp.mem_iff.1 hd)⟩

theorem canon_via {c x y : MCoord} (h : x = c ∨ c.canon = .ok x) (hy : x.canon = .ok y) : c.canon = .ok y := by
  rcases h with rfl | h
  · exact hy
  · rw [canon_fixed h] at hy; cases hy; exact h

theorem label_kept {α β} {p : PatchM α} {q : PatchM β} {n : String} {ds : List String} {c y : MCoord} (hc : p.cm.ents.get? n = some (ds, c))
    (hy : q.cm.ents.get? n = some (ds, y)) (hs : SameValues c y) (hsto : ∀ k x, c = .one k x → Storable x.vals) (i : List ℕ)
    (hi : ∀ d ∈ ds, q.cm.dims.idxOf d = p.cm.dims.idxOf d) : label q n i = label p n i := by
  unfold label
  rw [hy, hc]
  cases ds with
  | nil => rfl
  | cons d ds =>
    show some (labelAt _ _ _ _) = some (labelAt _ _ _ _)
    have e : y.arr = c.arr := hs.2 hsto
    rw [e]
    congr 1
    unfold labelAt
    congr 1
    apply List.map_congr_left
    intro d hd
    rw [hi d hd]

theorem Dft.transformed {P Q : FPatch} {D L : List String} {real : Option String} {pad : Bool} {N : String → ℕ} {p' : PatchM ℂ}
    (hm : Regular P.patch.cm) (hne : P.patch.cm.dims ≠ []) (hsh : P.patch.cm.shape = P.patch.data.shape) (hD : FtReady P.patch.cm D)
    (hreal : RealLast P L real) (hL : L.Perm D) (hN : ∀ d ∈ D, P.patch.cm.ents.lenOf d ≤ N d)
    (h : Dft P L real pad N Q p') : Transformed P.patch Q.patch D real N := by
  set p := P.patch with hp
  set q := Q.patch with hq
  have hDL : FtReady p.cm L := hD.perm hL
  have hLD : ∀ d, d ∈ L ↔ d ∈ D := fun d => hL.mem_iff
  have hE : Extended p p' N L := h.ext
  have hS := h.spec
  have hdist : p.cm.dims.Nodup := hm.distinct
  have hlen1 : ∀ d ∈ D, 1 ≤ p.cm.ents.lenOf d := by
    intro d hd
    obtain ⟨k, r, h, hv⟩ := hD.even d hd
    unfold Ents.lenOf
    rw [h]
    exact hv.len_pos
  have hrD : ∀ d, real = some d → d ∈ D := by
    rintro d rfl
    rcases hreal with h | ⟨L', r, rfl, h, _⟩
    · cases h
    · cases h; exact (hLD _).1 (by simp)
  have hqd : q.cm.dims = p.cm.dims.map fun d => if d ∈ D then "ft_" ++ d else d := by
    rw [hS.dims, hE.dims]
    simp only [hLD]
  have hidx : ∀ d ∈ p.cm.dims, q.cm.dims.idxOf (if d ∈ D then "ft_" ++ d else d) = p.cm.dims.idxOf d := by
    intro d hd
    rw [hqd]
    exact idxOf_rename (rename_inj hm.wf hD.ftFree) hd
  have hshape : q.data.shape = p.cm.dims.map fun d => if real = some d then N d / 2 + 1 else if d ∈ D then N d else lenDim p.cm d := by
    rw [h.shape]
    apply List.map_congr_left
    intro d _
    unfold freqLen
    simp only [hLD]
    rfl
  have hfreq : ∀ d ∈ D, ∀ i, InRange q.data.shape i → label q ("ft_" ++ d) i =
      some (some (((posAlong p d i : ℚ) - (if real = some d then 0 else (N d / 2 : ℕ))) / (N d * spacingOf p.cm d))) := by
    intro d hd i hi
    have hdL := (hLD d).2 hd
    have hdd := hD.dims d hd
    have hft := hS.ft d hdL
    have hidx' := hidx d hdd
    rw [if_pos hd] at hidx'
    have hpos : i.getD (p.cm.dims.idxOf d) 0 < if real = some d then N d / 2 + 1 else N d := by
      rw [hshape] at hi
      have := inRange_getD hi hdd
      simpa [hd] using this
    have hdx : dxOf p.cm d ≠ 0 := by
      obtain ⟨k, r, hc, hv⟩ := hD.even d hd
      unfold dxOf
      rw [hc]
      exact stepFloat_ne hv.step_ne
    have hN1 : 1 ≤ N d := le_trans (hlen1 d hd) (hN d hd)
    unfold label
    rw [hft]
    simp only
    rw [hE.lenOf hDL hdL, hE.dxOf hDL hdL]
    rw [labelAt_own (freqRange_valid hN1 hdx _)]
    · rw [hidx', spacing_dx]
      unfold freqRange posAlong
      by_cases hr : real = some d
      · simp [hr]; ring
      · simp [hr]; ring
    · rw [hidx']
      unfold freqRange
      by_cases hr : real = some d
      · simpa [hr] using hpos
      · simpa [hr] using hpos
  have hpsh : p.data.shape = p.cm.dims.map p.cm.ents.lenOf := by rw [← hsh]; unfold CM.shape; rw [if_neg hne]
  refine ⟨hqd, hshape, hfreq, ?_, ?_, ?_⟩
  · intro i hi f hfi
    have hil : i.length = p.cm.dims.length := by rw [inRange_length hi, hshape]; simp
    have hf : ∀ d ∈ D, f d = ((posAlong p d i : ℚ) - (if real = some d then 0 else (N d / 2 : ℕ))) / (N d * spacingOf p.cm d) := by
      intro d hd
      have h1 := hfi d hd
      rw [hfreq d hd i hi] at h1
      simpa using h1.symm
    set axes := L.map p.cm.dims.idxOf with haxes
    have haxn : axes.Nodup := hDL.nodup.map_on fun a ha b hb h => idxOf_inj_mem (hDL.dims a ha) h
    have haxl : ∀ ax ∈ axes, ax < i.length := by
      intro ax hax
      obtain ⟨d, hd, rfl⟩ := List.mem_map.1 hax
      rw [hil]
      exact List.idxOf_lt_length_of_mem (hDL.dims d hd)
    -- the axes which are shifted
    obtain ⟨sh, b, hsub, hshn, hb, hbs, hdata, hshmem⟩ : ∃ (sh : List ℕ) (b : Nd ℂ), (∀ ax ∈ sh, ax ∈ axes) ∧ sh.Nodup ∧ b.get = (p'.data.fftn axes).get ∧
        (∀ ax ∈ sh, b.shape.getD ax 0 = p'.data.shape.getD ax 0) ∧
        q.data.get i = (b.shiftAll sh).get i * (((L.map (dxOf p.cm)).prod : ℚ) : ℂ) ∧
        ∀ d ∈ L, p.cm.dims.idxOf d ∈ sh ↔ real ≠ some d := by
      have hd := h.data
      rcases hreal with rfl | ⟨L', r, rfl, rfl, hc⟩
      · refine ⟨axes, p'.data.fftn axes, fun _ h => h, haxn, rfl, fun ax _ => by rw [fftn_shape], ?_, ?_⟩
        · unfold dftData at hd
          simp only [Except.ok.injEq] at hd
          rw [← hd, scale_shiftAll]
          rfl
        · intro d hd
          simp only [ne_eq, reduceCtorEq, not_false_eq_true, iff_true]
          exact List.mem_map_of_mem hd
      · have e : axes = L'.map p.cm.dims.idxOf ++ [p.cm.dims.idxOf r] := by rw [haxes, List.map_append]; rfl
        have hrn : p.cm.dims.idxOf r ∉ L'.map p.cm.dims.idxOf := by
          rw [e] at haxn
          intro hc
          exact (List.nodup_append.1 haxn).2.2 _ hc _ (by simp) rfl
        refine ⟨L'.map p.cm.dims.idxOf, p'.data.rfftn axes, ?_, ?_, ?_, ?_, ?_, ?_⟩
        · intro ax hax; rw [e]; exact List.mem_append_left _ hax
        · rw [e] at haxn; exact (List.nodup_append.1 haxn).1
        · rw [e]; exact rfftn_get (by rw [← e]; exact haxn)
        · intro ax hax
          rw [e, rfftn_shape, getD_set_ne]
          rintro rfl
          exact hrn hax
        · unfold dftData at hd
          simp only [Bool.false_eq_true, if_false, Except.ok.injEq] at hd
          rw [← hd, scale_shiftAll]
          have : (List.map (fun a => List.idxOf a p.cm.dims) (L' ++ [r])).dropLast = L'.map p.cm.dims.idxOf := by
            rw [List.map_append, List.map_singleton, List.dropLast_concat]
          rw [this]
          rfl
        · intro d hd
          constructor
          · intro hmem he
            cases he
            exact hrn hmem
          · intro hne'
            rcases List.mem_append.1 hd with h1 | h1
            · exact List.mem_map_of_mem h1
            · simp only [List.mem_singleton] at h1
              subst h1
              exact absurd rfl hne'
    rw [hdata, shifted_fftn haxn hsub hshn hb hbs haxl]
    have hp'sh : ∀ d ∈ p.cm.dims, p'.data.shape.getD (p.cm.dims.idxOf d) 0 = if d ∈ L then N d else p.cm.ents.lenOf d := by
      intro d hd
      rw [hE.shape, getD_map_idxOf hd]
    have hpsh' : ∀ d ∈ p.cm.dims, p.data.shape.getD (p.cm.dims.idxOf d) 0 = p.cm.ents.lenOf d := by
      intro d hd
      rw [hpsh, getD_map_idxOf hd]
    have hax' : ∀ ax < p.cm.dims.length, ∃ d ∈ p.cm.dims, p.cm.dims.idxOf d = ax := by
      intro ax hax
      exact ⟨p.cm.dims[ax], List.getElem_mem hax, hdist.idxOf_getElem _ hax⟩
    have hle : ∀ ax, p.data.shape.getD ax 0 ≤ p'.data.shape.getD ax 0 := by
      intro ax
      by_cases hax : ax < p.cm.dims.length
      · obtain ⟨d, hd, rfl⟩ := hax' ax hax
        rw [hpsh' d hd, hp'sh d hd]
        split_ifs with h
        · exact hN d ((hLD d).1 h)
        · exact le_refl _
      · rw [List.getD_eq_getElem?_getD, List.getElem?_eq_none (by rw [hpsh]; simpa using hax)]
        exact Nat.zero_le _
    have hp'l : p'.data.shape.length = p.cm.dims.length := by rw [hE.shape]; simp
    have hpl : p.data.shape.length = p.cm.dims.length := by rw [hpsh]; simp
    rw [nest_pad (n := fun ax => p.data.shape.getD ax 0) (g := p.data.get) (l := p.cm.dims.length) hle (by
        intro j hj hjr
        have hin : InRange p'.data.shape j := inRange_iff.2 ⟨by rw [hj, hp'l], by rw [hp'l]; exact hjr⟩
        by_cases hjp : InRange p.data.shape j
        · rw [hE.data j hin hjp, if_pos]
          have := (inRange_iff.1 hjp).2
          rwa [hpl] at this
        · rw [hE.zero j hin hjp, if_neg]
          intro hc
          exact hjp (inRange_iff.2 ⟨by rw [hj, hpl], by rw [hpl]; exact hc⟩)) haxn (by rw [← hil]; exact haxl) i hil (by
        intro ax hax hnot
        obtain ⟨d, hd, rfl⟩ := hax' ax hax
        have hdL : d ∉ L := fun hc => hnot (List.mem_map_of_mem hc)
        rw [hp'sh d hd, if_neg hdL]
        rw [hshape] at hi
        have := inRange_getD hi hd
        rwa [if_neg (fun hc => hdL ((hLD d).2 (hrD d hc))), if_neg (fun hc => hdL ((hLD d).2 hc))] at this)]
    rw [if_pos]
    · rw [← fourierSum_perm p f (fun a ha b hab => idxOf_inj_mem ha hab) hL hDL.dims hDL.nodup, fourierSum_nest p (n := fun ax => p.data.shape.getD ax 0)
        (φ := fun ax j => expi (j * (((i.getD ax 0 : ℕ) - if ax ∈ sh then ((p'.data.shape.getD ax 0 / 2 : ℕ) : ℚ) else 0) / (p'.data.shape.getD ax 0 : ℕ))))]
      · have : dxOf p.cm = spacingOf p.cm := by funext d; rw [spacing_dx]
        rw [this]
      · intro d hd
        exact hpsh' d (hDL.dims d hd)
      · intro d hd j
        have hdD := (hLD d).1 hd
        show expi _ = expi _
        congr 1
        rw [hf d hdD, hp'sh d (hDL.dims d hd), if_pos hd]
        have hdx : spacingOf p.cm d ≠ 0 := by
          obtain ⟨k, r, hc, hv⟩ := hD.even d hdD
          rw [spacing_dx]
          unfold dxOf
          rw [hc]
          exact stepFloat_ne hv.step_ne
        have e1 : (if p.cm.dims.idxOf d ∈ sh then ((N d / 2 : ℕ) : ℚ) else 0) = if real = some d then 0 else ((N d / 2 : ℕ) : ℚ) := by
          by_cases hr : real = some d
          · rw [if_neg (fun hc => (hshmem d hd).1 hc hr), if_pos hr]
          · rw [if_pos ((hshmem d hd).2 hr), if_neg hr]
        rw [e1]
        unfold posAlong
        have hN0 : (N d : ℚ) ≠ 0 := by
          have := le_trans (hlen1 d hdD) (hN d hdD)
          have : N d ≠ 0 := by omega
          exact_mod_cast this
        rw [Nat.cast_ite, Nat.cast_zero]
        generalize (if real = some d then (0 : ℚ) else ((N d / 2 : ℕ) : ℚ)) = t
        field_simp
    · intro ax hax hnot
      obtain ⟨d, hd, rfl⟩ := hax' ax hax
      have hdL : d ∉ L := fun hc => hnot (List.mem_map_of_mem hc)
      rw [hpsh' d hd]
      rw [hshape] at hi
      have := inRange_getD hi hd
      rwa [if_neg (fun hc => hdL ((hLD d).2 (hrD d hc))), if_neg (fun hc => hdL ((hLD d).2 hc))] at this
  · intro n ds c hc hds hsto i hi
    have hnD : n ∉ D := by
      intro hn
      obtain ⟨k, r, hc', _⟩ := hD.even n hn
      rw [hc] at hc'; cases hc'
      exact hds n (by simp) hn
    obtain ⟨x, hx, hx'⟩ := hE.kept n (fun h => hnD ((hLD n).1 h)) ds c hc (fun d hd hc => hds d hd ((hLD d).1 hc))
    obtain ⟨y, hy, hy'⟩ := hS.kept n (fun h => hnD ((hLD n).1 h)) ds x hx' (fun d hd hc => hds d hd ((hLD d).1 hc))
    have hcy := canon_via hx hy
    refine label_kept hc hy' (canon_same hcy) hsto i fun d hd => ?_
    have := hidx d (hm.wf.attached _ _ _ (Dict.mem_of_get? hc) d hd)
    rwa [if_neg (hds d hd)] at this
  · intro n hn ds c hc hl
    have hnL : n ∉ L := fun h => hn ((hLD n).1 h)
    cases hx : p'.cm.ents.get? n with
    | none =>
      refine hS.none n hx ?_ ?_
      · rintro d hd rfl
        rw [hDL.ftFree d hd] at hc; cases hc
      · rintro o _ d hd rfl
        rw [hDL.unFree d hd] at hc; cases hc
    | some v =>
      obtain ⟨es, e⟩ := v
      obtain ⟨c', hc'⟩ := hE.sub n es e hx
      rw [hc] at hc'; cases hc'
      obtain ⟨d, hd, hdD⟩ := hl
      exact hS.lost n hnL _ _ hx ⟨d, hd, (hLD d).2 hdD⟩

end Verif
