import Verif.Spec.Where
import Verif.Proof.ArithMain
import Verif.Proof.ArithArray
import Verif.Props.Equality
namespace Verif
open Spec

theorem broadcastLen_cases {n m t : ℕ} (h : Nd.broadcastLen n m = .ok t) : (n = m ∧ t = n) ∨ (n ≠ m ∧ n = 1 ∧ t = m) ∨ (n ≠ m ∧ n ≠ 1 ∧ m = 1 ∧ t = n) := by
  unfold Nd.broadcastLen at h
  split_ifs at h with h1 h2 h3
  · cases h; exact Or.inl ⟨h1, rfl⟩
  · cases h; exact Or.inr (Or.inl ⟨h1, h2, rfl⟩)
  · cases h; exact Or.inr (Or.inr ⟨h1, h2, h3, rfl⟩)

/-- An axis that stays as long as it was absorbs both others. -/
theorem broadcastLen_absorb {a c s b : ℕ} (h1 : Nd.broadcastLen a c = .ok s) (h2 : Nd.broadcastLen s b = .ok a) :
    Nd.broadcastLen a c = .ok a ∧ Nd.broadcastLen a b = .ok a := by
  have e1 := broadcastLen_cases h1
  have e2 := broadcastLen_cases h2
  have hs : s = a := by omega
  subst hs
  exact ⟨h1, h2⟩

theorem zip_absorb {l : List ℕ} : ∀ {x y s : List ℕ}, x.length = l.length → y.length = l.length → (l.zip x).mapM (fun p : ℕ × ℕ => Nd.broadcastLen p.1 p.2) = .ok s →
    (s.zip y).mapM (fun p : ℕ × ℕ => Nd.broadcastLen p.1 p.2) = .ok l →
    (l.zip x).mapM (fun p : ℕ × ℕ => Nd.broadcastLen p.1 p.2) = .ok l ∧ (l.zip y).mapM (fun p : ℕ × ℕ => Nd.broadcastLen p.1 p.2) = .ok l := by
  induction l with
  | nil => intro x y s _ _ _ _; exact ⟨rfl, rfl⟩
  | cons a l ih =>
    intro x y s hx hy h1 h2
    obtain ⟨c, x, rfl⟩ : ∃ c x', x = c :: x' := by cases x with
      | nil => cases hx
      | cons c x => exact ⟨c, x, rfl⟩
    obtain ⟨b, y, rfl⟩ : ∃ c x', y = c :: x' := by cases y with
      | nil => cases hy
      | cons c x => exact ⟨c, x, rfl⟩
    rw [List.zip_cons_cons, List.mapM_cons] at h1
    simp only [bind, Except.bind] at h1
    split at h1
    · cases h1
    rename_i t ht
    split at h1
    · cases h1
    rename_i ts hts
    cases h1
    rw [List.zip_cons_cons, List.mapM_cons] at h2
    simp only [bind, Except.bind] at h2
    split at h2
    · cases h2
    rename_i u hu
    split at h2
    · cases h2
    rename_i us hus
    have : u = a ∧ us = l := by
      cases h2; exact ⟨rfl, rfl⟩
    obtain ⟨rfl, rfl⟩ := this
    obtain ⟨e1, e2⟩ := broadcastLen_absorb ht hu
    obtain ⟨i1, i2⟩ := ih (by simpa using hx) (by simpa using hy) hts hus
    constructor
    · rw [List.zip_cons_cons, List.mapM_cons, e1, i1]; rfl
    · rw [List.zip_cons_cons, List.mapM_cons, e2, i2]; rfl

theorem broadcastShapes_length {s t u : List ℕ} (h : Nd.broadcastShapes s t = .ok u) : u.length = max s.length t.length := by
  unfold Nd.broadcastShapes at h
  have := (mapM_forall₂ h).length_eq
  rw [← this]
  simp only [List.length_zip, List.length_append, List.length_replicate]
  omega

/-- A shape that stays what it was absorbs both others. -/
theorem broadcastShapes_absorb {a c s b : List ℕ} (h1 : Nd.broadcastShapes a c = .ok s) (h2 : Nd.broadcastShapes s b = .ok a) :
    Nd.broadcastShapes a c = .ok a ∧ Nd.broadcastShapes a b = .ok a ∧ c.length ≤ a.length ∧ b.length ≤ a.length := by
  have l1 := broadcastShapes_length h1
  have l2 := broadcastShapes_length h2
  have hc : c.length ≤ a.length := by omega
  have hb : b.length ≤ a.length := by omega
  have hs : s.length = a.length := by omega
  refine ⟨?_, ?_, hc, hb⟩
  all_goals
    unfold Nd.broadcastShapes at h1 h2 ⊢
    rw [show c.length - a.length = 0 by omega, List.replicate_zero, List.nil_append] at h1
    rw [show b.length - s.length = 0 by omega, List.replicate_zero, List.nil_append, hs] at h2
  · rw [show c.length - a.length = 0 by omega, List.replicate_zero, List.nil_append]
    exact (zip_absorb (by simp; omega) (by simp; omega) h1 h2).1
  · rw [show b.length - a.length = 0 by omega, List.replicate_zero, List.nil_append]
    exact (zip_absorb (by simp; omega) (by simp; omega) h1 h2).2

theorem broadcastShapes_same {a b : List ℕ} (h : a.length = b.length) : Nd.broadcastShapes a b = (a.zip b).mapM fun p : ℕ × ℕ => Nd.broadcastLen p.1 p.2 := by
  unfold Nd.broadcastShapes
  rw [h]
  simp

variable {α β γ : Type}

/-- The laid out coordinates of the first patch are those of both, if it has all dimensions and they are labelled. -/
theorem merged_left {p p'' : PatchM α} {q q'' : PatchM β} {P Q : String → List ℕ} (hpl : DimsListed p.cm) (hL : LaidOut p p'' q q'' P Q)
    (ho : ∀ d ∈ q.cm.dims, d ∈ p.cm.dims) (hlab : Labelled p.cm) : Merged p''.cm q''.cm p''.cm := by
  have hD : joinDims' p.cm.dims q.cm.dims = p.cm.dims := by
    unfold joinDims'
    have : q.cm.dims.filter (fun d => decide (d ∉ p.cm.dims)) = [] := by
      rw [List.filter_eq_nil_iff]; intro d hd; simp [ho d hd]
    rw [this, List.append_nil]
  refine ⟨rfl, by rw [hL.left.dims, hL.right.dims], ?_, ?_, fun _ h => h⟩
  · intro d hd k x k' y hx hy _ _ _ _
    rw [hL.left.dims, hD] at hd
    refine ⟨k, x, hx, fun _ => ⟨rfl, rfl⟩, ?_⟩
    rintro ⟨e, rfl⟩ hyn hpos
    obtain ⟨kc, c, hc⟩ := hpl d hd
    obtain ⟨x', g1, g2, g3, g4⟩ := hL.left.own d hd kc c hc
    rw [hx] at g1
    simp only [Option.some.injEq, Prod.mk.injEq, true_and, MCoord.one.injEq] at g1
    obtain ⟨rfl, rfl⟩ := g1
    exfalso
    have hpos : 0 < e := hpos
    have hmem : (none : Option ℚ) ∈ (Coord.part e).labels := by
      simp only [Coord.labels, List.mem_replicate]; exact ⟨by omega, trivial⟩
    rw [g4] at hmem
    exact none_not_mem (hlab d _ c hd hc) _ (mem_takeIdx' hmem) rfl
  · intro name ds c hc hw _ _
    exact ⟨c, hc, stored_refl hw⟩

theorem overlays_equals {p q : CM} (ho : Overlays p q) (h : p.equals q (fun _ => none) (fun _ => none) = true) : p.dims = q.dims := by
  unfold CM.equals at h
  rw [Bool.and_eq_true, Bool.and_eq_true, sameSet_iff] at h
  exact ho.2 fun d hd => (h.1.1 d).1 hd

/-- What is known of a patch before it is laid over another. -/
structure Plain (p : PatchM α) : Prop where
  regular : Regular p.cm
  listed : DimsListed p.cm
  ne : p.cm.dims ≠ []
  shape : p.cm.shape = p.data.shape

theorem castIdx_full {s i : List ℕ} (h : s.length = i.length) : Nd.castIdx s i = Nd.clip s i := by
  unfold Nd.castIdx; rw [h]; simp

/-- Two aligned patches give a picked one, if nothing changes the shape of the first. -/
theorem laidOut_picked {p p'' : PatchM α} {q q'' : PatchM β} {P Q : String → List ℕ} (hp : Plain p) (hq : Plain q) (hJ : Joinable p.cm q.cm)
    (ho : Overlays p.cm q.cm) (hlab : Labelled p.cm) (hL : LaidOut p p'' q q'' P Q) {pick : List ℕ → α → β → γ} {r : PatchM γ} (hcm : r.cm = p''.cm)
    (hsh : r.data.shape = p''.data.shape) (hbc : Nd.broadcastShapes p''.data.shape q''.data.shape = .ok p''.data.shape)
    (hget : ∀ i, InRange r.data.shape i → r.data.get i = pick i (p''.data.get (Nd.clip p''.data.shape i)) (q''.data.get (Nd.clip q''.data.shape i))) :
    Picked pick p q r := by
  have hM := merged_left hp.listed hL ho.1 hlab
  have hlen : p''.data.shape.length = q''.data.shape.length := by rw [hL.left.shape, hL.right.shape]; simp
  rw [broadcastShapes_same hlen] at hbc
  set f : α → β → (List ℕ → γ) := fun a b i => pick i a b with hf
  set a0 : Nd (List ℕ → γ) := ⟨p''.data.shape, fun i => f (p''.data.get (Nd.clip p''.data.shape i)) (q''.data.get (Nd.clip q''.data.shape i))⟩ with ha0
  have hz : Nd.zipWith f p''.data q''.data = .ok a0 := by
    unfold Nd.zipWith
    rw [hbc]; rfl
  have hn : PatchM.new p''.cm a0 = .ok ⟨p''.cm, a0⟩ := by
    unfold PatchM.new
    rw [if_pos]
    exact hL.left.csh
  have hC := join_combined hp.regular hq.regular hp.listed hq.listed hp.ne hq.ne hp.shape hq.shape hJ hL.left hL.right hL.glued hL.onlyLeft hL.onlyRight
    hL.still hM hz hn
  obtain ⟨rcm, rdata⟩ := r
  simp only at hcm hsh hget
  subst hcm
  have hD : p.cm.dims ++ q.cm.dims.filter (fun d => d ∉ p.cm.dims) = p.cm.dims := by
    have : q.cm.dims.filter (fun d => decide (d ∉ p.cm.dims)) = [] := by
      rw [List.filter_eq_nil_iff]; intro d hd; simp [ho.1 d hd]
    rw [this, List.append_nil]
  refine ⟨hC.dims.trans hD, ?_, ?_, ?_, ?_⟩
  · intro i hi
    obtain ⟨j, k, h1, h2, h3, h4, h5, h6⟩ := hC.paired i (by rw [ha0]; exact hsh ▸ hi)
    refine ⟨j, k, h1, h2, h3, h4, h5, ?_⟩
    rw [hget i hi]
    exact congrFun h6 i
  · intro j k hj hk hT
    obtain ⟨i, h1, h2, h3, h4⟩ := hC.complete j k hj hk hT
    have hi : InRange rdata.shape i := by rw [hsh]; exact h1
    exact ⟨i, hi, h2, h3, by rw [hget i hi]; exact congrFun h4 i⟩
  · intro name ds c h1 h2 h3 h4 h5 i hi
    exact hC.others name ds c h1 h2 h3 h4 h5 i (by rw [ha0]; exact hsh ▸ hi)
  · intro name hn
    refine hC.none name hn fun hd => ?_
    obtain ⟨k, c, hc⟩ := hp.listed name (ho.1 name hd)
    rw [hn] at hc; cases hc

/-- What `where` does after the patches are aligned. -/
theorem choose_new {p r : PatchM α} {c : Nd Bool} {b : Nd α} (hcs : p.cm.shape = p.data.shape)
    (h : (do let a ← Nd.choose c p.data b; PatchM.new p.cm a) = .ok r) :
    r.cm = p.cm ∧ r.data.shape = p.data.shape ∧ Nd.broadcastShapes p.data.shape c.shape = .ok p.data.shape ∧ Nd.broadcastShapes p.data.shape b.shape = .ok p.data.shape ∧
      c.shape.length ≤ p.data.shape.length ∧ b.shape.length ≤ p.data.shape.length ∧
      ∀ i, InRange p.data.shape i → r.data.get i = if c.get (castTo c.shape i) then p.data.get i else b.get (castTo b.shape i) := by
  simp only [bind, Except.bind] at h
  split at h
  · cases h
  rename_i a ha
  obtain ⟨rfl, hs⟩ := new_ok h
  unfold Nd.choose at ha
  simp only [bind, Except.bind] at ha
  split at ha
  · cases ha
  rename_i s hs1
  split at ha
  · cases ha
  rename_i t ht
  cases ha
  simp only [true_and] at hs ⊢
  have htp : t = p.data.shape := by rw [← hs, hcs]
  subst htp
  obtain ⟨e1, e2, l1, l2⟩ := broadcastShapes_absorb hs1 ht
  refine ⟨rfl, e1, e2, l1, l2, fun i hi => ?_⟩
  have hil := inRange_length hi
  have g1 : Nd.castIdx c.shape i = castTo c.shape i := castIdx_eq (by rw [hil]; exact l1)
  have g2 : Nd.castIdx b.shape i = castTo b.shape i := castIdx_eq (by rw [hil]; exact l2)
  have g3 : Nd.castIdx p.data.shape i = i := by rw [castIdx_eq (by rw [hil]), castTo_self hi]
  rw [g1, g2, g3]

end Verif
