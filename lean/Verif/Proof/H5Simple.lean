import Verif.Proof.SelectTotal
import Verif.Proof.Reader
import Verif.Proof.Arith
import Verif.Spec.H5Simple
/-! # Lemmas: simple HDF5 files -/
namespace Verif
open Spec

namespace SimpleFile

theorem setLen_fresh {d : List (ℕ × String)} {e : ℕ × String} (h : e.1 ∉ d.map Prod.fst) : setLen d e = e :: d := by
  unfold setLen
  rw [List.filter_eq_self.2]
  intro x hx
  have : x.1 ≠ e.1 := fun he => h (he ▸ List.mem_map_of_mem hx)
  simpa using this

theorem foldl_setLen : ∀ (l acc : List (ℕ × String)), ((l.map Prod.fst) ++ acc.map Prod.fst).Nodup → l.foldl setLen acc = l.reverse ++ acc
  | [], acc, _ => rfl
  | e :: l, acc, h => by
    rw [List.map_cons, List.cons_append, List.nodup_cons] at h
    rw [List.foldl_cons, setLen_fresh (fun hc => h.1 (by simp [hc])), foldl_setLen l (e :: acc) ?_]
    · simp
    · rw [List.map_cons]
      rw [List.nodup_append]
      have h2 := h.2
      rw [List.nodup_append] at h2
      have h1 := h.1
      rw [List.mem_append, not_or] at h1
      refine ⟨h2.1, List.nodup_cons.2 ⟨h1.2, h2.2.1⟩, ?_⟩
      intro a ha b hb
      rcases List.mem_cons.1 hb with rfl | hb
      · rintro rfl; exact h1.1 ha
      · exact h2.2.2 a ha b hb

theorem nameOf_mem {d : List (ℕ × String)} (hn : (d.map Prod.fst).Nodup) {n : ℕ} {s : String} (h : (n, s) ∈ d) : nameOf d n = .ok s := by
  unfold nameOf
  have : (d.find? fun e => e.1 == n) = some (n, s) := by
    induction d with
    | nil => cases h
    | cons e d ih =>
      rw [List.map_cons, List.nodup_cons] at hn
      rcases List.mem_cons.1 h with rfl | h
      · simp
      · have : e.1 ≠ n := by
          rintro rfl
          exact hn.1 (List.mem_map.2 ⟨_, h, rfl⟩)
        rw [List.find?_cons_of_neg (by simpa using this)]
        exact ih hn.2 h
  rw [this]

variable {α : Type} {f : SimpleFile α} {ds : List String} {channels : ℕ}

/-- The dimensions, and the arrays by name. -/
theorem dimsOf_spec (h : SimpleLayout f ds channels) : ∃ o, f.dimsOf = .ok (o, ds) ∧ (Dict.keys o).Nodup ∧
    (∀ n, n ∈ Dict.keys o ↔ n ∈ ds ∧ n ≠ "time") ∧
    ∀ d ∈ ds, d ≠ "time" → ∃ k, k ≠ Kind.time ∧ Dict.get? o d = some (k, simpleLabels f channels d) := by
  have hkn : (Dict.keys f.others).Nodup := h.names.1
  have hget : ∀ d, d ≠ "time" → d ∈ f.others.map Prod.fst → ∃ k, k ≠ Kind.time ∧ Dict.get? f.others d = some (k, simpleLabels f channels d) := by
    intro d hd hm
    obtain ⟨⟨k, l⟩, hv⟩ := Dict.mem_keys.1 hm
    refine ⟨k, h.kinds _ (Dict.mem_of_get? hv), ?_⟩
    unfold simpleLabels
    rw [if_neg hd, hv]
  have htn : ∀ d, d ∈ f.others.map Prod.fst → d ≠ "time" := by
    rintro d hd rfl; exact h.names.2 hd
  rcases h.told with ⟨h1, h2⟩ | ⟨h1, h2, h3⟩
  · refine ⟨f.others, ?_, hkn, ?_, ?_⟩
    · unfold dimsOf
      rw [h1]
      cases ds with
      | nil => exact absurd h.dims.2 (by simp)
      | cons d ds => rfl
    · intro n
      exact ⟨fun hn => ⟨h.arrays n hn, htn n hn⟩, fun hn => (h2 n hn.1).resolve_left hn.2⟩
    · intro d hd hdt
      exact hget d hdt ((h2 d hd).resolve_left hdt)
  · set L := fun d => (simpleLabels f channels d).length with hL
    have hshape : f.data.shape = ds.map L := h.shape
    have hinj : ∀ a ∈ ds, ∀ b ∈ ds, L a = L b → a = b := by
      rw [hshape] at h2
      intro a ha b hb
      exact List.inj_on_of_nodup_map h2 ha hb
    have hlen : ∀ e ∈ f.others, e.2.2.length = L e.1 := by
      intro e he
      have hg := Dict.get?_of_mem hkn (show (e.1, e.2) ∈ f.others from he)
      have := htn e.1 (List.mem_map_of_mem he)
      simp only [hL, simpleLabels, if_neg this, hg]
    have hpairs : (f.others.map fun e => (e.2.2.length, e.1)) = (f.others.map Prod.fst).map fun d => (L d, d) := by
      rw [List.map_map]
      exact List.map_congr_left fun e he => by simp only [Function.comp, hlen e he]
    have hLt : L "time" = f.time.length := by simp [hL, simpleLabels]
    have hall : (((f.others.map Prod.fst).map fun d => (L d, d)).map Prod.fst) = (f.others.map Prod.fst).map L := by
      rw [List.map_map]; rfl
    have hnd : ((f.others.map Prod.fst).map L).Nodup := by
      refine List.Nodup.map_on ?_ h.names.1
      intro a ha b hb
      exact hinj a (h.arrays a ha) b (h.arrays b hb)
    have hby : f.byLength = (L "time", "time") :: ((f.others.map Prod.fst).map fun d => (L d, d)).reverse := by
      unfold byLength
      rw [hpairs, foldl_setLen _ _ (by rw [hall, List.map_nil, List.append_nil]; exact hnd), List.append_nil, ← hLt, setLen_fresh]
      rw [List.map_reverse, hall]
      simp only [List.mem_reverse, List.mem_map, not_exists, not_and]
      intro d hd he
      obtain ⟨e, he', rfl⟩ := hd
      exact htn e.1 (List.mem_map_of_mem he') (hinj _ (h.arrays _ (List.mem_map_of_mem he')) _ h.dims.2 he)
    have hfst : f.byLength.map Prod.fst = (("time" :: (f.others.map Prod.fst).reverse).map L) := by
      rw [hby, List.map_cons, List.map_reverse, hall, List.map_cons, List.map_reverse]
    have hfn : (f.byLength.map Prod.fst).Nodup := by
      rw [hfst]
      refine List.Nodup.map_on ?_ ?_
      · have hmem : ∀ a ∈ "time" :: (f.others.map Prod.fst).reverse, a ∈ ds := by
          intro a ha
          rcases List.mem_cons.1 ha with rfl | ha
          · exact h.dims.2
          · exact h.arrays a (List.mem_reverse.1 ha)
        intro a ha b hb
        exact hinj a (hmem a ha) b (hmem b hb)
      · rw [List.nodup_cons, List.mem_reverse, List.nodup_reverse]
        exact ⟨h.names.2, h.names.1⟩
    have hin : ∀ d, d = "time" ∨ d ∈ f.others.map Prod.fst → (L d, d) ∈ f.byLength := by
      rw [hby]
      rintro d (rfl | hd)
      · simp
      · exact List.mem_cons_of_mem _ (List.mem_reverse.2 (List.mem_map.2 ⟨d, hd, rfl⟩))
    have hblen : f.byLength.length = f.others.length + 1 := by rw [hby]; simp
    have hguess : f.dimsOf = f.guess := by unfold dimsOf; rw [h1]
    by_cases hch : "channel" ∈ ds ∧ "channel" ∉ f.others.map Prod.fst
    · obtain ⟨hc1, hc2⟩ := hch
      have hperm : ds.Perm ("time" :: "channel" :: f.others.map Prod.fst) := by
        refine (List.perm_ext_iff_of_nodup h.dims.1 ?_).2 ?_
        · simp only [List.nodup_cons, List.mem_cons, not_or]
          exact ⟨⟨by decide, h.names.2⟩, hc2, h.names.1⟩
        · intro d
          constructor
          · intro hd
            rcases h3 d hd with rfl | hd | rfl <;> simp_all
          · intro hd
            rcases List.mem_cons.1 hd with rfl | hd
            · exact h.dims.2
            · rcases List.mem_cons.1 hd with rfl | hd
              · exact hc1
              · exact h.arrays d hd
      have hdl : ds.length = f.others.length + 2 := by rw [hperm.length_eq]; simp
      have hcL : L "channel" = channels := by
        have : Dict.get? f.others "channel" = none := Dict.get?_eq_none.2 hc2
        simp [hL, simpleLabels, this]
      have hkey : ∀ d ∈ ds, (L d ∈ f.byLength.map Prod.fst ↔ d ≠ "channel") := by
        intro d hd
        rw [hfst]
        constructor
        · rintro hm rfl
          obtain ⟨b, hb, he⟩ := List.mem_map.1 hm
          have hbd : b ∈ ds := by
            rcases List.mem_cons.1 hb with rfl | hb
            · exact h.dims.2
            · exact h.arrays b (List.mem_reverse.1 hb)
          have := hinj b hbd _ hd he
          subst this
          rcases List.mem_cons.1 hb with hb | hb
          · exact absurd hb (by decide)
          · exact hc2 (List.mem_reverse.1 hb)
        · intro hne
          refine List.mem_map.2 ⟨d, ?_, rfl⟩
          rcases h3 d hd with rfl | h4 | h4
          · simp
          · exact List.mem_cons_of_mem _ (List.mem_reverse.2 h4)
          · exact absurd h4 hne
      have hmiss : f.missing f.byLength = .ok channels := by
        unfold missing
        have : (f.data.shape.dedup.filter fun n => !(f.byLength.map Prod.fst).contains n) = [channels] := by
          rw [List.dedup_eq_self.2 h2, hshape, List.filter_map]
          have : ds.filter ((fun n => !(f.byLength.map Prod.fst).contains n) ∘ L) = ds.filter fun d => decide (d = "channel") := by
            refine List.filter_congr fun d hd => ?_
            have := hkey d hd
            by_cases hdc : d = "channel"
            · have hno : L d ∉ f.byLength.map Prod.fst := fun hm => this.1 hm hdc
              simp only [Function.comp, List.contains_eq_mem, decide_eq_false hno, Bool.not_false, decide_eq_true hdc]
            · have hyes := this.2 hdc
              simp only [Function.comp, List.contains_eq_mem, decide_eq_true hyes, Bool.not_true, decide_eq_false hdc]
          rw [this, ← hcL]
          have h5 : ds.filter (fun d => decide (d = "channel")) = ["channel"] := by
            have : (ds.filter fun d => decide (d = "channel")) = ds.filter (· == "channel") := by
              refine List.filter_congr fun d _ => ?_
              by_cases h : d = "channel" <;> simp [h]
            rw [this, List.filter_beq, List.count_eq_one_of_mem h.dims.1 hc1]
            rfl
          rw [h5]; rfl
        rw [this]
      have hcnot : channels ∉ f.byLength.map Prod.fst := by
        rw [← hcL]
        intro hm
        exact (hkey _ hc1).1 hm rfl
      have hfill : f.filled = .ok (f.others.set "channel" (.int, (List.range channels).map fun i : ℕ => (i : ℚ)), (channels, "channel") :: f.byLength) := by
        unfold filled
        rw [if_pos, hmiss]
        · simp only [Except.map]
          rw [setLen_fresh hcnot]
        · rw [hblen, hshape, List.length_map, hdl]; omega
      refine ⟨f.others.set "channel" (.int, (List.range channels).map fun i : ℕ => (i : ℚ)), ?_, ?_, ?_, ?_⟩
      · rw [hguess]
        unfold guess
        rw [if_pos h2, hfill]
        show ((f.data.shape.mapM (nameOf ((channels, "channel") :: f.byLength))).map _) = _
        rw [hshape, List.mapM_map, mapM_ok' (g := id)]
        · simp [Except.map]
        · intro d hd
          simp only [Function.comp, id]
          apply nameOf_mem
          · rw [List.map_cons, List.nodup_cons]; exact ⟨hcnot, hfn⟩
          · rcases h3 d hd with h4 | h4 | rfl
            · exact List.mem_cons_of_mem _ (hin d (Or.inl h4))
            · exact List.mem_cons_of_mem _ (hin d (Or.inr h4))
            · rw [hcL]; simp
      · rw [Dict.keys_set, if_neg (by exact hc2)]
        rw [List.nodup_append]
        refine ⟨hkn, by simp, ?_⟩
        intro a ha b hb
        simp only [List.mem_singleton] at hb
        subst hb
        rintro rfl
        exact hc2 ha
      · intro n
        rw [Dict.keys_set, if_neg (by exact hc2), List.mem_append, List.mem_singleton]
        constructor
        · rintro (hn | rfl)
          · exact ⟨h.arrays n hn, htn n hn⟩
          · exact ⟨hc1, by decide⟩
        · rintro ⟨hn, hnt⟩
          rcases h3 n hn with h4 | h4 | h4
          · exact absurd h4 hnt
          · exact Or.inl h4
          · exact Or.inr h4
      · intro d hd hdt
        rw [Dict.get?_set]
        by_cases hdc : d = "channel"
        · rw [if_pos hdc]
          subst hdc
          have : Dict.get? f.others "channel" = none := Dict.get?_eq_none.2 hc2
          refine ⟨.int, by decide, ?_⟩
          simp [simpleLabels, this]
        · rw [if_neg hdc]
          exact hget d hdt (((h3 d hd).resolve_left hdt).resolve_right hdc)
    · have h4 : ∀ d ∈ ds, d = "time" ∨ d ∈ f.others.map Prod.fst := by
        intro d hd
        rcases h3 d hd with h4 | h4 | rfl
        · exact Or.inl h4
        · exact Or.inr h4
        · right
          by_contra hc
          exact hch ⟨hd, hc⟩
      have hperm : ds.Perm ("time" :: f.others.map Prod.fst) := by
        refine (List.perm_ext_iff_of_nodup h.dims.1 (List.nodup_cons.2 ⟨h.names.2, h.names.1⟩)).2 ?_
        intro d
        constructor
        · intro hd
          rcases h4 d hd with rfl | hd
          · simp
          · exact List.mem_cons_of_mem _ hd
        · intro hd
          rcases List.mem_cons.1 hd with rfl | hd
          · exact h.dims.2
          · exact h.arrays d hd
      have hdl : ds.length = f.others.length + 1 := by rw [hperm.length_eq]; simp
      refine ⟨f.others, ?_, hkn, ?_, ?_⟩
      · rw [hguess]
        unfold guess filled
        rw [if_pos h2, if_neg]
        · show ((f.data.shape.mapM (nameOf f.byLength)).map _) = _
          rw [hshape, List.mapM_map, mapM_ok' (g := id)]
          · simp [Except.map]
          · intro d hd
            exact nameOf_mem hfn (hin d (h4 d hd))
        · rw [hblen, hshape, List.length_map, hdl]; simp
      · intro n
        exact ⟨fun hn => ⟨h.arrays n hn, htn n hn⟩, fun hn => (h4 n hn.1).resolve_left hn.2⟩
      · intro d hd hdt
        exact hget d hdt ((h4 d hd).resolve_left hdt)

/-- The coordinates, if each of them can be made. -/
theorem manager_spec (h : SimpleLayout f ds channels) {snap : Bool} {P : String → Kind → Coord → Prop}
    (hP : ∀ d ∈ ds, ∀ k, (k = Kind.time ↔ d = "time") → ∃ k' c, coordOf snap k (simpleLabels f channels d) = .ok (.one k' c) ∧
      (MCoord.one k' c).canon = .ok (.one k' c) ∧ c.Wf ∧ c.length = (simpleLabels f channels d).length ∧ P d k' c) :
    ∃ m, f.manager snap = .ok m ∧ m.dims = ds ∧ Regular m ∧ m.shape = f.data.shape ∧ (∀ n, n ∉ ds → m.ents.get? n = none) ∧
      ∀ d ∈ ds, ∃ k c, m.ents.get? d = some ([d], .one k c) ∧ c.length = (simpleLabels f channels d).length ∧ P d k c := by
  obtain ⟨o, ho, hon, hok, hog⟩ := dimsOf_spec h
  have htn : "time" ∉ Dict.keys o := fun ht => ((hok _).1 ht).2 rfl
  have hkeys : Dict.keys (o.set "time" (Kind.time, f.time.map nanos)) = Dict.keys o ++ ["time"] := by rw [Dict.keys_set, if_neg htn]
  have hkn : (Dict.keys (o.set "time" (Kind.time, f.time.map nanos))).Nodup := by
    rw [hkeys, List.nodup_append]
    refine ⟨hon, by simp, ?_⟩
    intro a ha b hb
    simp only [List.mem_singleton] at hb
    subst hb
    rintro rfl
    exact htn ha
  have hkm : ∀ n, n ∈ Dict.keys (o.set "time" (Kind.time, f.time.map nanos)) ↔ n ∈ ds := by
    intro n
    rw [hkeys, List.mem_append, hok, List.mem_singleton]
    constructor
    · rintro (hn | rfl)
      · exact hn.1
      · exact h.dims.2
    · intro hn
      by_cases ht : n = "time"
      · exact Or.inr ht
      · exact Or.inl ⟨hn, ht⟩
  have hget : ∀ d ∈ ds, ∃ k, (k = Kind.time ↔ d = "time") ∧ Dict.get? (o.set "time" (Kind.time, f.time.map nanos)) d = some (k, simpleLabels f channels d) := by
    intro d hd
    rw [Dict.get?_set]
    by_cases ht : d = "time"
    · subst ht
      exact ⟨.time, by simp, by simp [simpleLabels]⟩
    · obtain ⟨k, hk, hg⟩ := hog d hd ht
      exact ⟨k, by simp [hk, ht], by rw [if_neg ht]; exact hg⟩
  have hone : ∀ e ∈ o.set "time" (Kind.time, f.time.map nanos), ∃ v, ((coordOf snap e.2.1 e.2.2).map CArg.simple) = .ok v := by
    rintro ⟨d, k, l⟩ he
    have hg := Dict.get?_of_mem hkn he
    have hd : d ∈ ds := (hkm d).1 (Dict.mem_keys.2 ⟨_, hg⟩)
    obtain ⟨k', hk', hg'⟩ := hget d hd
    rw [hg] at hg'; cases hg'
    obtain ⟨k1, c, h1, _⟩ := hP d hd _ hk'
    exact ⟨_, by simp only [h1]; rfl⟩
  obtain ⟨e, he⟩ := Dict.mapM_total (f := fun p : String × Kind × List ℚ => (coordOf snap p.2.1 p.2.2).map CArg.simple) hone
  have hek := Dict.mapM_keys (f := fun p : String × Kind × List ℚ => (coordOf snap p.2.1 p.2.2).map CArg.simple) he
  have heg : ∀ d ∈ ds, ∃ k c, Dict.get? e d = some (.simple (.one k c)) ∧
      (MCoord.one k c).canon = .ok (.one k c) ∧ c.Wf ∧ c.length = (simpleLabels f channels d).length ∧ P d k c := by
    intro d hd
    obtain ⟨k, hk, hg⟩ := hget d hd
    obtain ⟨v, hv1, hv2⟩ := mapM_get?' (f := fun p : String × Kind × List ℚ => (coordOf snap p.2.1 p.2.2).map CArg.simple) he d hg
    obtain ⟨k', c, h1, h2⟩ := hP d hd k hk
    simp only [h1] at hv2
    cases hv2
    exact ⟨k', c, hv1, h2⟩
  obtain ⟨m, hm, hmd, hmk, hmg⟩ := getCoordManager_total (coords := e) (dims := ds) (by rw [hek]; exact hkn) (fun d => (simpleLabels f channels d).length)
    (by
      intro name a ha
      have hd : name ∈ ds := (hkm name).1 (by rw [← hek]; exact Dict.mem_keys.2 ⟨_, ha⟩)
      obtain ⟨k, c, h1, h2, h3, h4, h5⟩ := heg name hd
      rw [ha] at h1; cases h1
      refine ⟨[name], _, _, rfl, h2, by simpa using hd, fun _ => rfl, Or.inr ?_⟩
      rw [one_shape, h4]; rfl)
    (by intro d hd; rw [hek]; exact (hkm d).2 hd)
  have hment : ∀ d ∈ ds, ∃ k c, m.ents.get? d = some ([d], .one k c) ∧ c.Wf ∧ c.length = (simpleLabels f channels d).length ∧ P d k c := by
    intro d hd
    obtain ⟨k, c, h1, h2, h3, h4, h5⟩ := heg d hd
    obtain ⟨x, hx, hg⟩ := hmg d _ _ _ h1 rfl
    rw [h2] at hx; cases hx
    exact ⟨k, c, hg, h3, h4, h5⟩
  have hwf := CM.getCoordManager_wf hm (by rw [hek]; exact hkn)
  have hmkm : ∀ n, n ∈ m.ents.keys ↔ n ∈ ds := fun n => by rw [hmk, hek]; exact hkm n
  have hmem : ∀ name ds' c, (name, ds', c) ∈ m.ents → ∃ k c', name ∈ ds ∧ ds' = [name] ∧ c = .one k c' ∧ c'.Wf := by
    intro name ds' c hc
    have hg := Dict.get?_of_mem hwf.1.names hc
    have hd := (hmkm name).1 (Dict.mem_keys.2 ⟨_, hg⟩)
    obtain ⟨k, c', h1, h2, _⟩ := hment name hd
    rw [hg] at h1; cases h1
    exact ⟨k, c', hd, rfl, rfl, h2⟩
  refine ⟨m, ?_, hmd, ⟨hwf.1, hwf.2 h.dims.1, ?_, ?_, ?_⟩, ?_, ?_, ?_⟩
  · unfold manager
    rw [ho]
    show (do let coords ← (o.set "time" (Kind.time, f.time.map nanos)).mapM fun e : String × Kind × List ℚ => (coordOf snap e.2.1 e.2.2).map fun c => (e.1, CArg.simple c); getCoordManager coords ds) = _
    have : ((o.set "time" (Kind.time, f.time.map nanos)).mapM fun e : String × Kind × List ℚ => (coordOf snap e.2.1 e.2.2).map fun c => (e.1, CArg.simple c)) = .ok e := by
      rw [← he]
      congr 1
      funext p
      cases coordOf snap p.2.1 p.2.2 <;> rfl
    rw [this]
    exact hm
  · intro name ds' c hc
    obtain ⟨k, c', _, rfl, _⟩ := hmem name ds' c hc
    simp
  · intro name ds' k c hc
    obtain ⟨k', c', _, _, h3, h4⟩ := hmem name ds' _ hc
    cases h3
    exact h4
  · intro name hn
    rw [hmd]
    exact h.plain name ((hmkm name).1 hn)
  · unfold CM.shape
    rw [hmd, if_neg (by rintro rfl; exact absurd h.dims.2 (by simp)), h.shape]
    refine List.map_congr_left fun d hd => ?_
    obtain ⟨k, c, h1, _, h3, _⟩ := hment d hd
    unfold Ents.lenOf
    rw [h1]
    simp only [MCoord.len, one_shape, List.getD_cons_zero, h3]
  · intro n hn
    rw [Dict.get?_eq_none]
    exact fun hc => hn ((hmkm n).1 hc)
  · intro d hd
    obtain ⟨k, c, h1, _, h3, h4⟩ := hment d hd
    exact ⟨k, c, h1, h3, h4⟩

/-- The file's data with these coordinates is the whole file. -/
theorem holds_manager (h : SimpleLayout f ds channels) {m : CM} (hmd : m.dims = ds) (hno : ∀ n, n ∉ ds → m.ents.get? n = none) {L : String → ℕ → ℚ}
    (hL : ∀ d ∈ ds, ∃ k c, m.ents.get? d = some ([d], .one k c) ∧ ∀ i : ℕ, i < (simpleLabels f channels d).length → c.labels.getD i none = some (L d i)) :
    HoldsFile f ds L ⟨m, f.data⟩ where
  dims := hmd
  shape := rfl
  data := fun _ _ => rfl
  only := hno
  labels := by
    intro d hd i hi
    obtain ⟨k, c, h1, h2⟩ := hL d hd
    rw [label_dim (p := ⟨m, f.data⟩) h1]
    congr 1
    apply h2
    unfold posAlong
    simp only [hmd]
    rw [h.shape] at hi
    have := inRange_getD hi hd
    exact this

theorem prod_ne_zero {l : List ℕ} (h : ∀ x ∈ l, x ≠ 0) : l.prod ≠ 0 := by
  induction l with
  | nil => simp
  | cons a l ih =>
    rw [List.prod_cons]
    exact Nat.mul_ne_zero (h a (by simp)) (ih fun x hx => h x (by simp [hx]))

theorem origin_whole {dims : List String} {red : String → List ℕ} {n : String → ℕ} (hr : ∀ d ∈ dims, red d = List.range (n d)) :
    ∀ {i : List ℕ}, InRange (dims.map n) i → origin dims red i = i := by
  induction dims with
  | nil => intro i h; cases h; rfl
  | cons d ds ih =>
    intro i h
    cases h with
    | cons h1 h2 =>
      rename_i a l
      have := ih (fun e he => hr e (by simp [he])) h2
      unfold origin at this ⊢
      rw [List.map_cons, List.zipWith_cons_cons, this, hr d (by simp)]
      congr 1
      rw [List.getD_eq_getElem?_getD, List.getElem?_range h1]
      rfl

/-- Reading everything. -/
theorem read_whole {argsort : List ℚ → List ℕ} (ha : IsArgsort argsort) (h : SimpleLayout f ds channels) {snap : Bool} {m : CM} (hm : f.manager snap = .ok m)
    (hmd : m.dims = ds) (hreg : Regular m) (hsh : m.shape = f.data.shape) (hread : AllRead m.ents) {L : String → ℕ → ℚ} (hw : HoldsFile f ds L ⟨m, f.data⟩)
    (hst : ∀ d ∈ ds, ∃ k c, m.ents.get? d = some ([d], .one k c) ∧ c.length = (simpleLabels f channels d).length ∧ Storable c.vals ∧ c.vals.length = c.length) :
    ∃ q, f.read argsort snap [] = .ok (some q) ∧ HoldsFile f ds L q := by
  have hd : m.dims ≠ [] := by rw [hmd]; rintro rfl; exact absurd h.dims.2 (by simp)
  obtain ⟨r, hr⟩ := CM.select_nothing (a := f.data) ha hreg hd hsh hread
  have hg := hr
  unfold CM.select at hg
  rw [show m.groups [] = [[]] from rfl, List.foldlM_cons] at hg
  obtain ⟨s, hs, he⟩ := bind_split hg
  cases he
  obtain ⟨red, h3, h4, h5⟩ := group_spec (p := ⟨m, f.data⟩) ha hreg hd hsh (kw := []) (by simp) List.Pairwise.nil hs
  have hred : ∀ d ∈ ds, red d = List.range (simpleLabels f channels d).length := by
    intro d hdd
    obtain ⟨k, c, h6, h7, _⟩ := hst d hdd
    exact h3.others d (by rw [hmd]; exact hdd) (by simp) _ _ h6 (by rw [one_shape, h7])
  have hshape : r.2.shape = f.data.shape := by
    have := h3.shape
    simp only [hmd] at this
    rw [this, h.shape]
    exact List.map_congr_left fun d hdd => by rw [hred d hdd, List.length_range]
  have horig : ∀ i, InRange f.data.shape i → origin m.dims red i = i := by
    intro i hi
    rw [hmd]
    rw [h.shape] at hi
    exact origin_whole hred hi
  refine ⟨⟨r.1, r.2⟩, ?_, ?_⟩
  · have hpos : r.1.shape.prod ≠ 0 := by
      rw [h5, hshape, h.shape]
      apply prod_ne_zero
      intro x hx
      obtain ⟨d, hdd, rfl⟩ := List.mem_map.1 hx
      have := h.some_data d hdd
      simpa using this
    unfold read
    rw [hm]
    show (do let r ← m.select argsort f.data []; if r.1.shape.prod = 0 then return none else (PatchM.new r.1 r.2).map some) = _
    rw [hr]
    show (if r.1.shape.prod = 0 then Except.ok none else (PatchM.new r.1 r.2).map some) = _
    rw [if_neg hpos]
    unfold PatchM.new
    rw [if_pos h5]
    rfl
  · refine ⟨by have := h3.dims; exact this.trans hmd, hshape, ?_, ?_, ?_⟩
    · intro i hi
      have := (h3.data i (by simp only; rw [hshape]; exact hi)).2
      simp only at this ⊢
      rw [this, horig i hi]
    · intro d hdd i hi
      have h6 := h3.labels d (by
        intro d' k c hc
        obtain ⟨k', c', g1, g2, g3, g4⟩ := hst d hdd
        simp only at hc
        rw [g1] at hc; cases hc
        rw [hred d hdd, ← g2, ← g4, takeIdx_range_self]
        exact g3) i (by simp only; rw [hshape]; exact hi)
      rw [h6]
      simp only
      rw [horig i hi, hw.labels d hdd i hi]
      unfold posAlong
      have := h3.dims
      simp only at this ⊢
      rw [this]
    · intro n hn
      have := h3.attached n
      simp only [hw.only n hn, Option.map_none] at this
      simpa using this

/-- Reading a part. -/
theorem read_part {argsort : List ℚ → List ℕ} (ha : IsArgsort argsort) (h : SimpleLayout f ds channels) {snap : Bool} {m : CM} (hm : f.manager snap = .ok m)
    (hmd : m.dims = ds) (hreg : Regular m) (hsh : m.shape = f.data.shape) (hkeys : ∀ n, n ∈ m.ents.keys ↔ n ∈ ds) {kw : Dict CQuery}
    (hn : ∀ r ∈ kw, NonNegSamples r.2) {o : Option (PatchM α)} (ho : f.read argsort snap kw = .ok o) :
    ∃ gs q, gs.flatten.Perm (kw.filter fun r => r.1 ∈ ds) ∧ SelectedBy ⟨m, f.data⟩ gs q ∧ o = if q.data.shape.prod = 0 then none else some q := by
  have hd : m.dims ≠ [] := by rw [hmd]; rintro rfl; exact absurd h.dims.2 (by simp)
  unfold read at ho
  obtain ⟨m', hm', ho⟩ := bind_split ho
  rw [hm] at hm'; cases hm'
  obtain ⟨r, hr, ho⟩ := bind_split ho
  have hp := groups_perm m kw
  obtain ⟨h1, h2, h3⟩ := chain_spec ha _ ⟨m, f.data⟩ r hreg hd hsh
    (fun g hg r hr => hn r (List.mem_of_mem_filter (hp.mem_iff.1 (List.mem_flatten.2 ⟨g, hg, hr⟩)))) (groups_onePerDim m kw) hr
  refine ⟨_, _, ?_, h1, ?_⟩
  · refine hp.trans (List.Perm.of_eq ?_)
    refine List.filter_congr fun x _ => ?_
    have := hkeys x.1
    by_cases hx : x.1 ∈ ds
    · simp only [List.contains_eq_mem, decide_eq_true (this.2 hx), hx, decide_true]
    · simp only [List.contains_eq_mem, decide_eq_false (fun hc => hx (this.1 hc)), hx, decide_false]
  · simp only
    rw [h3] at ho
    split_ifs at ho ⊢
    · cases ho; rfl
    · unfold PatchM.new at ho
      rw [if_pos h3] at ho
      cases ho; rfl

/-! ### Snapping -/

theorem rint_le_even {q : ℚ} {z : ℤ} (hz : z % 2 = 0) : rint q ≤ z ↔ q ≤ z + 1 / 2 := by
  constructor
  · intro h
    by_contra hc
    push Not at hc
    have := (rint_bounds q).1
    have h2 : (z : ℚ) < rint q := by linarith
    have h3 : z < rint q := by exact_mod_cast h2
    omega
  · intro h
    refine (rint_mono h).trans (le_of_eq ?_)
    have hf : ⌊(z : ℚ) + 1 / 2⌋ = z := by
      rw [Int.floor_eq_iff]
      constructor <;> linarith
    unfold rint
    simp only [hf]
    have : (z : ℚ) + 1 / 2 - z = 1 / 2 := by ring
    rw [this]
    simp [hz]

theorem ceil_round {x : ℚ} {n : ℤ} (h : (n : ℚ) ≤ x) : ⌈roundDec 1 x⌉ = n ↔ x ≤ n + 1 / 20 := by
  have hlow : n ≤ ⌈roundDec 1 x⌉ := by
    have := roundDec_mono (k := 1) h
    rw [roundDec_int] at this
    have h2 := this.trans (Int.le_ceil _)
    exact_mod_cast h2
  have key : ⌈roundDec 1 x⌉ ≤ n ↔ x ≤ n + 1 / 20 := by
    rw [Int.ceil_le]
    unfold roundDec
    rw [div_le_iff₀ (by norm_num)]
    have e : (n : ℚ) * 10 ^ 1 = ((10 * n : ℤ) : ℚ) := by push_cast; ring
    rw [e, Int.cast_le, rint_le_even (by omega)]
    push_cast
    constructor <;> intro h <;> linarith
  rw [← key]
  omega

theorem coordOf_snapped {k : Kind} {l : List ℚ} (h2 : 2 ≤ l.length) : coordOf true k l =
    ((mkRange (l.headD 0) (l.getLastD 0 + snapStep k l) (snapStep k l)).bind (ofLength l.length)).map (.one (if k = .time then .time else .float)) := by
  have h0 : l.length ≠ 0 := by omega
  have h1 : l.length ≠ 1 := by omega
  unfold coordOf snapped
  rw [if_pos rfl, if_neg h0, if_neg h1]

theorem snapped_other {k : Kind} (hk : k ≠ .time) {l : List ℚ} (h2 : 2 ≤ l.length) (hne : l.headD 0 ≠ l.getLastD 0) :
    spacing l ≠ 0 ∧ coordOf true k l = .ok (.one .float (.range ⟨l.headD 0, l.headD 0 + spacing l * l.length, spacing l, l.length⟩)) := by
  have hn : (0 : ℚ) < (l.length : ℚ) - 1 := by
    have : (2 : ℚ) ≤ l.length := by exact_mod_cast h2
    linarith
  have hs : spacing l ≠ 0 := div_ne_zero (sub_ne_zero.2 (Ne.symm hne)) hn.ne'
  have hstep : snapStep k l = spacing l := by unfold snapStep; rw [if_neg hk]; rfl
  have hlast : l.getLastD 0 + spacing l = l.headD 0 + spacing l * l.length := by
    have : spacing l * ((l.length : ℚ) - 1) = l.getLastD 0 - l.headD 0 := by
      unfold spacing
      rw [div_mul_cancel₀ _ hn.ne']
    linarith
  refine ⟨hs, ?_⟩
  rw [coordOf_snapped h2, hstep, hlast, mkRange_canonical hs (by omega), if_neg hk]
  simp only [Except.bind, ofLength, if_true, Except.map]

theorem snapped_time {l : List ℚ} (h2 : 2 ≤ l.length) (hs : 1 ≤ spacing l) :
    (LittleLost l → coordOf true .time l = .ok (.one .time (.range ⟨l.headD 0, l.headD 0 + (⌊spacing l⌋ : ℚ) * l.length, ⌊spacing l⌋, l.length⟩))) ∧
    (¬ LittleLost l → coordOf true .time l = .error .assertionError) := by
  have hn : (0 : ℚ) < (l.length : ℚ) - 1 := by
    have : (2 : ℚ) ≤ l.length := by exact_mod_cast h2
    linarith
  set s := ⌊spacing l⌋ with hsdef
  have hs1 : 1 ≤ s := by rw [hsdef, Int.le_floor]; exact_mod_cast hs
  have hs1' : (1 : ℚ) ≤ s := by exact_mod_cast hs1
  have hs0 : (0 : ℚ) < s := by linarith
  have hstep : snapStep .time l = s := by
    unfold snapStep
    rw [if_pos rfl]
    have : truncZ (spacing l) = s := by unfold truncZ; rw [if_pos (by linarith)]
    show ((truncZ (spacing l) : ℤ) : ℚ) = s
    rw [this]
  have hD : spacing l * ((l.length : ℚ) - 1) = l.getLastD 0 - l.headD 0 := by
    unfold spacing
    rw [div_mul_cancel₀ _ hn.ne']
  have hfl : (s : ℚ) ≤ spacing l := Int.floor_le _
  have hle : (s : ℚ) * ((l.length : ℚ) - 1) ≤ l.getLastD 0 - l.headD 0 := by
    rw [← hD]; exact mul_le_mul_of_nonneg_right hfl hn.le
  have hx : ((l.length : ℤ) : ℚ) ≤ (l.getLastD 0 + s - l.headD 0) / s := by
    rw [le_div_iff₀ hs0]
    push_cast
    nlinarith
  have hkey : ⌈roundDec 1 ((l.getLastD 0 + s - l.headD 0) / s)⌉ = (l.length : ℤ) ↔ LittleLost l := by
    rw [ceil_round hx, div_le_iff₀ hs0]
    unfold LittleLost
    rw [← hsdef]
    push_cast
    constructor <;> intro h <;> nlinarith
  have hbig : 1 ≤ ⌈roundDec 1 ((l.getLastD 0 + s - l.headD 0) / s)⌉ := by
    have := roundDec_mono (k := 1) hx
    rw [roundDec_int] at this
    have h3 := this.trans (Int.le_ceil _)
    have h4 : (l.length : ℤ) ≤ ⌈roundDec 1 ((l.getLastD 0 + s - l.headD 0) / s)⌉ := by exact_mod_cast h3
    omega
  have heq : coordOf true .time l = ((Except.ok ⟨l.headD 0, l.headD 0 + s * (⌈roundDec 1 ((l.getLastD 0 + s - l.headD 0) / s)⌉ : ℤ), s,
      (⌈roundDec 1 ((l.getLastD 0 + s - l.headD 0) / s)⌉).toNat⟩ : Except Err RangeCoord).bind (ofLength l.length)).map (.one .time) := by
    rw [coordOf_snapped h2, hstep, mkRange_eq _ _ _ hs0.ne', if_pos rfl]
    simp only [if_pos hbig]
  rw [heq]
  constructor
  · intro hl
    rw [hkey.2 hl]
    simp only [Except.bind, ofLength, Int.toNat_natCast, if_true, Except.map, Int.cast_natCast]
  · intro hl
    have : ⌈roundDec 1 ((l.getLastD 0 + s - l.headD 0) / s)⌉.toNat ≠ l.length := by
      intro hc
      apply hl
      rw [← hkey]
      omega
    simp only [Except.bind, ofLength, if_neg this, Except.map]

end SimpleFile
end Verif
