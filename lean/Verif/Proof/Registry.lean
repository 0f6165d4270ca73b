import Mathlib.Data.List.Dedup
import Verif.Spec.Registry
import Verif.Proof.Dict
/-! # Proofs about the registry of file formats -/
namespace Verif
open Spec

namespace Reg

/-- What the registry stores, given the readers registered in it. -/
structure Holds (s : Registry) (L : List Fiber) : Prop where
  seen : s.seen = L.map Fiber.key
  keysNodup : (L.map Fiber.key).Nodup
  form : ∀ F v, (s.form F).get? v = L.find? fun f => decide (f.key = (F, v))
  formKeys : ∀ F, F ∈ s.forms.keys ↔ ∃ f ∈ L, upperS f.name = F
  formNodup : ∀ F, (s.form F).keys.Nodup
  ext : ∀ e f, f ∈ s.extList e ↔ f ∈ L ∧ e ∈ f.exts
  type : ∀ t f, f ∈ s.typeList t ↔ f ∈ L ∧ f.inputType = t
  typeKeys : ∀ t, t ∈ s.types.keys ↔ ∃ f ∈ L, f.inputType = t
  typesNodup : s.types.keys.Nodup

theorem holds_fresh (eps : List EntryPoint) : Holds (fresh eps) [] := by
  constructor <;> simp [fresh, Registry.form, Registry.extList, Registry.typeList, Dict.get?_nil, Dict.keys]

theorem mem_ext_fold (f g : Fiber) (e : String) : ∀ (xs : List String) (d : Dict (List Fiber)),
    g ∈ ((xs.foldl (fun e x => e.set x ((e.get? x).getD [] ++ [f])) d).get? e).getD [] ↔
      g ∈ (d.get? e).getD [] ∨ (g = f ∧ e ∈ xs)
  | [], d => by simp
  | x :: xs, d => by
    rw [List.foldl_cons, mem_ext_fold f g e xs, Dict.get?_set]
    by_cases h : x = e
    · subst h; simp; tauto
    · have h' : ¬ e = x := fun h' => h h'.symm
      simp [h']

theorem holds_register {s : Registry} {L : List Fiber} (h : Holds s L) (f : Fiber) (hf : f.key ∉ L.map Fiber.key) :
    Holds (s.register f) (L ++ [f]) := by
  have hs : s.seen.contains f.key = false := by rw [h.seen]; simpa using hf
  have hr : s.register f = { s with
    exts := f.exts.foldl (fun e x => e.set x ((e.get? x).getD [] ++ [f])) s.exts
    forms := s.forms.set (upperS f.name) ((s.form (upperS f.name)).set f.version f)
    types := s.types.set f.inputType (s.typeList f.inputType ++ [f])
    seen := s.seen ++ [f.key] } := by
    unfold Registry.register; rw [hs]; rfl
  have hform : ∀ F, (s.register f).form F = if upperS f.name = F then (s.form F).set f.version f else s.form F := by
    intro F
    rw [hr]
    simp only [Registry.form, Dict.get?_set]
    by_cases hF : upperS f.name = F
    · subst hF; simp
    · simp [hF, Ne.symm hF]
  constructor
  · rw [hr]; simp [h.seen]
  · rw [List.map_append, List.nodup_append]
    refine ⟨h.keysNodup, by simp, ?_⟩
    intro a ha b hb hab
    simp at hb; subst hb; subst hab
    exact hf ha
  · intro F v
    rw [hform, List.find?_append, ← h.form]
    by_cases hF : upperS f.name = F
    · subst hF
      rw [if_pos rfl, Dict.get?_set]
      by_cases hv : f.version = v
      · subst hv
        have : (s.form (upperS f.name)).get? f.version = none := by
          rw [h.form, List.find?_eq_none]
          intro g hg
          simp only [decide_eq_true_eq]
          intro hk
          exact hf (List.mem_map.2 ⟨g, hg, hk⟩)
        rw [this]
        simp [Fiber.key]
      · rw [if_neg (Ne.symm hv)]
        simp [Fiber.key, hv]
    · rw [if_neg hF]
      simp [Fiber.key, hF]
  · intro F
    rw [hr]
    simp only [Dict.keys_set]
    split
    · rename_i hk
      rw [h.formKeys] at hk ⊢
      constructor
      · rintro ⟨g, hg, e⟩; exact ⟨g, by simp [hg], e⟩
      · rintro ⟨g, hg, e⟩
        rw [List.mem_append, List.mem_singleton] at hg
        rcases hg with hg | rfl
        · exact ⟨g, hg, e⟩
        · rw [← e]; exact hk
    · rw [List.mem_append, h.formKeys]
      constructor
      · rintro (⟨g, hg, e⟩ | hg)
        · exact ⟨g, by simp [hg], e⟩
        · rw [List.mem_singleton] at hg
          exact ⟨f, by simp, hg.symm⟩
      · rintro ⟨g, hg, e⟩
        rw [List.mem_append, List.mem_singleton] at hg
        rcases hg with hg | rfl
        · exact .inl ⟨g, hg, e⟩
        · right; simp [e]
  · intro F
    rw [hform]
    split
    · exact Dict.nodup_set (h.formNodup F) _ _
    · exact h.formNodup F
  · intro e g
    rw [hr]
    simp only [Registry.extList]
    rw [mem_ext_fold]
    have := h.ext e g
    rw [Registry.extList] at this
    rw [this, List.mem_append, List.mem_singleton]
    constructor
    · rintro (⟨a, b⟩ | ⟨rfl, b⟩)
      · exact ⟨.inl a, b⟩
      · exact ⟨.inr rfl, b⟩
    · rintro ⟨a | rfl, b⟩
      · exact .inl ⟨a, b⟩
      · exact .inr ⟨rfl, b⟩
  · intro t g
    have ht := h.type t g
    rw [hr]
    simp only [Registry.typeList] at ht ⊢
    rw [Dict.get?_set]
    by_cases e : f.inputType = t
    · subst e
      rw [if_pos rfl]
      simp only [Option.getD_some, List.mem_append, List.mem_singleton]
      rw [ht]
      constructor
      · rintro (⟨a, b⟩ | rfl)
        · exact ⟨.inl a, b⟩
        · exact ⟨.inr rfl, rfl⟩
      · rintro ⟨a | rfl, b⟩
        · exact .inl ⟨a, b⟩
        · exact .inr rfl
    · rw [if_neg (Ne.symm e), ht, List.mem_append, List.mem_singleton]
      constructor
      · rintro ⟨a, b⟩; exact ⟨.inl a, b⟩
      · rintro ⟨a | rfl, b⟩
        · exact ⟨a, b⟩
        · exact absurd b e
  · intro t
    rw [hr]
    simp only [Dict.keys_set]
    split
    · rename_i hk
      rw [h.typeKeys] at hk ⊢
      constructor
      · rintro ⟨g, hg, e⟩; exact ⟨g, by simp [hg], e⟩
      · rintro ⟨g, hg, e⟩
        rw [List.mem_append, List.mem_singleton] at hg
        rcases hg with hg | rfl
        · exact ⟨g, hg, e⟩
        · rw [← e]; exact hk
    · rw [List.mem_append, h.typeKeys]
      constructor
      · rintro (⟨g, hg, e⟩ | hg)
        · exact ⟨g, by simp [hg], e⟩
        · rw [List.mem_singleton] at hg
          exact ⟨f, by simp, hg.symm⟩
      · rintro ⟨g, hg, e⟩
        rw [List.mem_append, List.mem_singleton] at hg
        rcases hg with hg | rfl
        · exact .inl ⟨g, hg, e⟩
        · right; simp [e]
  · rw [hr]
    exact Dict.nodup_set h.typesNodup _ _

theorem register_seen {s : Registry} {L : List Fiber} (h : Holds s L) (f : Fiber) (hf : f.key ∈ L.map Fiber.key) :
    s.register f = s := by
  unfold Registry.register
  rw [h.seen]
  simp only [List.contains_eq_mem, hf, decide_true, if_true]

/-- The parts of the registry that registering leaves alone. -/
structure SameRest (s s' : Registry) : Prop where
  eps : s'.eps = s.eps
  failed : s'.failed = s.failed
  known : s'.known = s.known
  prior : s'.prior = s.prior
  snaps : s'.snaps = s.snaps
  lookups : s'.lookups = s.lookups

theorem SameRest.refl (s : Registry) : SameRest s s := ⟨rfl, rfl, rfl, rfl, rfl, rfl⟩

theorem SameRest.trans {s t u : Registry} (h : SameRest s t) (k : SameRest t u) : SameRest s u :=
  ⟨k.eps.trans h.eps, k.failed.trans h.failed, k.known.trans h.known, k.prior.trans h.prior, k.snaps.trans h.snaps,
    k.lookups.trans h.lookups⟩

theorem register_same (s : Registry) (f : Fiber) : SameRest s (s.register f) := by
  unfold Registry.register
  split <;> exact ⟨rfl, rfl, rfl, rfl, rfl, rfl⟩

/-- Registering several readers out of an unambiguous collection. -/
theorem holds_registerAll {all : List Fiber} (hu : Unambiguous all) : ∀ (fs : List Fiber) {s : Registry} {L : List Fiber},
    Holds s L → (∀ f ∈ L, f ∈ all) → (∀ f ∈ fs, f ∈ all) →
      ∃ L', Holds (fs.foldl Registry.register s) L' ∧ (∀ f, f ∈ L' ↔ f ∈ L ∨ f ∈ fs) ∧
        SameRest s (fs.foldl Registry.register s)
  | [], s, L, h, _, _ => ⟨L, h, by simp, SameRest.refl s⟩
  | f :: fs, s, L, h, hL, hfs => by
    rw [List.foldl_cons]
    by_cases hf : f.key ∈ L.map Fiber.key
    · rw [register_seen h f hf]
      obtain ⟨L', h', hm, hs⟩ := holds_registerAll hu fs h hL fun g hg => hfs g (by simp [hg])
      refine ⟨L', h', ?_, hs⟩
      intro g
      rw [hm, List.mem_cons]
      constructor
      · rintro (a | a)
        · exact .inl a
        · exact .inr (.inr a)
      · rintro (a | rfl | a)
        · exact .inl a
        · obtain ⟨g', hg', e⟩ := List.mem_map.1 hf
          have := hu g' (hL g' hg') g (hfs g (by simp)) e
          exact .inl (this ▸ hg')
        · exact .inr a
    · obtain ⟨L', h', hm, hs⟩ := holds_registerAll hu fs (holds_register h f hf)
        (by intro g hg; rw [List.mem_append, List.mem_singleton] at hg
            rcases hg with hg | rfl
            · exact hL g hg
            · exact hfs g (by simp)) fun g hg => hfs g (by simp [hg])
      refine ⟨L', h', ?_, (register_same s f).trans hs⟩
      intro g
      rw [hm, List.mem_append, List.mem_singleton, List.mem_cons]
      tauto

/-- What the readers that can be found are. -/
structure Good (eps : List EntryPoint) (fs : List Fiber) (s : Registry) (L : List Fiber) : Prop where
  holds : Holds s L
  epsEq : s.eps = eps
  sub : ∀ f ∈ L, f ∈ allReaders eps fs
  base : ∀ f ∈ fs, f ∈ L
  complete : ∀ f ∈ allReaders eps fs, ∀ g ∈ L, upperS g.name = upperS f.name → f ∈ L
  known : ∀ l, s.known = some l → l.Nodup ∧ (∀ f ∈ allReaders eps fs, upperS f.name ∈ l) ∧
    ∀ x ∈ l, (∃ e ∈ eps, x = String.ofList (beforeDunder e.name.toList)) ∨ ∃ f ∈ fs, x = upperS f.name
  failed : ∀ x ∈ s.failed, ∀ f ∈ allReaders eps fs, upperS f.name ≠ x

theorem mem_all {eps : List EntryPoint} {fs : List Fiber} {f : Fiber} :
    f ∈ allReaders eps fs ↔ f ∈ fs ∨ ∃ e ∈ eps, e.fiber = some f := by
  simp [allReaders, installed]

theorem beforeDunder_prefix : ∀ l : List Char, beforeDunder l <+: l := by
  intro l
  induction l using beforeDunder.induct with
  | case1 => simp [beforeDunder]
  | case2 l => simp [beforeDunder]
  | case3 c l h ih =>
    rw [beforeDunder]
    · exact List.prefix_cons_inj c |>.2 ih
    · exact h

/-- The caches, which loading leaves alone. -/
structure SameCaches (s s' : Registry) : Prop where
  prior : s'.prior = s.prior
  snaps : s'.snaps = s.snaps
  lookups : s'.lookups = s.lookups

theorem SameCaches.refl (s : Registry) : SameCaches s s := ⟨rfl, rfl, rfl⟩

theorem SameCaches.trans {s t u : Registry} (h : SameCaches s t) (k : SameCaches t u) : SameCaches s u :=
  ⟨k.prior.trans h.prior, k.snaps.trans h.snaps, k.lookups.trans h.lookups⟩

theorem SameRest.caches {s t : Registry} (h : SameRest s t) : SameCaches s t := ⟨h.prior, h.snaps, h.lookups⟩

/-- What loading a format does. -/
structure Loaded (eps : List EntryPoint) (fs : List Fiber) (s s' : Registry) (L L' : List Fiber) (F : String → Prop) : Prop where
  good : Good eps fs s' L'
  more : ∀ f ∈ L, f ∈ L'
  all : ∀ f ∈ allReaders eps fs, F (upperS f.name) → f ∈ L'
  caches : SameCaches s s'

theorem Holds.with {s s' : Registry} {L : List Fiber} (h : Holds s L) (h1 : s'.seen = s.seen) (h2 : s'.forms = s.forms)
    (h3 : s'.exts = s.exts) (h4 : s'.types = s.types) : Holds s' L := by
  obtain ⟨e, f, ex, t, se, fa, k, p, sn, lo⟩ := s
  obtain ⟨e', f', ex', t', se', fa', k', p', sn', lo'⟩ := s'
  simp only at h1 h2 h3 h4
  subst h1 h2 h3 h4
  exact ⟨h.seen, h.keysNodup, h.form, h.formKeys, h.formNodup, h.ext, h.type, h.typeKeys, h.typesNodup⟩

theorem loadForm_spec {eps : List EntryPoint} {fs : List Fiber} (hs : Setup eps fs) {s : Registry} {L : List Fiber}
    (h : Good eps fs s L) {F : String} (hF : PlainName eps F) : ∃ L', Loaded eps fs s (s.loadForm F) L L' (· = F) := by
  set new := (s.eps.filter fun e => F.toList.isPrefixOf e.name.toList).filterMap EntryPoint.fiber with hnew
  have hmem : ∀ f, f ∈ new ↔ ∃ e ∈ eps, F.toList <+: e.name.toList ∧ e.fiber = some f := by
    intro f
    rw [hnew, h.epsEq]
    simp [and_assoc]
  have hsub : ∀ f ∈ new, f ∈ allReaders eps fs := by
    intro f hf
    obtain ⟨e, he, -, hef⟩ := (hmem f).1 hf
    exact mem_all.2 (.inr ⟨e, he, hef⟩)
  obtain ⟨L', h', hm, hr⟩ := holds_registerAll hs.unambiguous new h.holds h.sub hsub
  have hall : ∀ f ∈ allReaders eps fs, upperS f.name = F → f ∈ L' := by
    intro f hf e
    rw [hm]
    rcases mem_all.1 hf with hf | ⟨ep, hep, hef⟩
    · exact .inl (h.base f hf)
    · refine .inr ((hmem f).2 ⟨ep, hep, ?_, hef⟩)
      have := hs.named.1 ep hep f hef
      rw [← e, ← this, String.toList_ofList]
      exact beforeDunder_prefix _
  have hgood : Good eps fs (new.foldl Registry.register s) L' := by
    constructor
    · exact h'
    · rw [hr.eps, h.epsEq]
    · intro f hf
      rcases (hm f).1 hf with hf | hf
      · exact h.sub f hf
      · exact hsub f hf
    · intro f hf; exact (hm f).2 (.inl (h.base f hf))
    · intro f hf g hg e
      rw [hm]
      rcases (hm g).1 hg with hg | hg
      · exact .inl (h.complete f hf g hg e)
      · obtain ⟨ep, hep, hp, hef⟩ := (hmem g).1 hg
        have hn := hs.named.1 ep hep g hef
        rcases mem_all.1 hf with hf | ⟨ep', hep', hef'⟩
        · exact .inl (h.base f hf)
        · right
          have hn' := hs.named.1 ep' hep' f hef'
          refine (hmem f).2 ⟨ep', hep', ?_, hef'⟩
          have h1 := hF ep hep hp
          rw [e, ← hn'] at hn
          have h2 : beforeDunder ep.name.toList = beforeDunder ep'.name.toList := by
            have := congrArg String.toList hn
            simpa using this
          rw [h2] at h1
          exact h1.trans (beforeDunder_prefix _)
    · rw [hr.known]; exact h.known
    · rw [hr.failed]; exact h.failed
  have hlf : s.loadForm F = if (new.foldl Registry.register s).forms.keys.contains F then new.foldl Registry.register s
      else { new.foldl Registry.register s with failed := (new.foldl Registry.register s).failed ++ [F] } := rfl
  rw [hlf]
  refine ⟨L', ?_, fun f hf => (hm f).2 (.inl hf), hall, ?_⟩
  · split
    · exact hgood
    · rename_i hk
      refine ⟨hgood.holds.with rfl rfl rfl rfl, hgood.epsEq, hgood.sub, hgood.base, hgood.complete, hgood.known, ?_⟩
      intro x hx f hf e
      rw [List.mem_append, List.mem_singleton] at hx
      rcases hx with hx | rfl
      · exact hgood.failed x hx f hf e
      · apply hk
        rw [List.contains_iff_mem, h'.formKeys]
        exact ⟨f, hall f hf e, e⟩
  · split
    · exact hr.caches
    · exact ⟨hr.prior, hr.snaps, hr.lookups⟩

theorem loadForms_spec {eps : List EntryPoint} {fs : List Fiber} (hs : Setup eps fs) : ∀ (xs : List String) {s : Registry}
    {L : List Fiber}, Good eps fs s L → (∀ F ∈ xs, PlainName eps F) →
      ∃ L', Loaded eps fs s (xs.foldl Registry.loadForm s) L L' (· ∈ xs)
  | [], s, L, h, _ => ⟨L, h, fun _ h => h, by simp, SameCaches.refl s⟩
  | F :: xs, s, L, h, hF => by
    obtain ⟨L1, h1⟩ := loadForm_spec hs h (hF F (by simp))
    obtain ⟨L2, h2⟩ := loadForms_spec hs xs h1.good fun G hG => hF G (by simp [hG])
    refine ⟨L2, h2.good, fun f hf => h2.more f (h1.more f hf), ?_, h1.caches.trans h2.caches⟩
    intro f hf hx
    rw [List.mem_cons] at hx
    rcases hx with hx | hx
    · exact h2.more f (h1.all f hf hx)
    · exact h2.all f hf hx

/-- The known formats. -/
theorem known_spec {eps : List EntryPoint} {fs : List Fiber} (hs : Setup eps fs) {s : Registry} {L : List Fiber}
    (h : Good eps fs s L) : s.knownFormats.Nodup ∧ (∀ f ∈ allReaders eps fs, upperS f.name ∈ s.knownFormats) ∧
    ∀ x ∈ s.knownFormats, (∃ e ∈ eps, x = String.ofList (beforeDunder e.name.toList)) ∨ ∃ f ∈ fs, x = upperS f.name := by
  unfold Registry.knownFormats
  cases hk : s.known with
  | some l => exact h.known l hk
  | none =>
    simp only [Option.getD_none]
    refine ⟨List.nodup_dedup _, ?_, ?_⟩
    · intro f hf
      rw [List.mem_dedup, Registry.computeKnown, h.epsEq, List.mem_append]
      rcases mem_all.1 hf with hf | ⟨e, he, hef⟩
      · exact .inr ((h.holds.formKeys _).2 ⟨f, h.base f hf, rfl⟩)
      · exact .inl (List.mem_map.2 ⟨e, he, hs.named.1 e he f hef⟩)
    · intro x hx
      rw [List.mem_dedup, Registry.computeKnown, h.epsEq, List.mem_append] at hx
      rcases hx with hx | hx
      · obtain ⟨e, he, rfl⟩ := List.mem_map.1 hx
        exact .inl ⟨e, he, rfl⟩
      · obtain ⟨f, hf, rfl⟩ := (h.holds.formKeys _).1 hx
        rcases mem_all.1 (h.sub f hf) with hf | ⟨e, he, hef⟩
        · exact .inr ⟨f, hf, rfl⟩
        · exact .inl ⟨e, he, (hs.named.1 e he f hef).symm⟩

theorem mem_unloaded (s : Registry) (x : String) :
    x ∈ s.unloaded ↔ x ∈ s.knownFormats ∧ x ∉ s.forms.keys ∧ x ∉ s.failed := by
  unfold Registry.unloaded
  rw [List.Perm.mem_iff (List.perm_insertionSort _ _)]
  simp

/-- What `load_plugins` does. -/
theorem loadPlugins_spec {eps : List EntryPoint} {fs : List Fiber} (hs : Setup eps fs) {s : Registry} {L : List Fiber}
    (h : Good eps fs s L) (fmt : Option String) (hF : ∀ F, fmt = some F → PlainName eps F) :
    ∃ L', Loaded eps fs s (s.loadPlugins fmt) L L' fun x => ∀ F, fmt = some F → x = F := by
  have hkn := known_spec hs h
  set s1 : Registry := { s with known := some s.knownFormats } with hs1
  have h1 : Good eps fs s1 L := by
    refine ⟨h.holds.with rfl rfl rfl rfl, h.epsEq, h.sub, h.base, h.complete, ?_, h.failed⟩
    intro l hl
    cases hl
    exact hkn
  have hkn1 : s1.knownFormats = s.knownFormats := rfl
  -- a reader whose format is not to be loaded is there
  have hin : ∀ f ∈ allReaders eps fs, upperS f.name ∉ s1.unloaded → f ∈ L := by
    intro f hf hu
    rw [mem_unloaded, hkn1] at hu
    have hk : upperS f.name ∈ s.forms.keys := by
      by_contra hk
      exact hu ⟨hkn.2.1 f hf, hk, fun hfa => h.failed _ hfa f hf rfl⟩
    obtain ⟨g, hg, e⟩ := (h.holds.formKeys _).1 hk
    exact h.complete f hf g hg e
  have hplain : ∀ x ∈ s1.unloaded, PlainName eps x := by
    intro x hx
    rw [mem_unloaded] at hx
    rcases hkn.2.2 x hx.1 with ⟨e, he, rfl⟩ | ⟨f, hf, rfl⟩
    · exact hs.named.2 e he
    · exact absurd ((h.holds.formKeys _).2 ⟨f, h.base f hf, rfl⟩) hx.2.1
  cases fmt with
  | none =>
    have he : s.loadPlugins none = if s1.unloaded.isEmpty then s1 else s1.unloaded.foldl Registry.loadForm s1 := rfl
    rw [he]
    split
    · rename_i hemp
      refine ⟨L, h1, fun _ h => h, ?_, rfl, rfl, rfl⟩
      intro f hf _
      refine hin f hf ?_
      rw [List.isEmpty_iff] at hemp
      rw [hemp]; simp
    · obtain ⟨L', hl⟩ := loadForms_spec hs s1.unloaded h1 hplain
      refine ⟨L', hl.good, hl.more, ?_, hl.caches.prior, hl.caches.snaps, hl.caches.lookups⟩
      intro f hf _
      by_cases hu : upperS f.name ∈ s1.unloaded
      · exact hl.all f hf hu
      · exact hl.more f (hin f hf hu)
  | some F =>
    have he : s.loadPlugins (some F) = if s.forms.keys.contains F then s else
      if s1.unloaded.isEmpty then s1 else s1.loadForm F := rfl
    rw [he]
    split
    · rename_i hc
      rw [List.contains_iff_mem, h.holds.formKeys] at hc
      obtain ⟨g, hg, e⟩ := hc
      refine ⟨L, h, fun _ h => h, ?_, SameCaches.refl s⟩
      intro f hf hx
      exact h.complete f hf g hg (e.trans (hx F rfl).symm)
    · split
      · rename_i hemp
        refine ⟨L, h1, fun _ h => h, ?_, rfl, rfl, rfl⟩
        intro f hf _
        refine hin f hf ?_
        rw [List.isEmpty_iff] at hemp
        rw [hemp]; simp
      · obtain ⟨L', hl⟩ := loadForm_spec hs h1 (hF F rfl)
        exact ⟨L', hl.good, hl.more, fun f hf hx => hl.all f hf (hx F rfl), hl.caches.prior, hl.caches.snaps, hl.caches.lookups⟩

theorem mem_newestFirst {s : Registry} {L : List Fiber} (h : Holds s L) (F : String) (f : Fiber) :
    f ∈ Registry.newestFirst (s.form F) ↔ f ∈ L ∧ upperS f.name = F := by
  have hkey : ∀ v g, (s.form F).get? v = some g → g ∈ L ∧ upperS g.name = F ∧ g.version = v := by
    intro v g hg
    rw [h.form] at hg
    have h1 := List.find?_some hg
    simp only [decide_eq_true_eq, Fiber.key, Prod.mk.injEq] at h1
    exact ⟨List.mem_of_find?_eq_some hg, h1.1, h1.2⟩
  unfold Registry.newestFirst
  rw [List.mem_map]
  constructor
  · rintro ⟨⟨v, g⟩, hg, rfl⟩
    rw [List.mem_insertionSort] at hg
    have := hkey v g (Dict.get?_of_mem (h.formNodup F) hg)
    exact ⟨this.1, this.2.1⟩
  · rintro ⟨hf, e⟩
    refine ⟨(f.version, f), ?_, rfl⟩
    rw [List.mem_insertionSort]
    apply Dict.mem_of_get?
    rw [h.form]
    cases hfind : L.find? fun g => decide (g.key = (F, f.version)) with
    | none =>
      rw [List.find?_eq_none] at hfind
      have := hfind f hf
      simp [Fiber.key, e] at this
    | some g =>
      have h1 := List.find?_some hfind
      have hg := List.mem_of_find?_eq_some hfind
      simp only [decide_eq_true_eq] at h1
      have : g = f := List.inj_on_of_nodup_map h.keysNodup hg hf (by rw [h1, Fiber.key, e])
      rw [this]

theorem newestFirst_sorted {s : Registry} {L : List Fiber} (h : Holds s L) (F : String) :
    (Registry.newestFirst (s.form F)).Pairwise fun f g => g.version < f.version := by
  unfold Registry.newestFirst
  set r : String × Fiber → String × Fiber → Prop := fun a b => b.1 ≤ a.1 with hr
  have : Std.Total r := ⟨fun a b => le_total b.1 a.1⟩
  have : IsTrans (String × Fiber) r := ⟨fun a b c h1 h2 => le_trans h2 h1⟩
  have h1 : (List.insertionSort r (s.form F)).Pairwise r := List.pairwise_insertionSort r _
  have h2 : (List.insertionSort r (s.form F)).Pairwise fun a b => a.1 ≠ b.1 := by
    have : ((List.insertionSort r (s.form F)).map Prod.fst).Nodup :=
      ((List.perm_insertionSort r _).map Prod.fst).nodup_iff.2 (h.formNodup F)
    exact List.pairwise_map.1 this
  have h3 : ∀ a ∈ List.insertionSort r (s.form F), a.2.version = a.1 := by
    rintro ⟨v, g⟩ ha
    rw [List.mem_insertionSort] at ha
    have hg := Dict.get?_of_mem (h.formNodup F) ha
    rw [h.form] at hg
    have h1 := List.find?_some hg
    simp only [decide_eq_true_eq, Fiber.key, Prod.mk.injEq] at h1
    exact h1.2
  rw [List.pairwise_map]
  have := h1.and h2
  refine this.imp_of_mem ?_
  intro a b ha hb hab
  rw [h3 a ha, h3 b hb]
  exact lt_of_le_of_ne hab.1 (Ne.symm hab.2)

/-- The readers cached are right. -/
structure Caches (eps : List EntryPoint) (fs : List Fiber) (s : Registry) : Prop where
  prior : ∀ t l, s.prior.get? t = some l → Rest LaterString (allReaders eps fs) t (fun _ => False) l
  snaps : ∀ t l, s.snaps.get? t = some l →
    (∀ f, f ∈ l ↔ f ∈ allReaders eps fs) ∧ ∀ f ∈ allReaders eps fs, f.inputType ≠ t
  lookups : ∀ p ∈ s.lookups, LooksUp LaterString (allReaders eps fs) p.1.1 p.1.2 (.ok p.2)

theorem Caches.same {eps : List EntryPoint} {fs : List Fiber} {s s' : Registry} (h : Caches eps fs s) (hs : SameCaches s s') :
    Caches eps fs s' :=
  ⟨by rw [hs.prior]; exact h.prior, by rw [hs.snaps]; exact h.snaps, by rw [hs.lookups]; exact h.lookups⟩

/-- All readers are registered. -/
def Full (eps : List EntryPoint) (fs : List Fiber) (s : Registry) : Prop :=
  ∃ L, Good eps fs s L ∧ (∀ f, f ∈ L ↔ f ∈ allReaders eps fs) ∧ Caches eps fs s

/-- What holds of the registry at any time after the registrations. -/
def Inv (eps : List EntryPoint) (fs : List Fiber) (s : Registry) : Prop := ∃ L, Good eps fs s L ∧ Caches eps fs s

theorem Full.inv {eps : List EntryPoint} {fs : List Fiber} {s : Registry} (h : Full eps fs s) : Inv eps fs s :=
  let ⟨L, a, _, b⟩ := h
  ⟨L, a, b⟩

variable {eps : List EntryPoint} {fs : List Fiber}

theorem inv_registered (hs : Setup eps fs) : Inv eps fs (registered eps fs) := by
  obtain ⟨L, h, hm, hr⟩ := holds_registerAll hs.unambiguous fs (holds_fresh eps) (by simp)
    (fun f hf => mem_all.2 (.inl hf))
  refine ⟨L, ⟨h, hr.eps, ?_, ?_, ?_, ?_, ?_⟩, ?_⟩
  · intro f hf
    rcases (hm f).1 hf with hf | hf
    · cases hf
    · exact mem_all.2 (.inl hf)
  · intro f hf; exact (hm f).2 (.inr hf)
  · intro f hf g hg e
    rw [hm] at hg ⊢
    rcases hg with hg | hg
    · cases hg
    rcases mem_all.1 hf with hf | ⟨ep, hep, hef⟩
    · exact .inr hf
    · exact absurd ((hs.named.1 ep hep f hef).trans e.symm) (hs.separate g hg ep hep)
  · intro l hl
    have : (registered eps fs).known = none := hr.known
    rw [this] at hl; cases hl
  · intro x hx
    have : (registered eps fs).failed = [] := hr.failed
    rw [this] at hx; cases hx
  · constructor
    · intro t l hl
      have : (registered eps fs).prior = [] := hr.prior
      rw [this] at hl; cases hl
    · intro t l hl
      have : (registered eps fs).snaps = [] := hr.snaps
      rw [this] at hl; cases hl
    · intro p hp
      have : (registered eps fs).lookups = [] := hr.lookups
      rw [this] at hp; cases hp

theorem full_loadAll (hs : Setup eps fs) {s : Registry} (h : Inv eps fs s) : Full eps fs (s.loadPlugins none) := by
  obtain ⟨L, hg, hc⟩ := h
  obtain ⟨L', hl⟩ := loadPlugins_spec hs hg none (by simp)
  exact ⟨L', hl.good, fun f => ⟨hl.good.sub f, fun hf => hl.all f hf (by simp)⟩, hc.same hl.caches⟩

theorem byType_spec {s : Registry} (h : Full eps fs s) (t : String) :
    Full eps fs (s.byType t).2 ∧ (∀ f, f ∈ (s.byType t).1 ↔ ForType (allReaders eps fs) t f) ∧
      ∀ e, (s.byType t).2.extList e = s.extList e := by
  obtain ⟨L, hg, hL, hc⟩ := h
  unfold Registry.byType
  cases hsn : s.snaps.get? t with
  | some l =>
    simp only
    refine ⟨⟨L, hg, hL, hc⟩, ?_, by simp⟩
    intro f
    obtain ⟨h1, h2⟩ := hc.snaps t l hsn
    rw [h1]
    exact ⟨fun hf => ⟨hf, .inr h2⟩, fun hf => hf.1⟩
  | none =>
    cases hty : s.types.get? t with
    | some l =>
      simp only
      refine ⟨⟨L, hg, hL, hc⟩, ?_, by simp⟩
      intro f
      have hl : s.typeList t = l := by simp [Registry.typeList, hty]
      rw [← hl, hg.holds.type, hL]
      obtain ⟨g, hgL, hgt⟩ := (hg.holds.typeKeys t).1 (Dict.mem_keys.2 ⟨l, hty⟩)
      constructor
      · rintro ⟨a, b⟩; exact ⟨a, .inl b⟩
      · rintro ⟨a, b | b⟩
        · exact ⟨a, b⟩
        · exact absurd hgt (b g ((hL g).1 hgL))
    | none =>
      simp only
      have hmem : ∀ f, f ∈ s.types.flatMap Prod.snd ↔ f ∈ allReaders eps fs := by
        intro f
        rw [← hL, List.mem_flatMap]
        constructor
        · rintro ⟨⟨u, l⟩, hu, hf⟩
          have hl : s.typeList u = l := by
            simp [Registry.typeList, Dict.get?_of_mem hg.holds.typesNodup hu]
          have := (hg.holds.type u f).1 (by rw [hl]; exact hf)
          exact this.1
        · intro hf
          obtain ⟨l, hl⟩ := Dict.mem_keys.1 ((hg.holds.typeKeys f.inputType).2 ⟨f, hf, rfl⟩)
          have := (hg.holds.type f.inputType f).2 ⟨hf, rfl⟩
          rw [Registry.typeList, hl] at this
          exact ⟨_, Dict.mem_of_get? hl, this⟩
      have hno : ∀ f ∈ allReaders eps fs, f.inputType ≠ t := by
        intro f hf e
        have := (hg.holds.typeKeys t).2 ⟨f, (hL f).2 hf, e⟩
        rw [Dict.get?_eq_none] at hty
        exact hty this
      refine ⟨⟨L, ⟨hg.holds.with rfl rfl rfl rfl, hg.epsEq, hg.sub, hg.base, hg.complete, hg.known, hg.failed⟩, hL,
        hc.prior, ?_, hc.lookups⟩, ?_, fun _ => rfl⟩
      · intro u l hl
        rw [Dict.get?_append] at hl
        cases hu : s.snaps.get? u with
        | some l' =>
          rw [hu] at hl
          simp only [Option.some_or, Option.some.injEq] at hl
          subst hl
          exact hc.snaps u l' hu
        | none =>
          rw [hu, Option.none_or, Dict.get?_cons] at hl
          by_cases htu : t = u
          · subst htu
            rw [if_pos rfl] at hl
            cases hl
            exact ⟨hmem, hno⟩
          · rw [if_neg htu] at hl
            cases hl
      · intro f
        rw [hmem]
        exact ⟨fun hf => ⟨hf, .inr hno⟩, fun hf => hf.1⟩

/-- The order in which all readers are tried. -/
theorem groups_spec {s : Registry} {L : List Fiber} (h : Holds s L) {all : List Fiber} (hL : ∀ f, f ∈ L ↔ f ∈ all)
    {K : List String} (hK : K.Nodup) (hKm : ∀ f ∈ all, upperS f.name ∈ K) :
    let groups := K.map fun x => Registry.newestFirst (s.form x)
    let l := groups.flatMap (fun g => g.take 1) ++ groups.flatMap (fun g => g.drop 1)
    (∀ f, f ∈ l ↔ f ∈ all) ∧
      l.Pairwise fun f g => (upperS f.name = upperS g.name → g.version < f.version) ∧
        (Newest LaterString all g.name g → Newest LaterString all f.name f) := by
  intro groups l
  set G : String → List Fiber := fun x => Registry.newestFirst (s.form x) with hG
  have hmem : ∀ x f, f ∈ G x ↔ f ∈ all ∧ upperS f.name = x := by
    intro x f; rw [← hL]; exact mem_newestFirst h x f
  have hsort : ∀ x, (G x).Pairwise fun f g => g.version < f.version := fun x => newestFirst_sorted h x
  have hsplit : ∀ x, G x = (G x).take 1 ++ (G x).drop 1 := fun x => (List.take_append_drop 1 _).symm
  have htake : ∀ x f, f ∈ (G x).take 1 → f ∈ G x := fun x f hf => List.mem_of_mem_take hf
  have hdrop : ∀ x f, f ∈ (G x).drop 1 → f ∈ G x := fun x f hf => List.mem_of_mem_drop hf
  have hnew : ∀ x f, f ∈ (G x).take 1 → Newest LaterString all f.name f := by
    intro x f hf
    have hfx := (hmem x f).1 (htake x f hf)
    refine ⟨hfx.1, rfl, ?_⟩
    intro g hg e
    have hgx : g ∈ G x := (hmem x g).2 ⟨hg, e.trans hfx.2⟩
    have hs := hsort x
    cases hGx : G x with
    | nil => rw [hGx] at hgx; cases hgx
    | cons a as =>
      rw [hGx] at hf hgx hs
      simp at hf
      subst hf
      rcases List.mem_cons.1 hgx with rfl | hg'
      · exact le_refl _
      · exact le_of_lt ((List.pairwise_cons.1 hs).1 g hg')
  have hold : ∀ x f, f ∈ (G x).drop 1 → ¬ Newest LaterString all f.name f := by
    intro x f hf hn
    have hfx := (hmem x f).1 (hdrop x f hf)
    have hs := hsort x
    cases hGx : G x with
    | nil => rw [hGx] at hf; cases hf
    | cons a as =>
      have ha := (hmem x a).1 (by rw [hGx]; simp)
      rw [hGx] at hf hs
      have h1 := (List.pairwise_cons.1 hs).1 f (by simpa using hf)
      have h2 := hn.2.2 a ha.1 (ha.2.trans hfx.2.symm)
      exact absurd h1 (not_lt.2 h2)
  constructor
  · intro f
    simp only [l, groups, List.mem_append, List.mem_flatMap, List.mem_map]
    constructor
    · rintro (⟨_, ⟨x, hx, rfl⟩, hf⟩ | ⟨_, ⟨x, hx, rfl⟩, hf⟩)
      · exact ((hmem x f).1 (htake x f hf)).1
      · exact ((hmem x f).1 (hdrop x f hf)).1
    · intro hf
      have hfx := (hmem (upperS f.name) f).2 ⟨hf, rfl⟩
      rw [hsplit, List.mem_append] at hfx
      rcases hfx with hfx | hfx
      · exact .inl ⟨_, ⟨_, hKm f hf, rfl⟩, hfx⟩
      · exact .inr ⟨_, ⟨_, hKm f hf, rfl⟩, hfx⟩
  · simp only [l, groups]
    rw [List.pairwise_append, List.pairwise_flatMap, List.pairwise_flatMap]
    have hdiff : ∀ x y, x ≠ y → ∀ f ∈ G x, ∀ g ∈ G y, upperS f.name ≠ upperS g.name := by
      intro x y hxy f hf g hg e
      exact hxy (((hmem x f).1 hf).2.symm.trans (e.trans ((hmem y g).1 hg).2))
    refine ⟨⟨?_, ?_⟩, ⟨?_, ?_⟩, ?_⟩
    · intro g hg
      obtain ⟨x, -, rfl⟩ := List.mem_map.1 hg
      have : ((G x).take 1).Pairwise fun f g => g.version < f.version := (hsort x).sublist (List.take_sublist 1 _)
      exact this.imp_of_mem fun ha _ hab => ⟨fun _ => hab, fun _ => hnew x _ ha⟩
    · rw [List.pairwise_map]
      refine List.Pairwise.imp ?_ hK
      intro x y hxy f hf g hg
      exact ⟨fun e => absurd e (hdiff x y hxy f (htake x f hf) g (htake y g hg)), fun _ => hnew x f hf⟩
    · intro g hg
      obtain ⟨x, -, rfl⟩ := List.mem_map.1 hg
      have : ((G x).drop 1).Pairwise fun f g => g.version < f.version := (hsort x).sublist (List.drop_sublist 1 _)
      exact this.imp_of_mem fun _ hb hab => ⟨fun _ => hab, fun hn => absurd hn (hold x _ hb)⟩
    · rw [List.pairwise_map]
      refine List.Pairwise.imp ?_ hK
      intro x y hxy f hf g hg
      exact ⟨fun e => absurd e (hdiff x y hxy f (hdrop x f hf) g (hdrop y g hg)), fun hn => absurd hn (hold y g hg)⟩
    · intro f hf g hg
      obtain ⟨_, hx, hf⟩ := List.mem_flatMap.1 hf
      obtain ⟨x, -, rfl⟩ := List.mem_map.1 hx
      obtain ⟨_, hy, hg⟩ := List.mem_flatMap.1 hg
      obtain ⟨y, -, rfl⟩ := List.mem_map.1 hy
      refine ⟨?_, fun hn => absurd hn (hold y g hg)⟩
      intro e
      by_cases hxy : x = y
      · subst hxy
        have hs := hsort x
        rw [hsplit, List.pairwise_append] at hs
        exact hs.2.2 f hf g hg
      · exact absurd e (hdiff x y hxy f (htake x f hf) g (hdrop y g hg))

theorem rest_of {all : List Fiber} {t : String} {hasExt : Fiber → Prop} {l : List Fiber}
    (hm : ∀ f, f ∈ l ↔ ForType all t f ∧ ¬ hasExt f)
    (hp : l.Pairwise fun f g => (upperS f.name = upperS g.name → g.version < f.version) ∧
        (Newest LaterString all g.name g → Newest LaterString all f.name f)) : Rest LaterString all t hasExt l := by
  refine ⟨hm, ?_, ?_, ?_⟩
  · refine hp.imp ?_
    rintro f g h rfl
    exact lt_irrefl _ (h.1 rfl)
  · exact hp.imp fun h e => le_of_lt (h.1 e)
  · exact hp.imp fun h => h.2

theorem prioritized_spec (hs : Setup eps fs) {order : List String → List String} (ho : ∀ l, (order l).Perm l) {s : Registry}
    (h : Inv eps fs s) (t : String) : Inv eps fs (s.prioritized order t).2 ∧
      Rest LaterString (allReaders eps fs) t (fun _ => False) (s.prioritized order t).1 := by
  unfold Registry.prioritized
  cases hp : s.prior.get? t with
  | some l =>
    simp only
    obtain ⟨L, hg, hc⟩ := h
    exact ⟨⟨L, hg, hc⟩, hc.prior t l hp⟩
  | none =>
    simp only
    have hf := full_loadAll hs h
    set s1 := s.loadPlugins none with hs1
    obtain ⟨hb1, hb2, -⟩ := byType_spec hf t
    obtain ⟨L, hg, hL, hc⟩ := hf
    have hk := known_spec hs hg
    have hgr := groups_spec hg.holds hL ((ho s1.knownFormats).nodup_iff.2 hk.1)
      (fun f hf => (ho s1.knownFormats).mem_iff.2 (hk.2.1 f hf))
    set l := List.flatMap (fun g => g.take 1) (List.map (fun x => Registry.newestFirst (s1.form x)) (order s1.knownFormats)) ++
      List.flatMap (fun g => g.drop 1) (List.map (fun x => Registry.newestFirst (s1.form x)) (order s1.knownFormats)) with hl
    have hrest : Rest LaterString (allReaders eps fs) t (fun _ => False) (l.filter (s1.byType t).1.contains) := by
      apply rest_of
      · intro f
        rw [List.mem_filter, hgr.1 f, List.contains_iff_mem, hb2]
        constructor
        · rintro ⟨_, b⟩; exact ⟨b, fun h => h⟩
        · rintro ⟨b, _⟩; exact ⟨b.1, b⟩
      · exact hgr.2.sublist List.filter_sublist
    refine ⟨?_, hrest⟩
    obtain ⟨L', hg', -, hc'⟩ := hb1
    refine ⟨L', ⟨hg'.holds.with rfl rfl rfl rfl, hg'.epsEq, hg'.sub, hg'.base, hg'.complete, hg'.known, hg'.failed⟩, ?_,
      hc'.snaps, hc'.lookups⟩
    intro u m hm
    simp only [Dict.get?_append] at hm
    cases hu : (s1.byType t).2.prior.get? u with
    | some m' =>
      rw [hu] at hm
      simp only [Option.some_or, Option.some.injEq] at hm
      subst hm
      exact hc'.prior u m' hu
    | none =>
      rw [hu, Option.none_or, Dict.get?_cons] at hm
      by_cases htu : t = u
      · subst htu
        rw [if_pos rfl] at hm
        cases hm
        exact hrest
      · rw [if_neg htu] at hm
        cases hm

theorem inv_load (hs : Setup eps fs) {s : Registry} (h : Inv eps fs s) {F : String} (hF : PlainName eps F) :
    Inv eps fs (s.loadPlugins (some F)) := by
  obtain ⟨L, hg, hc⟩ := h
  obtain ⟨L', hl⟩ := loadPlugins_spec hs hg (some F) (by rintro _ ⟨⟩; exact hF)
  exact ⟨L', hl.good, hc.same hl.caches⟩

theorem formatVersion_spec (hs : Setup eps fs) {s : Registry} (h : Inv eps fs s) {fmt : String} (version : Option String)
    (hF : PlainName eps (upperS fmt)) : Inv eps fs (s.formatVersion fmt version).2 ∧
      ∃ l, FormatOrder LaterString (allReaders eps fs) fmt version l ∧
        ((s.formatVersion fmt version).1 = .ok l ∧ l ≠ [] ∨ (s.formatVersion fmt version).1 = .error .unknownFiberFormat ∧ l = []) := by
  obtain ⟨L, hg, hc⟩ := h
  obtain ⟨L', hl⟩ := loadPlugins_spec hs hg (some (upperS fmt)) (by rintro _ ⟨⟩; exact hF)
  set s1 := s.loadPlugins (some (upperS fmt)) with hs1
  refine ⟨⟨L', hl.good, hc.same hl.caches⟩, ?_⟩
  have hmem : ∀ f, f ∈ Registry.newestFirst (s1.form (upperS fmt)) ↔ f ∈ allReaders eps fs ∧ upperS f.name = upperS fmt := by
    intro f
    rw [mem_newestFirst hl.good.holds]
    exact ⟨fun h => ⟨hl.good.sub f h.1, h.2⟩, fun h => ⟨hl.all f h.1 (by rintro _ ⟨⟩; exact h.2), h.2⟩⟩
  have hsort := newestFirst_sorted hl.good.holds (upperS fmt)
  have hget := hl.good.holds.form (upperS fmt)
  set d := s1.form (upperS fmt) with hd
  have he : (s.formatVersion fmt version).1 = if d.isEmpty then .error .unknownFiberFormat
   else match version with
    | some v => if v = "" then .ok (Registry.newestFirst d) else
      match d.get? v with
      | some f => .ok [f]
      | none => .error .unknownFiberFormat
    | none => .ok (Registry.newestFirst d) := rfl
  have hlen : (Registry.newestFirst d).length = d.length := by
    unfold Registry.newestFirst; rw [List.length_map, List.length_insertionSort]
  have hne : ¬ d.isEmpty = true → Registry.newestFirst d ≠ [] := by
    intro h e
    rw [List.isEmpty_iff_length_eq_zero, ← hlen, e] at h
    exact h rfl
  have hwhole : (version = none ∨ version = some "") →
      FormatOrder LaterString (allReaders eps fs) fmt version (Registry.newestFirst d) := by
    intro hv
    refine ⟨?_, hsort.imp fun h => le_of_lt h⟩
    intro f
    rw [hmem]
    constructor
    · rintro ⟨a, b⟩
      refine ⟨a, b, ?_⟩
      rintro v rfl hv'
      rcases hv with hv | hv
      · cases hv
      · exact absurd (Option.some.inj hv) hv'
    · rintro ⟨a, b, -⟩; exact ⟨a, b⟩
  by_cases hemp : d.isEmpty
  · refine ⟨[], ⟨?_, by simp⟩, .inr ⟨by rw [he, if_pos hemp], rfl⟩⟩
    intro f
    constructor
    · intro h; cases h
    · rintro ⟨a, b, -⟩
      have h1 := (hmem f).2 ⟨a, b⟩
      have : Registry.newestFirst d = [] := by
        apply List.eq_nil_of_length_eq_zero
        rw [hlen]; exact List.isEmpty_iff_length_eq_zero.1 hemp
      rw [this] at h1; cases h1
  · rw [if_neg hemp] at he
    cases version with
    | none => exact ⟨_, hwhole (.inl rfl), .inl ⟨he, hne hemp⟩⟩
    | some v =>
      simp only at he
      by_cases hv : v = ""
      · subst hv
        rw [if_pos rfl] at he
        exact ⟨_, hwhole (.inr rfl), .inl ⟨he, hne hemp⟩⟩
      · rw [if_neg hv] at he
        cases hgv : d.get? v with
        | some f =>
          rw [hgv] at he
          refine ⟨[f], ⟨?_, by simp⟩, .inl ⟨he, by simp⟩⟩
          rw [hget] at hgv
          have h1 := List.find?_some hgv
          simp only [decide_eq_true_eq] at h1
          have hfL := List.mem_of_find?_eq_some hgv
          have hfa := hl.good.sub f hfL
          intro g
          rw [List.mem_singleton]
          constructor
          · rintro rfl
            simp only [Fiber.key, Prod.mk.injEq] at h1
            exact ⟨hfa, h1.1, by rintro _ ⟨⟩ _; exact h1.2⟩
          · rintro ⟨a, b, c⟩
            apply hs.unambiguous g a f hfa
            rw [h1, Fiber.key, b, c v rfl hv]
        | none =>
          rw [hgv] at he
          refine ⟨[], ⟨?_, by simp⟩, .inr ⟨he, rfl⟩⟩
          rw [hget, List.find?_eq_none] at hgv
          intro g
          constructor
          · intro h; cases h
          · rintro ⟨a, b, c⟩
            exfalso
            have := hgv g (hl.all g a (by rintro _ ⟨⟩; exact b))
            simp [Fiber.key, b, c v rfl hv] at this

theorem getFiberio_spec (hs : Setup eps fs) {s : Registry} (h : Inv eps fs s) {fmt : String} (version : Option String)
    (hF : PlainName eps fmt) (hF' : PlainName eps (upperS fmt)) : Inv eps fs (s.getFiberio fmt version).2 ∧
      LooksUp LaterString (allReaders eps fs) fmt version (s.getFiberio fmt version).1 := by
  unfold Registry.getFiberio
  cases hfind : s.lookups.find? fun p => p.1 == (fmt, version) with
  | some p =>
    simp only
    refine ⟨h, ?_⟩
    obtain ⟨L, -, hc⟩ := h
    have h1 := List.find?_some hfind
    have h2 := hc.lookups p (List.mem_of_find?_eq_some hfind)
    have h3 : p.1 = (fmt, version) := by simpa using h1
    rw [h3] at h2
    exact h2
  | none =>
    simp only
    obtain ⟨hi, l, hl, hr⟩ := formatVersion_spec hs (inv_load hs h hF) version hF'
    set r := (s.loadPlugins (some fmt)).formatVersion fmt version with hr'
    rcases hr with ⟨hr, hne⟩ | ⟨hr, hnil⟩
    · rw [hr]
      cases l with
      | nil => exact absurd rfl hne
      | cons f l =>
        simp only
        have hlook : LooksUp LaterString (allReaders eps fs) fmt version (.ok f) := by
          have hf := (hl.mem f).1 (by simp)
          refine ⟨?_, ?_⟩
          · intro hv
            refine .inl ⟨f, rfl, hf.1, hf.2.1, ?_⟩
            intro g hg e
            have : g ∈ f :: l := (hl.mem g).2 ⟨hg, e, by
              rintro v rfl hv'
              rcases hv with hv | hv
              · cases hv
              · exact absurd (Option.some.inj hv) hv'⟩
            rcases List.mem_cons.1 this with rfl | hg'
            · exact le_refl g.version
            · exact (List.pairwise_cons.1 hl.newer).1 g hg'
          · intro v hv hv'
            exact .inl ⟨f, rfl, hf.1, hf.2.1, hf.2.2 v hv hv'⟩
        refine ⟨?_, hlook⟩
        obtain ⟨L, hg, hc⟩ := hi
        refine ⟨L, ⟨hg.holds.with rfl rfl rfl rfl, hg.epsEq, hg.sub, hg.base, hg.complete, hg.known, hg.failed⟩, hc.prior,
          hc.snaps, ?_⟩
        intro p hp
        simp only [List.mem_append, List.mem_singleton] at hp
        rcases hp with hp | rfl
        · exact hc.lookups p hp
        · exact hlook
    · rw [hr]
      simp only
      subst hnil
      refine ⟨hi, ?_, ?_⟩
      · intro hv
        refine .inr ⟨rfl, ?_⟩
        intro f hf e
        have := (hl.mem f).2 ⟨hf, e, by
              rintro v rfl hv'
              rcases hv with hv | hv
              · cases hv
              · exact absurd (Option.some.inj hv) hv'⟩
        cases this
      · intro v hv hv'
        refine .inr ⟨rfl, ?_⟩
        rintro f hf ⟨e, ev⟩
        have := (hl.mem f).2 ⟨hf, e, by
          intro w hw _
          rw [hv] at hw
          exact ev.trans (Option.some.inj hw)⟩
        cases this

theorem tryAll_append (ask : Fiber → Registry.Answer) (b : List Fiber) : ∀ a : List Fiber,
    Registry.tryAll ask (a ++ b) = (Registry.tryAll ask a).or (Registry.tryAll ask b)
  | [] => rfl
  | f :: a => by
    rw [List.cons_append, Registry.tryAll, Registry.tryAll]
    cases ask f with
    | yes n v => rfl
    | no => exact tryAll_append ask b a
    | raises => exact tryAll_append ask b a

theorem first_tryAll (ask : Fiber → Registry.Answer) : ∀ l : List Fiber,
    FirstToRecognise ask l (Registry.orUnknown (Registry.tryAll ask l))
  | [] => .inr ⟨rfl, by simp⟩
  | f :: l => by
    rw [Registry.tryAll]
    have key : (∀ n v, ask f ≠ .yes n v) → FirstToRecognise ask (f :: l) (Registry.orUnknown (Registry.tryAll ask l)) := by
      intro hf
      rcases first_tryAll ask l with ⟨l1, g, l2, n, v, rfl, hg, hb, hr⟩ | ⟨hr, hb⟩
      · refine .inl ⟨f :: l1, g, l2, n, v, rfl, hg, ?_, hr⟩
        intro k hk
        rcases List.mem_cons.1 hk with rfl | hk
        · exact hf
        · exact hb k hk
      · refine .inr ⟨hr, ?_⟩
        intro k hk
        rcases List.mem_cons.1 hk with rfl | hk
        · exact hf
        · exact hb k hk
    cases hf : ask f with
    | yes n v => exact .inl ⟨[], f, l, n, v, rfl, hf, by simp, rfl⟩
    | no => exact key (by rw [hf]; simp)
    | raises => exact key (by rw [hf]; simp)

theorem getFormat_given (hs : Setup eps fs) {s : Registry} (h : Inv eps fs s) {fmt : String} (version : Option String)
    (hF : PlainName eps fmt) (hF' : PlainName eps (upperS fmt)) (order : List String → List String)
    (ask : Fiber → Registry.Answer) (hint : Option Fiber) (ext : Option String) (t : String) :
    Inv eps fs (s.getFormat order ask (some fmt) version hint ext t).2 ∧
      ∃ l, FormatOrder LaterString (allReaders eps fs) fmt version l ∧
        FirstToRecognise ask l (s.getFormat order ask (some fmt) version hint ext t).1 := by
  obtain ⟨hi, l, hl, hr⟩ := formatVersion_spec hs (inv_load hs h hF) version hF'
  refine ⟨hi, l, hl, ?_⟩
  show FirstToRecognise ask l (((s.loadPlugins (some fmt)).formatVersion fmt version).1.bind fun l =>
    Registry.orUnknown (Registry.tryAll ask l))
  rcases hr with ⟨hr, -⟩ | ⟨hr, rfl⟩
  · rw [hr]; exact first_tryAll ask l
  · rw [hr]; exact .inr ⟨rfl, by simp⟩

theorem getFormat_detect (hs : Setup eps fs) {s : Registry} (h : Inv eps fs s) {version : Option String}
    (hv : version = none ∨ version = some "") {order : List String → List String} (ho : ∀ l, (order l).Perm l)
    (ask : Fiber → Registry.Answer) (hint : Option Fiber) (ext : Option String) (t : String) :
    Inv eps fs (s.getFormat order ask none version hint ext t).2 ∧
      ∃ l, SearchOrder LaterString (allReaders eps fs) hint ext t l ∧
        FirstToRecognise ask l (s.getFormat order ask none version hint ext t).1 := by
  have hv' : ¬ version.getD "" ≠ "" := by rcases hv with rfl | rfl <;> simp
  unfold Registry.getFormat
  simp only
  rw [if_neg hv']
  cases ext with
  | none =>
    obtain ⟨hi, hrest⟩ := prioritized_spec hs ho h t
    have hne : ∀ f, ¬ HasExt none f := by rintro f ⟨e, he, -⟩; cases he
    have hso : SearchOrder LaterString (allReaders eps fs) hint none t (hint.toList ++ [] ++ (s.prioritized order t).1) := by
      refine ⟨[], _, rfl, ?_, ?_, hrest.once, hrest.newer, hrest.newestFirst⟩
      · intro f; simp [hne f]
      · intro f; rw [hrest.mem]; simp [hne f]
    cases hh : Registry.tryAll ask hint.toList with
    | some r =>
      simp only
      refine ⟨h, _, hso, ?_⟩
      have := first_tryAll ask (hint.toList ++ [] ++ (s.prioritized order t).1)
      rw [List.append_nil, tryAll_append, hh] at this
      rw [List.append_nil]
      exact this
    | none =>
      simp only
      refine ⟨hi, _, hso, ?_⟩
      have := first_tryAll ask (hint.toList ++ [] ++ (s.prioritized order t).1)
      rw [List.append_nil, tryAll_append, hh, Option.none_or] at this
      rw [List.append_nil]
      exact this
  | some e =>
    have hfull := full_loadAll hs h
    set s1 := s.loadPlugins none with hs1
    obtain ⟨hb1, hb2, hb3⟩ := byType_spec hfull t
    set pot := s1.byType t with hpot
    obtain ⟨hi, hrest⟩ := prioritized_spec hs ho hb1.inv t
    have hext : ∀ f, f ∈ pot.2.extList e ↔ f ∈ allReaders eps fs ∧ HasExt (some e) f := by
      intro f
      obtain ⟨L, hg, hL, -⟩ := hb1
      rw [hg.holds.ext, hL]
      constructor
      · rintro ⟨a, b⟩; exact ⟨a, e, rfl, b⟩
      · rintro ⟨a, e', he, b⟩; cases he; exact ⟨a, b⟩
    set B := (pot.2.extList e).filter pot.1.contains with hB
    set C := (pot.2.prioritized order t).1.filter fun f => !(pot.2.extList e).contains f with hC
    have hso : SearchOrder LaterString (allReaders eps fs) hint (some e) t (hint.toList ++ B ++ C) := by
      refine ⟨B, C, rfl, ?_, ?_, hrest.once.filter _, hrest.newer.sublist List.filter_sublist,
        hrest.newestFirst.sublist List.filter_sublist⟩
      · intro f
        rw [hB, List.mem_filter, hext, List.contains_iff_mem, hb2]
        constructor
        · rintro ⟨a, b⟩; exact ⟨b, a.2⟩
        · rintro ⟨a, b⟩; exact ⟨⟨a.1, b⟩, a⟩
      · intro f
        rw [hC, List.mem_filter, hrest.mem, Bool.not_eq_true', ← Bool.not_eq_true, List.contains_iff_mem, hext]
        constructor
        · rintro ⟨a, b⟩; exact ⟨a.1, fun hx => b ⟨a.1.1, hx⟩⟩
        · rintro ⟨a, b⟩; exact ⟨⟨a, fun h => h⟩, fun hx => b hx.2⟩
    have hfirst := first_tryAll ask (hint.toList ++ B ++ C)
    rw [tryAll_append, tryAll_append] at hfirst
    cases hh : Registry.tryAll ask hint.toList with
    | some r =>
      simp only
      rw [hh] at hfirst
      exact ⟨h, _, hso, hfirst⟩
    | none =>
      rw [hh, Option.none_or] at hfirst
      simp only
      cases hb : Registry.tryAll ask B with
      | some r =>
        simp only
        rw [hb] at hfirst
        exact ⟨hb1.inv, _, hso, hfirst⟩
      | none =>
        simp only
        rw [hb, Option.none_or] at hfirst
        exact ⟨hi, _, hso, hfirst⟩

theorem inv_step (hs : Setup eps fs) {s : Registry} (h : Inv eps fs s) {op : RegOp} (ho : LookupOnly eps op) :
    Inv eps fs (s.step op) := by
  cases op with
  | register f => exact ho.elim
  | lookup fmt v => exact (getFiberio_spec hs h v ho.1 ho.2).1
  | detect order ask fmt version hint ext t =>
    cases fmt with
    | some f => exact (getFormat_given hs h version (ho.2 f rfl).1 (ho.2 f rfl).2 order ask hint ext t).1
    | none =>
      by_cases hv : version = none ∨ version = some ""
      · exact (getFormat_detect hs h hv ho.1 ask hint ext t).1
      · have hv' : version.getD "" ≠ "" := by
          cases version with
          | none => exact absurd (.inl rfl) hv
          | some v => exact fun e => hv (.inr (by rw [← e]; rfl))
        have : s.step (.detect order ask none version hint ext t) = s := by
          show (s.getFormat order ask none version hint ext t).2 = s
          unfold Registry.getFormat
          simp only
          rw [if_pos hv']
        rw [this]; exact h

theorem inv_history (hs : Setup eps fs) : ∀ (ops : List RegOp) {s : Registry}, Inv eps fs s → (∀ op ∈ ops, LookupOnly eps op) →
    Inv eps fs (ops.foldl Registry.step s)
  | [], _, h, _ => h
  | op :: ops, _, h, ho => inv_history hs ops (inv_step hs h (ho op (by simp))) fun o hx => ho o (by simp [hx])

end Reg
end Verif
