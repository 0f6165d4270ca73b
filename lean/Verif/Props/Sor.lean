import Verif.Spec.Sor
import Verif.Proof.CoordRange
import Mathlib.Data.List.Nodup
/-! # C108: SR-4731 files -/
namespace Verif
open Spec

theorem u16_le {n : ℕ} (h : n < 65536) (r : List ℕ) : u16 (le16 n ++ r) = .ok (n, r) := by
  show Except.ok (n % 256 + 256 * (n / 256 % 256), r) = _
  congr 2
  omega

theorem u32_le {n : ℕ} (h : n < 4294967296) (r : List ℕ) : u32 (le32 n ++ r) = .ok (n, r) := by
  show Except.ok (n % 256 + 256 * (n / 256 % 256) + 65536 * (n / 65536 % 256) + 16777216 * (n / 16777216 % 256), r) = _
  congr 2
  omega

theorem cString_name {s : List ℕ} (h : 0 ∉ s) (r : List ℕ) : cString (s ++ 0 :: r) = .ok (s, r) := by
  have hp : ∀ c ∈ s, decide (c ≠ 0) = true := by
    intro c hc
    have : c ≠ 0 := fun e => h (e ▸ hc)
    simpa using this
  unfold cString
  rw [List.dropWhile_append_of_pos hp, List.takeWhile_append_of_pos hp]
  simp

/-- The entry the reader makes of a block. -/
def entryOf (b : SorBlock) : SorEntry := ⟨b.name, b.version, b.bytes.length⟩

theorem sorEntries_eq : ∀ (bs : List SorBlock) (r : List ℕ), (∀ b ∈ bs, b.version < 65536) → (∀ b ∈ bs, b.bytes.length < 4294967296) → (∀ b ∈ bs, 0 ∉ b.name) →
    sorEntries bs.length (bs.flatMap SorBlock.entry ++ r) = .ok (bs.map entryOf)
  | [], _, _, _, _ => rfl
  | b :: bs, r, h1, h2, h3 => by
    have ih := sorEntries_eq bs r (fun x hx => h1 x (by simp [hx])) (fun x hx => h2 x (by simp [hx])) (fun x hx => h3 x (by simp [hx]))
    have e : (b :: bs).flatMap SorBlock.entry ++ r = b.name ++ 0 :: (le16 b.version ++ (le32 b.bytes.length ++ (bs.flatMap SorBlock.entry ++ r))) := by
      simp [SorBlock.entry]
    rw [e]
    show sorEntries (bs.length + 1) _ = _
    unfold sorEntries
    rw [cString_name (h3 b (by simp))]
    simp only [bind, Except.bind]
    rw [u16_le (h1 b (by simp))]
    simp only
    rw [u32_le (h2 b (by simp))]
    simp only
    rw [ih]
    rfl

theorem mapBlock_length (v : ℕ) (bs : List SorBlock) : (mapBlock v bs).bytes.length = 12 + (bs.flatMap SorBlock.entry).length := by
  simp only [mapBlock, SorBlock.bytes, le16, le32, List.length_append, List.length_cons, List.length_nil]
  omega

theorem sorMap_eq {v : ℕ} {bs : List SorBlock} (h : Writable v bs) : sorMap (sorBytes v bs) = .ok ((mapBlock v bs :: bs).map entryOf) := by
  have e : sorBytes v bs = mapName ++ 0 :: (le16 v ++ (le32 (12 + (bs.flatMap SorBlock.entry).length) ++ (le16 (bs.length + 1) ++ (bs.flatMap SorBlock.entry ++ bs.flatMap SorBlock.bytes)))) := by
    simp [sorBytes, SorBlock.bytes, mapBlock, mapName]
  have hl : 1 ≤ bs.length := List.length_pos_iff.2 h.some
  rw [e]
  unfold sorMap
  rw [cString_name (by decide)]
  simp only [bind, Except.bind]
  rw [if_neg (by simp), u16_le h.version']
  simp only
  rw [u32_le h.mapSize]
  simp only
  rw [u16_le h.few]
  simp only
  rw [if_neg (by omega), Nat.add_sub_cancel, sorEntries_eq bs _ h.versions h.sizes h.names]
  simp only [List.map_cons]
  unfold entryOf
  rw [mapBlock_length]
  rfl

/-- Where the reader finds a block. -/
def Finds (data : List ℕ) (b : SorBlock) (p : SorPlace) : Prop := p.name = b.name ∧ p.version = b.version ∧ sorPayload data p = .ok b.payload

theorem sorPlaces_eq {total : ℕ} {post : List ℕ} : ∀ (bs : List SorBlock) (pre : List ℕ), (∀ b ∈ bs, 0 ∉ b.name) → pre.length + (bs.flatMap SorBlock.bytes).length ≤ total →
    ∃ ps, sorPlaces total pre.length (bs.map entryOf) = .ok ps ∧ List.Forall₂ (Finds (pre ++ (bs.flatMap SorBlock.bytes ++ post))) bs ps
  | [], _, _, _ => ⟨[], rfl, .nil⟩
  | b :: bs, pre, h, ht => by
    have hb : b.bytes.length ≠ 0 := by simp [SorBlock.bytes]
    simp only [List.flatMap_cons, List.length_append] at ht
    obtain ⟨ps, h1, h2⟩ := sorPlaces_eq (total := total) (post := post) bs (pre ++ b.bytes) (fun x hx => h x (by simp [hx])) (by rw [List.length_append]; omega)
    refine ⟨⟨b.name, b.version, b.bytes.length, pre.length⟩ :: ps, ?_, .cons ⟨rfl, rfl, ?_⟩ ?_⟩
    · rw [List.map_cons]
      unfold sorPlaces
      rw [if_neg (show ¬ (entryOf b).size = 0 from hb), if_neg (show ¬ total < pre.length + (entryOf b).size by
        show ¬ total < pre.length + b.bytes.length
        omega)]
      rw [List.length_append] at h1
      show Except.map _ (sorPlaces total (pre.length + b.bytes.length) _) = _
      rw [h1]
      rfl
    · unfold sorPayload
      simp only [List.flatMap_cons]
      rw [List.drop_left, List.append_assoc, List.take_left]
      unfold SorBlock.bytes
      rw [cString_name (h b (by simp))]
      rfl
    · simpa using h2

theorem find_place {data : List ℕ} {bs : List SorBlock} {ps : List SorPlace} (h : List.Forall₂ (Finds data) bs ps) (hn : (bs.map SorBlock.name).Nodup) {b : SorBlock} (hb : b ∈ bs) :
    ∃ p, sorBlock ps b.name = .ok p ∧ Finds data b p := by
  have hnames : ps.map SorPlace.name = bs.map SorBlock.name := by
    clear hn hb
    induction h with
    | nil => rfl
    | cons h1 _ ih => rw [List.map_cons, List.map_cons, h1.1, ih]
  have hex : ∃ p ∈ ps, Finds data b p := by
    clear hn hnames
    induction h with
    | nil => cases hb
    | cons h1 _ ih =>
      rcases List.mem_cons.1 hb with rfl | hb
      · exact ⟨_, by simp, h1⟩
      · obtain ⟨p, h2, h3⟩ := ih hb
        exact ⟨p, by simp [h2], h3⟩
  obtain ⟨p, hp, hf⟩ := hex
  refine ⟨p, ?_, hf⟩
  unfold sorBlock
  cases hq : ps.reverse.find? (fun p => p.name = b.name) with
  | none =>
    have := List.find?_eq_none.1 hq p (by simpa using hp)
    simp [hf.1] at this
  | some q =>
    have h1 : q ∈ ps := by simpa using List.mem_of_find?_eq_some hq
    have h2 : q.name = b.name := by simpa using List.find?_some hq
    have h3 : q = p := List.inj_on_of_nodup_map (by rw [hnames]; exact hn) h1 hp (by rw [h2, hf.1])
    rw [h3]

/-- **C108** (blocks). Every file of blocks written one after the other behind a map of them is read as these blocks: each name leads to what its block holds. -/
theorem C108_blocks {v : ℕ} {bs : List SorBlock} (h : Writable v bs) :
    ∃ ps, sorBlocks (sorBytes v bs) = .ok ps ∧ ∀ b ∈ bs, ∃ p, sorBlock ps b.name = .ok p ∧ p.version = b.version ∧ sorPayload (sorBytes v bs) p = .ok b.payload := by
  have hm : ∀ b ∈ mapBlock v bs :: bs, 0 ∉ b.name := by
    intro b hb
    rcases List.mem_cons.1 hb with rfl | hb
    · show 0 ∉ [77, 97, 112]
      decide
    · exact h.names b hb
  obtain ⟨ps, h1, h2⟩ := sorPlaces_eq (total := (sorBytes v bs).length) (post := []) (mapBlock v bs :: bs) [] hm (by simp [sorBytes])
  simp only [List.nil_append, List.append_nil, List.length_nil] at h1 h2
  refine ⟨ps, ?_, ?_⟩
  · unfold sorBlocks
    rw [sorMap_eq h]
    exact h1
  · intro b hb
    obtain ⟨p, h3, h4, h5, h6⟩ := find_place h2 h.distinct (List.mem_cons_of_mem _ hb)
    exact ⟨p, h3, h5, h6⟩

theorem sorPlaces_sound {total : ℕ} : ∀ (es : List SorEntry) (off : ℕ) {ps : List SorPlace}, sorPlaces total off es = .ok ps →
    ps.Pairwise (fun p q => p.offset + p.size ≤ q.offset) ∧ (∀ p ∈ ps, 0 < p.size ∧ off ≤ p.offset ∧ p.offset + p.size ≤ total)
  | [], _, ps, h => by cases h; simp
  | e :: es, off, ps, h => by
    unfold sorPlaces at h
    split_ifs at h with h1 h2
    cases hr : sorPlaces total (off + e.size) es with
    | error x => rw [hr] at h; cases h
    | ok qs =>
      rw [hr] at h
      cases h
      obtain ⟨h3, h4⟩ := sorPlaces_sound es (off + e.size) hr
      refine ⟨List.pairwise_cons.2 ⟨fun q hq => (h4 q hq).2.1, h3⟩, ?_⟩
      intro p hp
      rcases List.mem_cons.1 hp with rfl | hp
      · exact ⟨Nat.pos_of_ne_zero h1, le_refl _, by show off + e.size ≤ total; omega⟩
      · have := h4 p hp
        exact ⟨this.1, by omega, this.2.2⟩

/-- **C108** (any bytes). Whatever the bytes of a file are, the blocks found are not empty, lie within it, and do not overlap. -/
theorem C108_within (data : List ℕ) {ps : List SorPlace} (h : sorBlocks data = .ok ps) :
    ps.Pairwise (fun p q => p.offset + p.size ≤ q.offset) ∧ ∀ p ∈ ps, 0 < p.size ∧ p.offset + p.size ≤ data.length := by
  unfold sorBlocks at h
  cases hm : sorMap data with
  | error e => rw [hm] at h; cases h
  | ok es =>
    rw [hm] at h
    obtain ⟨h1, h2⟩ := sorPlaces_sound es 0 h
    exact ⟨h1, fun p hp => ⟨(h2 p hp).1, (h2 p hp).2.2⟩⟩

theorem sorFixed_eq {stamp spacing n index : ℕ} {unit wave gap gap' range rest : List ℕ} (h1 : stamp < 4294967296) (h2 : spacing < 4294967296) (h3 : n < 4294967296)
    (h4 : index < 4294967296) (hu : unit.length = 2) (hw : wave.length = 2) (hg : gap.length = 12) (hg' : gap'.length = 8) (hr : range.length = 4) (hs : 0 < spacing) (hi : 0 < index) :
    sorFixed (fixedBytes stamp spacing n index unit wave gap gap' range rest) =
      .ok ⟨stamp, (spacing / 100000000) * (299792458 / 1000000000) / (index / 100000) * 1000, n⟩ := by
  have e0 : fixedBytes stamp spacing n index unit wave gap gap' range rest =
      le32 stamp ++ (unit ++ (wave ++ (gap ++ (le32 spacing ++ (le32 n ++ (le32 index ++ (gap' ++ (range ++ rest)))))))) := by simp [fixedBytes]
  have l32 : ∀ n, (le32 n).length = 4 := fun _ => rfl
  have d6 : (fixedBytes stamp spacing n index unit wave gap gap' range rest).drop 6 = wave ++ (gap ++ (le32 spacing ++ (le32 n ++ (le32 index ++ (gap' ++ (range ++ rest)))))) := by
    rw [e0, ← List.append_assoc, List.drop_left' (by simp [l32, hu])]
  have d20 : (fixedBytes stamp spacing n index unit wave gap gap' range rest).drop 20 = le32 spacing ++ (le32 n ++ (le32 index ++ (gap' ++ (range ++ rest)))) := by
    rw [e0, ← List.append_assoc, ← List.append_assoc, ← List.append_assoc, List.drop_left' (by simp [l32, hu, hw, hg])]
  have d24 : (fixedBytes stamp spacing n index unit wave gap gap' range rest).drop 24 = le32 n ++ (le32 index ++ (gap' ++ (range ++ rest))) := by
    rw [show 24 = 20 + 4 from rfl, ← List.drop_drop, d20, List.drop_left' (l32 _)]
  have d28 : (fixedBytes stamp spacing n index unit wave gap gap' range rest).drop 28 = le32 index ++ (gap' ++ (range ++ rest)) := by
    rw [show 28 = 24 + 4 from rfl, ← List.drop_drop, d24, List.drop_left' (l32 _)]
  have d40 : (fixedBytes stamp spacing n index unit wave gap gap' range rest).drop 40 = range ++ rest := by
    rw [show 40 = 28 + 12 from rfl, ← List.drop_drop, d28, ← List.append_assoc, List.drop_left' (by simp [l32, hg'])]
  obtain ⟨w1, w2, rfl⟩ := List.length_eq_two.1 hw
  have hr4 : ∃ a b c d, range = [a, b, c, d] := by
    match range, hr with
    | [a, b, c, d], _ => exact ⟨a, b, c, d, rfl⟩
  obtain ⟨a, b, c, d, rfl⟩ := hr4
  unfold sorFixed
  rw [d6, d20, d24, d28, d40, u32_le h2, u32_le h3, u32_le h4, e0, u32_le h1]
  simp only [bind, Except.bind, u16, u32, List.cons_append, List.nil_append]
  rw [if_neg (by omega)]

theorem words_eq : ∀ (raw : List ℕ) (r : List ℕ), (∀ x ∈ raw, x < 65536) → words raw.length (raw.flatMap le16 ++ r) = raw
  | [], _, _ => rfl
  | x :: raw, r, h => by
    have ih := words_eq raw r fun y hy => h y (by simp [hy])
    have hx := h x (by simp)
    show (x % 256 + 256 * (x / 256 % 256)) :: words raw.length (raw.flatMap le16 ++ r) = x :: raw
    rw [ih]
    congr 1
    omega

theorem foldl_max_bound : ∀ (l : List ℕ) (a : ℕ), a ≤ l.foldl max a ∧ ∀ x ∈ l, x ≤ l.foldl max a
  | [], a => by simp
  | y :: l, a => by
    obtain ⟨h1, h2⟩ := foldl_max_bound l (max a y)
    refine ⟨le_trans (le_max_left _ _) h1, ?_⟩
    intro x hx
    rcases List.mem_cons.1 hx with rfl | hx
    · exact le_trans (le_max_right _ _) h1
    · exact h2 x hx

theorem foldl_max_or : ∀ (l : List ℕ) (a : ℕ), l.foldl max a = a ∨ l.foldl max a ∈ l
  | [], a => Or.inl rfl
  | y :: l, a => by
    rw [List.foldl_cons]
    rcases foldl_max_or l (max a y) with h | h
    · rcases max_choice a y with h' | h'
      · left; rw [h, h']
      · right; rw [h, h']; simp
    · right; exact List.mem_cons_of_mem _ h

theorem foldl_max_top {l : List ℕ} (h : l ≠ []) : l.foldl max 0 ∈ l := by
  rcases foldl_max_or l 0 with h0 | h1
  · cases l with
    | nil => exact absurd rfl h
    | cons x l =>
      have := (foldl_max_bound (x :: l) 0).2 x (by simp)
      rw [h0] at this ⊢
      have : x = 0 := by omega
      simp [this]
  · exact h1

theorem sorSamples_eq {raw : List ℕ} {scale : ℕ} {rest : List ℕ} (h0 : raw ≠ []) (h1 : raw.length < 4294967296) (h2 : ∀ x ∈ raw, x < 65536) (h3 : 0 < scale) (h4 : scale < 65536) :
    ∃ samples, sorSamples (pointBytes raw scale rest) = .ok samples ∧ Display raw scale samples ∧ samples.length = raw.length := by
  have hl : raw.length ≠ 0 := by simpa using h0
  refine ⟨raw.map fun r : ℕ => ((raw.foldl max 0 : ℕ) - (r : ℚ)) * scale / 1000000, ?_, ⟨_, foldl_max_top h0, (foldl_max_bound raw 0).2, rfl⟩, by simp⟩
  have e0 : pointBytes raw scale rest = le32 raw.length ++ (le16 1 ++ (le32 raw.length ++ (le16 scale ++ (raw.flatMap le16 ++ rest)))) := by simp [pointBytes]
  have d4 : (pointBytes raw scale rest).drop 4 = le16 1 ++ (le32 raw.length ++ (le16 scale ++ (raw.flatMap le16 ++ rest))) := by rw [e0]; rfl
  have d6 : (pointBytes raw scale rest).drop 6 = le32 raw.length ++ (le16 scale ++ (raw.flatMap le16 ++ rest)) := by rw [e0]; rfl
  have d10 : (pointBytes raw scale rest).drop 10 = le16 scale ++ (raw.flatMap le16 ++ rest) := by rw [e0]; rfl
  have d12 : (pointBytes raw scale rest).drop 12 = raw.flatMap le16 ++ rest := by rw [e0]; rfl
  have hlen : ¬ (pointBytes raw scale rest).length < 12 + raw.length * 2 := by
    have hw : ∀ l : List ℕ, (l.flatMap le16).length = l.length * 2 := by
      intro l
      induction l with
      | nil => rfl
      | cons x l ih => rw [List.flatMap_cons, List.length_append, ih]; simp [le16]; omega
    rw [e0]
    simp only [List.length_append, hw]
    simp [le16, le32]
    omega
  unfold sorSamples
  rw [d4, d6, d10, d12, u16_le (by decide), u32_le h1, u16_le h4]
  rw [show u32 (pointBytes raw scale rest) = .ok (raw.length, (le16 1 ++ (le32 raw.length ++ (le16 scale ++ (raw.flatMap le16 ++ rest))))) by rw [e0, u32_le h1]]
  simp only [bind, Except.bind]
  rw [if_neg hl, if_neg (by omega), if_neg (by simp), if_neg hlen, words_eq raw _ h2]

/-- **C108** (traces). Of every file which is written with its blocks in any order, and further blocks among them, the instant, the samples, and one distance for each sample are read: at
multiples of the way light goes in the fibre between samples. -/
theorem C108_trace {v : ℕ} {bs : List SorBlock} (h : Writable v bs) {stamp spacing index scale : ℕ} {raw unit wave gap gap' range rest rest' : List ℕ} {vf vd : ℕ}
    (hf : ⟨fxdName, vf, fixedBytes stamp spacing raw.length index unit wave gap gap' range rest⟩ ∈ bs) (hd : ⟨ptsName, vd, pointBytes raw scale rest'⟩ ∈ bs)
    (hg : ∃ b ∈ bs, b.name = genName) (hsup : ∃ b ∈ bs, b.name = supName) (hsum : ∃ b ∈ bs, b.name = sumName)
    (h1 : stamp < 4294967296) (h2 : spacing < 4294967296) (h3 : raw.length < 4294967296) (h4 : index < 4294967296) (h5 : scale < 65536) (h6 : ∀ x ∈ raw, x < 65536)
    (hu : unit.length = 2) (hw : wave.length = 2) (hga : gap.length = 12) (hg' : gap'.length = 8) (hr : range.length = 4)
    (hs : 0 < spacing) (hi : 0 < index) (hsc : 0 < scale) (hraw : raw ≠ []) :
    ∃ t, sorRead (sorBytes v bs) = .ok t ∧ t.stamp = stamp ∧ Display raw scale t.samples ∧
      t.distance.values = progression 0 ((spacing : ℚ) / 100000000 * (299792458 / 1000000000) / (index / 100000) * 1000) raw.length := by
  obtain ⟨ps, hb, hp⟩ := C108_blocks h
  obtain ⟨fb, f1, _, f2⟩ := hp _ hf
  obtain ⟨db, d1, _, d2⟩ := hp _ hd
  obtain ⟨b1, hb1, n1⟩ := hg
  obtain ⟨gb, g1, _, g2⟩ := hp _ hb1
  obtain ⟨b2, hb2, n2⟩ := hsup
  obtain ⟨sb, s1, _, s2⟩ := hp _ hb2
  obtain ⟨b3, hb3, n3⟩ := hsum
  obtain ⟨cb, c1, _, _⟩ := hp _ hb3
  rw [n1] at g1
  rw [n2] at s1
  rw [n3] at c1
  simp only at f1 d1 f2 d2
  obtain ⟨samples, hsam, hdis, hlen⟩ := sorSamples_eq (rest := rest') hraw h3 h6 hsc h5
  set step : ℚ := (spacing : ℚ) / 100000000 * (299792458 / 1000000000) / (index / 100000) * 1000 with hstep
  have hpos : 0 < step := by
    have a : (0 : ℚ) < spacing := by exact_mod_cast hs
    have b : (0 : ℚ) < index := by exact_mod_cast hi
    rw [hstep]; positivity
  have hl : 1 ≤ raw.length := List.length_pos_iff.2 hraw
  have hrange := mkRange_canonical (start := 0) (step := step) (n := raw.length) hpos.ne' hl
  have hvalid := mkRange_valid hpos.ne' hrange
  refine ⟨⟨stamp, ⟨0, 0 + step * raw.length, step, raw.length⟩, samples⟩, ?_, rfl, hdis, RangeCoord.Valid.values_eq hvalid⟩
  unfold sorRead
  rw [hb]
  simp only [bind, Except.bind]
  rw [c1]
  simp only
  rw [f1]
  simp only
  rw [d1]
  simp only
  rw [s1]
  simp only
  rw [g1]
  simp only
  rw [f2]
  simp only
  rw [sorFixed_eq h1 h2 h3 h4 hu hw hga hg' hr hs hi]
  simp only
  rw [d2]
  simp only
  rw [hsam]
  simp only
  rw [if_neg (by rw [hlen]; simp), s2]
  simp only
  rw [g2]
  simp only
  rw [← hstep]
  rw [zero_add] at hrange
  rw [hrange]
  simp

/-! ### Files cut off -/

theorem words_length : ∀ (n : ℕ) (l : List ℕ), n * 2 ≤ l.length → (words n l).length = n
  | 0, _, _ => by simp [words]
  | n + 1, [], h => by simp at h
  | n + 1, [_], h => by simp at h; omega
  | n + 1, a :: b :: l, h => by
    simp only [List.length_cons] at h
    simp [words, words_length n l (by omega)]

theorem except_step {α β} {x : Except Err α} {f : α → Except Err β} {b : β} (h : x.bind f = .ok b) : ∃ a, x = .ok a ∧ f a = .ok b := by
  cases x with
  | error e => cases h
  | ok a => exact ⟨a, rfl, h⟩

theorem sorSamples_sound {l : List ℕ} {samples : List ℚ} (h : sorSamples l = .ok samples) :
    samples ≠ [] ∧ (u32 l).map Prod.fst = .ok samples.length ∧ (u16 (l.drop 4)).map Prod.fst = .ok 1 ∧ (u32 (l.drop 6)).map Prod.fst = .ok samples.length ∧
      12 + samples.length * 2 ≤ l.length := by
  unfold sorSamples at h
  obtain ⟨total, h1, h⟩ := except_step h
  obtain ⟨traces, h2, h⟩ := except_step h
  obtain ⟨n, h3, h⟩ := except_step h
  obtain ⟨scale, h4, h⟩ := except_step h
  split_ifs at h with c1 c2 c3 c4
  push Not at c3 c4
  cases h
  have hl : (words n.1 (l.drop 12)).length = n.1 := words_length _ _ (by rw [List.length_drop]; omega)
  have hlen : ((words n.1 (l.drop 12)).map fun r : ℕ => (((words n.1 (l.drop 12)).foldl max 0 : ℕ) - (r : ℚ)) * scale.1 / 1000000).length = n.1 := by
    rw [List.length_map, hl]
  refine ⟨fun e => c1 ?_, ?_, ?_, ?_, ?_⟩
  · rw [← hlen, e]; rfl
  · rw [h1, hlen, ← c3.2]; rfl
  · rw [h2, ← c3.1]; rfl
  · rw [h3, hlen]; rfl
  · rw [hlen]; exact c4

/-- Whatever the bytes are: a file is only read if all the blocks are there, and if it holds one trace, all of its samples, and as many as the fixed
parameters and both numbers in front of the samples say. -/
theorem C108_sound {data : List ℕ} {t : SorTrace} (h : sorRead data = .ok t) : ∃ ps p q l m,
    sorBlocks data = .ok ps ∧ (∀ name ∈ [genName, supName, fxdName, ptsName, sumName], name ∈ ps.map SorPlace.name) ∧
    sorBlock ps ptsName = .ok p ∧ sorPayload data p = .ok l ∧ sorBlock ps fxdName = .ok q ∧ sorPayload data q = .ok m ∧ t.samples ≠ [] ∧
    (u32 l).map Prod.fst = .ok t.samples.length ∧ (u16 (l.drop 4)).map Prod.fst = .ok 1 ∧ (u32 (l.drop 6)).map Prod.fst = .ok t.samples.length ∧
    12 + t.samples.length * 2 ≤ l.length ∧ (u32 (m.drop 24)).map Prod.fst = .ok t.samples.length := by
  unfold sorRead at h
  obtain ⟨ps, h1, h⟩ := except_step h
  obtain ⟨b1, e1, h⟩ := except_step h
  obtain ⟨q, e2, h⟩ := except_step h
  obtain ⟨p, e3, h⟩ := except_step h
  obtain ⟨b4, e4, h⟩ := except_step h
  obtain ⟨b5, e5, h⟩ := except_step h
  obtain ⟨fixed, e6, h⟩ := except_step h
  obtain ⟨samples, e7, h⟩ := except_step h
  split_ifs at h with hc
  push Not at hc
  obtain ⟨_, _, h⟩ := except_step h
  obtain ⟨_, _, h⟩ := except_step h
  obtain ⟨d, _, h⟩ := except_step h
  cases h
  obtain ⟨m, hm, e6⟩ := except_step e6
  obtain ⟨l, hl, e7⟩ := except_step e7
  have there : ∀ {name b}, sorBlock ps name = .ok b → name ∈ ps.map SorPlace.name := by
    intro name b hb
    unfold sorBlock at hb
    split at hb
    · rename_i x hx
      have hx1 := List.mem_of_find?_eq_some hx
      have hx2 := List.find?_some hx
      exact List.mem_map.2 ⟨x, List.mem_reverse.1 hx1, by simpa using hx2⟩
    · cases hb
  obtain ⟨s1, s2, s3, s4, s5⟩ := sorSamples_sound e7
  refine ⟨ps, p, q, l, m, h1, ?_, e3, hl, e2, hm, s1, s2, s3, s4, s5, ?_⟩
  · intro name hn
    simp only [List.mem_cons, List.not_mem_nil, or_false] at hn
    rcases hn with rfl | rfl | rfl | rfl | rfl
    · exact there e5
    · exact there e4
    · exact there e2
    · exact there e3
    · exact there e1
  · unfold sorFixed at e6
    obtain ⟨_, _, e6⟩ := except_step e6
    obtain ⟨_, _, e6⟩ := except_step e6
    obtain ⟨_, _, e6⟩ := except_step e6
    obtain ⟨n, hn, e6⟩ := except_step e6
    obtain ⟨_, _, e6⟩ := except_step e6
    obtain ⟨_, _, e6⟩ := except_step e6
    split_ifs at e6
    cases e6
    rw [hn, ← hc]
    rfl

theorem cString_append {l a r : List ℕ} (h : cString l = .ok (a, r)) (x : List ℕ) : cString (l ++ x) = .ok (a, r ++ x) := by
  unfold cString at h
  cases hd : l.dropWhile (· ≠ 0) with
  | nil => rw [hd] at h; cases h
  | cons c rest =>
    rw [hd] at h
    simp only at h
    cases h
    have hc : c = 0 := by
      have := List.head_dropWhile_not (fun c : ℕ => decide (c ≠ 0)) (l := l) (by rw [hd]; simp)
      simp only [hd, List.head_cons] at this
      simpa using this
    have hl : l = l.takeWhile (· ≠ 0) ++ 0 :: r := by
      have := List.takeWhile_append_dropWhile (p := fun c : ℕ => decide (c ≠ 0)) (l := l)
      rw [hd, hc] at this
      exact this.symm
    have h0 : 0 ∉ l.takeWhile (· ≠ 0) := by
      intro hm
      have := List.all_eq_true.1 (List.all_takeWhile (p := fun c : ℕ => decide (c ≠ 0)) (l := l)) 0 hm
      simp at this
    conv_lhs => rw [hl, List.append_assoc, List.cons_append, cString_name h0]

theorem u16_append {l r : List ℕ} {n : ℕ} (h : u16 l = .ok (n, r)) (x : List ℕ) : u16 (l ++ x) = .ok (n, r ++ x) := by
  match l, h with
  | a :: b :: l, h => cases h; rfl

theorem u32_append {l r : List ℕ} {n : ℕ} (h : u32 l = .ok (n, r)) (x : List ℕ) : u32 (l ++ x) = .ok (n, r ++ x) := by
  match l, h with
  | a :: b :: c :: d :: l, h => cases h; rfl

theorem sorEntries_append : ∀ (n : ℕ) {l : List ℕ} {es : List SorEntry}, sorEntries n l = .ok es → ∀ x, sorEntries n (l ++ x) = .ok es
  | 0, _, _, h, _ => h
  | n + 1, l, es, h, x => by
    unfold sorEntries at h ⊢
    cases hs : cString l with
    | error e => rw [hs] at h; cases h
    | ok s =>
      rw [hs] at h
      simp only [bind, Except.bind] at h ⊢
      rw [cString_append hs]
      simp only
      cases hv : u16 s.2 with
      | error e => rw [hv] at h; cases h
      | ok v =>
        rw [hv] at h
        simp only at h
        rw [u16_append hv]
        simp only
        cases hz : u32 v.2 with
        | error e => rw [hz] at h; cases h
        | ok z =>
          rw [hz] at h
          simp only at h
          rw [u32_append hz]
          simp only
          cases he : sorEntries n z.2 with
          | error e => rw [he] at h; cases h
          | ok es' =>
            rw [he] at h
            rw [sorEntries_append n he]
            exact h

theorem sorMap_append {l : List ℕ} {es : List SorEntry} (h : sorMap l = .ok es) (x : List ℕ) : sorMap (l ++ x) = .ok es := by
  unfold sorMap at h ⊢
  cases hs : cString l with
  | error e => rw [hs] at h; cases h
  | ok s =>
    rw [hs] at h
    simp only [bind, Except.bind] at h ⊢
    rw [cString_append hs]
    simp only
    split_ifs at h ⊢ with hn
    cases hv : u16 s.2 with
    | error e => rw [hv] at h; cases h
    | ok v =>
      rw [hv] at h
      simp only at h
      rw [u16_append hv]
      simp only
      cases hz : u32 v.2 with
      | error e => rw [hz] at h; cases h
      | ok z =>
        rw [hz] at h
        simp only at h
        rw [u32_append hz]
        simp only
        cases hc : u16 z.2 with
        | error e => rw [hc] at h; cases h
        | ok c =>
          rw [hc] at h
          simp only at h
          rw [u16_append hc]
          simp only
          split_ifs at h ⊢ with h2
          cases he : sorEntries (c.1 - 1) c.2 with
          | error e => rw [he] at h; cases h
          | ok es' =>
            rw [he] at h
            rw [sorEntries_append _ he]
            exact h

theorem sorPlaces_sum {total : ℕ} : ∀ (es : List SorEntry) (off : ℕ) {ps : List SorPlace}, off ≤ total → sorPlaces total off es = .ok ps → off + (es.map SorEntry.size).sum ≤ total
  | [], off, _, h0, _ => by simpa using h0
  | e :: es, off, ps, h0, h => by
    unfold sorPlaces at h
    split_ifs at h with h1 h2
    cases hr : sorPlaces total (off + e.size) es with
    | error x => rw [hr] at h; cases h
    | ok qs =>
      have := sorPlaces_sum es (off + e.size) (by omega) hr
      simp only [List.map_cons, List.sum_cons]
      omega

theorem sizes_sum : ∀ bs : List SorBlock, ((bs.map entryOf).map SorEntry.size).sum = (bs.flatMap SorBlock.bytes).length
  | [] => rfl
  | b :: bs => by
    rw [List.map_cons, List.map_cons, List.sum_cons, sizes_sum bs, List.flatMap_cons, List.length_append]
    rfl

/-- **C108** (files cut off). A file from which anything is missing at its end, be it one byte, is refused. -/
theorem C108_truncated {v : ℕ} {bs : List SorBlock} (h : Writable v bs) {k : ℕ} (hk : k < (sorBytes v bs).length) : ∃ e, sorRead ((sorBytes v bs).take k) = .error e := by
  cases hb : sorBlocks ((sorBytes v bs).take k) with
  | error e =>
    refine ⟨e, ?_⟩
    unfold sorRead
    rw [hb]
    rfl
  | ok ps =>
    exfalso
    unfold sorBlocks at hb
    cases hm : sorMap ((sorBytes v bs).take k) with
    | error e => rw [hm] at hb; cases hb
    | ok es =>
      rw [hm] at hb
      have h1 := sorMap_append hm ((sorBytes v bs).drop k)
      rw [List.take_append_drop, sorMap_eq h] at h1
      cases h1
      have h2 := sorPlaces_sum _ 0 (Nat.zero_le _) hb
      rw [sizes_sum, List.length_take] at h2
      have : ((mapBlock v bs :: bs).flatMap SorBlock.bytes).length = (sorBytes v bs).length := rfl
      omega

/-- Five blocks in another order than usual, with one more. -/
def exSor : List SorBlock :=
  [⟨ptsName, 200, pointBytes [300, 100, 700] 1000 [9]⟩, ⟨genName, 200, [65, 0]⟩, ⟨[75, 101, 121], 100, [1, 2, 3]⟩, ⟨supName, 200, [66, 0, 67, 0]⟩,
    ⟨fxdName, 200, fixedBytes 1700000000 50000 3 146800 [109, 116] [14, 61] (List.replicate 12 0) (List.replicate 8 1) [0, 0, 1, 0] []⟩, ⟨sumName, 200, [1, 1]⟩]

theorem exSor_writable : Writable 200 exSor where
  some := by decide
  few := by decide
  version' := by decide
  versions := by decide +kernel
  sizes := by decide +kernel
  mapSize := by decide +kernel
  names := by decide +kernel
  distinct := by decide +kernel

example : ∃ t, sorRead (sorBytes 200 exSor) = .ok t ∧ t.stamp = 1700000000 ∧ Display [300, 100, 700] 1000 t.samples ∧
    t.distance.values = progression 0 (((50000 : ℕ) : ℚ) / 100000000 * (299792458 / 1000000000) / ((146800 : ℕ) / 100000) * 1000) 3 :=
  C108_trace exSor_writable (raw := [300, 100, 700]) (vf := 200) (vd := 200) (rest' := [9]) (unit := [109, 116]) (wave := [14, 61]) (gap := List.replicate 12 0) (gap' := List.replicate 8 1)
    (range := [0, 0, 1, 0]) (rest := []) (by simp [exSor]) (by simp [exSor]) ⟨_, by simp [exSor]; right; left; rfl, rfl⟩ ⟨_, by simp [exSor]; right; right; right; left; rfl, rfl⟩
    ⟨_, by simp [exSor]; right; right; right; right; right; rfl, rfl⟩ (by decide) (by decide) (by decide) (by decide) (by decide) (by decide) rfl rfl rfl rfl rfl (by decide) (by decide)
    (by decide) (by decide)

example : (sorRead (sorBytes 200 exSor)).map SorTrace.samples = .ok [2 / 5, 3 / 5, 0] ∧
    (sorRead ((sorBytes 200 exSor).take 150)).map SorTrace.samples = .error .invalidFileFormat ∧ 150 < (sorBytes 200 exSor).length := by
  refine ⟨?_, ?_, ?_⟩ <;> decide +kernel

end Verif
