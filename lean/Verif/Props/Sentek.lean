import Verif.Spec.Sentek
import Verif.Proof.XmlBinary
import Verif.Props.CoordArray
/-! # C107: Sentek files -/
namespace Verif
open Spec

/-! ### The instant in the name -/

theorem digit_plain : ∀ d : Fin 10, digit d ≠ '_' ∧ digit d ≠ '.' ∧ (digit d).isDigit = true ∧ (digit d).toNat - 48 = d.val ∧ digit d = Nat.digitChar d.val := by decide

theorem digits_plain {n} (f : Fin n → Fin 10) : ∀ c ∈ field f, c ≠ '_' ∧ c ≠ '.' := by
  intro c hc
  obtain ⟨d, _, rfl⟩ := List.mem_map.1 hc
  exact ⟨(digit_plain d).1, (digit_plain d).2.1⟩

theorem inName_plain (s : Stamp) : ∀ c ∈ s.inName, c ≠ '_' ∧ c ≠ '.' := by
  intro c hc
  unfold Stamp.inName at hc
  simp only [List.mem_append] at hc
  rcases hc with (((((h | h) | h) | h) | h) | h) | h <;> exact digits_plain _ c h

theorem stampPart_name {pre : List Char} (hp : '_' ∉ pre) (s : Stamp) : stampPart (pre ++ '_' :: s.inName ++ ['.', 'd', 'a', 's']) = .ok s.inName := by
  have h1 : (pre ++ '_' :: s.inName ++ ['.', 'd', 'a', 's']).dropWhile (· ≠ '_') = '_' :: (s.inName ++ ['.', 'd', 'a', 's']) := by
    rw [List.append_assoc, List.dropWhile_append_of_pos (by
      intro c hc
      have : c ≠ '_' := fun h => hp (h ▸ hc)
      simpa using this)]
    simp
  have h2 : (s.inName ++ ['.', 'd', 'a', 's']).takeWhile (· ≠ '_') = s.inName ++ ['.', 'd', 'a', 's'] := by
    rw [List.takeWhile_append_of_pos (by intro c hc; simpa using (inName_plain s c hc).1)]
    rfl
  have h3 : (s.inName ++ ['.', 'd', 'a', 's']).takeWhile (· ≠ '.') = s.inName := by
    rw [List.takeWhile_append_of_pos (by intro c hc; simpa using (inName_plain s c hc).2)]
    simp
  unfold stampPart
  rw [h1]
  simp only
  rw [h2, h3]

/-- The thousandths of a second in the name. -/
def Stamp.millis (s : Stamp) : ℕ := 10000 * (s.second 0).val + 1000 * (s.second 1).val + 100 * (s.milli 0).val + 10 * (s.milli 1).val + (s.milli 2).val

theorem readDigits_name (s : Stamp) : readDigits (field s.second ++ field s.milli) = some (Stamp.millis s) := by
  have h : field s.second ++ field s.milli = [digit (s.second 0), digit (s.second 1), digit (s.milli 0), digit (s.milli 1), digit (s.milli 2)] := by
    simp [field, List.ofFn_succ]
  rw [h]
  unfold readDigits
  simp only [List.all_cons, List.all_nil, (digit_plain _).2.2.1, Bool.and_true, if_true, List.foldl_cons, List.foldl_nil, (digit_plain _).2.2.2.1, Stamp.millis]
  congr 1
  ring

theorem toDigits_two : ∀ a b : Fin 10, Nat.toDigits 10 (10 * a.val + b.val) = if a = 0 then [digit b] else [digit a, digit b] := by decide +kernel

theorem secondText_name (s : Stamp) : secondText (Stamp.millis s) =
    (if s.second 0 = 0 then [digit (s.second 1)] else field s.second) ++ '.' :: field s.milli ++ ['0', '0', '0'] := by
  have a := (s.second 0).isLt
  have b := (s.second 1).isLt
  have c := (s.milli 0).isLt
  have d := (s.milli 1).isLt
  have e := (s.milli 2).isLt
  have h1 : Stamp.millis s / 1000 = 10 * (s.second 0).val + (s.second 1).val := by unfold Stamp.millis; omega
  have h2 : Stamp.millis s % 1000 / 100 = (s.milli 0).val := by unfold Stamp.millis; omega
  have h3 : Stamp.millis s % 1000 / 10 % 10 = (s.milli 1).val := by unfold Stamp.millis; omega
  have h4 : Stamp.millis s % 1000 % 10 = (s.milli 2).val := by unfold Stamp.millis; omega
  have hm : field s.milli = threeDigits (Stamp.millis s % 1000) := by
    unfold threeDigits
    rw [h2, h3, h4]
    simp [field, List.ofFn_succ, (digit_plain _).2.2.2.2]
  have hs : field s.second = [digit (s.second 0), digit (s.second 1)] := by simp [field, List.ofFn_succ]
  unfold secondText
  rw [h1, toDigits_two, hm, hs]

theorem field_length {n} (f : Fin n → Fin 10) : (field f).length = n := by simp [field]

theorem sentekIso_name {pre : List Char} (hp : '_' ∉ pre) (s : Stamp) : sentekIso (pre ++ '_' :: s.inName ++ ['.', 'd', 'a', 's']) =
    .ok (field s.year ++ '-' :: field s.month ++ '-' :: field s.day ++ 'T' :: field s.hour ++ ':' :: field s.minute ++ ':' ::
      ((if s.second 0 = 0 then [digit (s.second 1)] else field s.second) ++ '.' :: field s.milli ++ ['0', '0', '0'])) := by
  have f4 : ∀ f : Fin 4 → Fin 10, field f = [digit (f 0), digit (f 1), digit (f 2), digit (f 3)] := fun f => by simp [field, List.ofFn_succ]
  have f2 : ∀ f : Fin 2 → Fin 10, field f = [digit (f 0), digit (f 1)] := fun f => by simp [field, List.ofFn_succ]
  have h12 : s.inName.drop 12 = field s.second ++ field s.milli := by
    unfold Stamp.inName
    rw [f4, f2 s.month, f2 s.day, f2 s.hour, f2 s.minute]
    simp
  have a1 : s.inName.take 4 = field s.year := by
    unfold Stamp.inName
    rw [f4]; simp
  have a2 : (s.inName.drop 4).take 2 = field s.month := by
    unfold Stamp.inName
    rw [f4, f2 s.month]; simp
  have a3 : (s.inName.drop 6).take 2 = field s.day := by
    unfold Stamp.inName
    rw [f4, f2 s.month, f2 s.day]; simp
  have a4 : (s.inName.drop 8).take 2 = field s.hour := by
    unfold Stamp.inName
    rw [f4, f2 s.month, f2 s.day, f2 s.hour]; simp
  have a5 : (s.inName.drop 10).take 2 = field s.minute := by
    unfold Stamp.inName
    rw [f4, f2 s.month, f2 s.day, f2 s.hour, f2 s.minute]; simp
  unfold sentekIso
  rw [stampPart_name hp]
  simp only [Except.bind]
  rw [h12, readDigits_name]
  simp only
  rw [secondText_name, a1, a2, a3, a4, a5]

/-- **C107** (the instant, from ten seconds past the minute on). The text which is given to numpy is the instant in the name, for every prefix and every instant with at least ten seconds.
Missing are the first ten seconds of every minute; see `C107_seconds_violated`. -/
theorem C107_name_partial {pre : List Char} (hp : '_' ∉ pre) (s : Stamp) (hs : s.second 0 ≠ 0) :
    ∃ text, sentekIso (pre ++ '_' :: s.inName ++ ['.', 'd', 'a', 's']) = .ok text ∧ s.IsIso text ∧ Standard text := by
  refine ⟨_, sentekIso_name hp s, ?_, ?_⟩
  · rw [if_neg hs]
    unfold Stamp.IsIso IsoForm
    simp
  · rw [if_neg hs]
    refine ⟨field s.year, field s.month, field s.day, field s.hour, field s.minute, field s.second, field s.milli ++ ['0', '0', '0'], field_length _, field_length _,
      field_length _, field_length _, field_length _, field_length _, by simp [field_length], ?_⟩
    unfold IsoForm
    simp

/-- **C107 violated** (the first ten seconds of every minute): the seconds are written with one digit, and numpy refuses the text. Such files can be neither read nor scanned. -/
theorem C107_seconds_violated {pre : List Char} (hp : '_' ∉ pre) (s : Stamp) (hs : s.second 0 = 0) :
    ∃ text, sentekIso (pre ++ '_' :: s.inName ++ ['.', 'd', 'a', 's']) = .ok text ∧ ¬ Standard text := by
  refine ⟨_, sentekIso_name hp s, ?_⟩
  rw [if_pos hs]
  rintro ⟨y, mo, d, h, mi, sec, f, h1, h2, h3, h4, h5, h6, h7, he⟩
  have := congrArg List.length he
  unfold IsoForm at this
  simp [field_length, h1, h2, h3, h4, h5, h6, h7] at this

/-- The instant of the name in the comment of the code, and the same with four seconds. -/
def exStamp (tens : Fin 10) : Stamp := ⟨![2, 0, 2, 3], ![0, 3], ![2, 8], ![1, 5], ![5, 6], ![tens, 2], ![1, 2, 4]⟩

example : sentekIso "DASDMSShot00_20230328155652124.das".toList = .ok "2023-03-28T15:56:52.124000".toList ∧
    "DASDMSShot00_20230328155652124.das".toList = "DASDMSShot00".toList ++ '_' :: (exStamp 5).inName ++ ['.', 'd', 'a', 's'] ∧ (exStamp 5).second 0 ≠ 0 := by
  refine ⟨?_, ?_, ?_⟩ <;> decide +kernel

example : sentekIso "DASDMSShot00_20230328155602124.das".toList = .ok "2023-03-28T15:56:2.124000".toList ∧
    "DASDMSShot00_20230328155602124.das".toList = "DASDMSShot00".toList ++ '_' :: (exStamp 0).inName ++ ['.', 'd', 'a', 's'] := by
  constructor <;> decide +kernel

/-! ### The numbers -/

theorem truncZ_int (z : ℤ) : truncZ (z : ℚ) = z := by
  unfold truncZ
  split_ifs <;> simp

theorem truncZ_nat (n : ℕ) : truncZ (n : ℚ) = n := by
  have := truncZ_int (n : ℤ)
  simpa using this

theorem truncZ_pred (n : ℕ) : truncZ ((n : ℚ) - 1) = (n : ℤ) - 1 := by
  have := truncZ_int ((n : ℤ) - 1)
  push_cast at this
  exact this

theorem wordAt_some {w : List ℚ} {i : ℕ} {x : ℚ} (h : w[i]? = some x) : wordAt w (i : ℤ) = .ok x := by
  unfold wordAt
  rw [Int.toNat_natCast, h]
  simp

theorem sentekDistance_eq {a b : ℚ} {n : ℕ} (h : a ≠ b) (hn : 1 ≤ n) :
    sentekDistance a b n = .ok (.range ⟨a, a + (b - a) / n * n, (b - a) / n, n⟩) := by
  have hn0 : (n : ℚ) ≠ 0 := by
    have : n ≠ 0 := by omega
    exact_mod_cast this
  have hs : (b - a) / n ≠ 0 := div_ne_zero (sub_ne_zero.2 (Ne.symm h)) hn0
  unfold sentekDistance
  rw [if_neg hn0]
  have := mkRange_canonical (start := a) (step := (b - a) / n) (n := n) hs hn
  have e : a + (b - a) / n * n = b := by field_simp; ring
  rw [e] at this
  rw [this, e]
  rfl

theorem sentekTime_eq {stamp t0 t1 : ℚ} {k : ℕ} {s : ℤ} (hk : 1 ≤ k) (hs : s ≠ 0) (h : nanos t1 - nanos t0 = k * s) :
    sentekTime stamp t0 t1 k = .ok (.range ⟨stamp + nanos t0, stamp + nanos t0 + s * k, s, k⟩) := by
  have hk0 : (k : ℚ) ≠ 0 := by
    have : k ≠ 0 := by omega
    exact_mod_cast this
  have hs0 : (s : ℚ) ≠ 0 := by exact_mod_cast hs
  unfold sentekTime
  rw [if_neg hk0]
  have e1 : (stamp + nanos t1 - (stamp + nanos t0)) / k = (s : ℚ) := by
    have : stamp + nanos t1 - (stamp + nanos t0) = k * s := by rw [← h]; ring
    rw [this]; field_simp
  have e2 : stamp + nanos t1 = stamp + nanos t0 + s * k := by
    have : nanos t1 = nanos t0 + k * s := by rw [← h]; ring
    rw [this]; ring
  rw [e1, truncZ_int, e2, mkRange_canonical hs0 hk]
  rfl

/-- **C107** (samples and labels). A file with its numbers where the reader looks for them is read: `n` channels by `k` measurements, in the order of the file measurement by measurement after the
first `k` numbers, with evenly spaced distances from the first one and evenly spaced times from the first one. Missing are files whose duration is no multiple of the number of
measurements (see `C107_truncated_violated`), and the spacing is not that of the file (`C107_spacing_violated`). -/
theorem C107_read_partial {w : List ℚ} {n k : ℕ} {d0 d1 t0 t1 : ℚ} {s : ℤ} (h : SentekLayout w n k d0 d1 t0 t1 s) (stamp : ℚ) :
    ∃ q, sentekRead w stamp = .ok q ∧ HoldsArray ⟨[n, k], fun i => w.getD (k + (i.getD 1 0 * n + i.getD 0 0)) 0⟩ ["distance", "time"]
      (fun d i => if d = "time" then stamp + nanos t0 + i * s else d0 + i * ((d1 - d0) / n)) q := by
  obtain ⟨hn, hk⟩ := h.some
  have hn0 : (n : ℚ) ≠ 0 := by
    have : n ≠ 0 := by omega
    exact_mod_cast this
  have hs0 : (s : ℚ) ≠ 0 := by exact_mod_cast h.forward
  have hd0 : (d1 - d0) / n ≠ 0 := div_ne_zero (sub_ne_zero.2 (Ne.symm h.spread)) hn0
  obtain ⟨cm, gs, q, h1, h2, _, h4, _⟩ := two_select (data := (⟨[n, k], fun i => w.getD (k + (i.getD 1 0 * n + i.getD 0 0)) 0⟩ : Nd ℚ)) stableArgsort_spec
    (ds := ["distance", "time"]) (Or.inr rfl) (asks_range .time (a := stamp + nanos t0) hs0 hk) (asks_range .float (a := d0) hd0 hn) rfl (none, none) (none, none)
  refine ⟨_, ?_, h4⟩
  have e1 : (n : ℤ) - 1 = ((n - 1 : ℕ) : ℤ) := by omega
  have e2 : (k : ℤ) - 1 = ((k - 1 : ℕ) : ℤ) := by omega
  have e3 : ((n - 1 : ℕ) : ℤ) + 1 = (n : ℤ) := by omega
  have e4 : (((k - 1 : ℕ) : ℤ) + 1).toNat = k := by omega
  have hdata : sentekData w k k n = .ok ⟨[n, k], fun i => w.getD (k + (i.getD 1 0 * n + i.getD 0 0)) 0⟩ := by
    unfold sentekData
    rw [if_pos]
    have := h.size
    rw [List.length_take, List.length_drop]
    omega
  unfold sentekRead
  rw [show wordAt w 0 = .ok (n : ℚ) from wordAt_some h.channels, show wordAt w 1 = .ok (k : ℚ) from wordAt_some h.count,
    show wordAt w 6 = .ok d0 from wordAt_some h.first]
  simp only [bind, Except.bind, truncZ_pred, truncZ_nat, e1, e2]
  rw [wordAt_some h.last]
  simp only
  rw [sentekDistance_eq h.spread hn]
  simp only
  rw [e3, wordAt_some h.begins]
  simp only
  rw [wordAt_some h.ends]
  simp only
  rw [sentekTime_eq hk h.forward h.lasts]
  simp only
  rw [h1]
  simp only
  rw [e4, Int.toNat_natCast, Int.toNat_natCast, hdata]
  simp only
  unfold PatchM.new
  rw [if_pos h2]

/-- Eight channels and ten measurements of 10 ns. -/
def exSentek : List ℚ := [8, 10, 0, 1, 0, 0, 5, 21, 0, 1 / 10000000] ++ (List.range 80).map fun i : ℕ => (i : ℚ)

theorem exSentek_layout : SentekLayout exSentek 8 10 5 21 0 (1 / 10000000) 10 := by
  refine ⟨?_, ?_, ?_, ?_, ?_, ?_, ?_, ?_, ?_, ?_, ?_⟩ <;> decide +kernel

example : (∃ q, sentekRead exSentek 7 = .ok q) ∧ (sentekRead exSentek 7).map (fun q => (q.data.shape, q.data.get [3, 2])) = .ok ([8, 10], 19) ∧
    (sentekRead exSentek 7).map (fun q => (label q "time" [3, 2], label q "distance" [3, 2])) = .ok (some (some 27), some (some 11)) :=
  ⟨(C107_read_partial exSentek_layout 7).imp fun _ h => h.1, by decide +kernel, by decide +kernel⟩

/-- Files which end before all the samples are refused. -/
example : (sentekRead (exSentek.take 89) 7).map (fun q => q.data.shape) = .error .valueError := by decide +kernel

/-- **C107 violated** (distances): the last distance of the file is never the label of the last channel, because the number of channels is taken for the number of steps. -/
theorem C107_spacing_violated {a b : ℚ} {n : ℕ} (h : a ≠ b) (hn : 1 ≤ n) : ∃ r, sentekDistance a b n = .ok (.range r) ∧ r.len = n ∧ b ∉ r.values := by
  refine ⟨_, sentekDistance_eq h hn, rfl, ?_⟩
  have hn0 : (n : ℚ) ≠ 0 := by
    have : n ≠ 0 := by omega
    exact_mod_cast this
  have hd : b - a ≠ 0 := sub_ne_zero.2 (Ne.symm h)
  rw [RangeCoord.Valid.values_eq (valid_canonical (div_ne_zero hd hn0) hn)]
  intro hb
  unfold progression at hb
  obtain ⟨i, hi, e⟩ := List.mem_map.1 hb
  have hi : i < n := List.mem_range.1 hi
  have e' : (i : ℚ) * (b - a) = n * (b - a) := by
    have e2 : a + (i : ℚ) * ((b - a) / n) = b := e
    have e3 : (i : ℚ) * ((b - a) / n) = b - a := by linarith
    field_simp at e3
    rw [e3]
  have : (i : ℚ) = n := mul_right_cancel₀ hd e'
  have : i = n := by exact_mod_cast this
  omega

example : (5 : ℚ) ≠ 21 ∧ (sentekDistance 5 21 8).map Coord.vals = .ok [5, 7, 9, 11, 13, 15, 17, 19] := by decide +kernel

/-- **C107 violated** (times): the step is cut down to nanoseconds. A second in 60000 measurements is 60003 steps of 16666 ns, and ten measurements in 19 ns are 19 steps of 1 ns; the number of labels is
not that of the samples, and the patch cannot be made. -/
theorem C107_truncated_violated : ((sentekTime 0 0 1 60000).map Coord.length) = .ok 60003 ∧
    ((sentekRead ([8, 10, 0, 1, 0, 0, 5, 21, 0, 19 / 1000000000] ++ (List.range 80).map fun i : ℕ => (i : ℚ)) 7).map fun q => q.data.shape) = .error .coordError := by
  constructor <;> decide +kernel

end Verif
