import Verif.Proof.Instruments
import Verif.Spec.Export
/-! # Lemmas: RSF and WAV files -/
namespace Verif
open Spec
variable {α β : Type}

theorem flatMap_block {γ δ : Type} {f : γ → List δ} {n : ℕ} (hf : ∀ y, (f y).length = n) {i : ℕ} (hi : i < n) : ∀ (l : List γ) (k : ℕ) (x : γ), l[k]? = some x →
    (l.flatMap f)[i + n * k]? = (f x)[i]?
  | [], k, x, h => by simp at h
  | y :: l, 0, x, h => by
    simp only [List.getElem?_cons_zero, Option.some.injEq] at h
    subst h
    rw [List.flatMap_cons, List.getElem?_append_left (by rw [hf]; simpa using hi)]
    simp
  | y :: l, k + 1, x, h => by
    rw [List.getElem?_cons_succ] at h
    rw [List.flatMap_cons, List.getElem?_append_right (by rw [hf, Nat.mul_succ]; omega), hf, show i + n * (k + 1) - n = i + n * k by rw [Nat.mul_succ]; omega]
    exact flatMap_block hf hi l k x h

theorem fortran_get : ∀ (shape i : List ℕ), InRange shape i → (fortranIndices shape)[rsfOffset shape i]? = some i
  | [], i, h => by cases h; rfl
  | n :: ns, i, h => by
    cases h with
    | cons h1 h2 =>
      rename_i x is
      have ih := fortran_get ns is h2
      unfold fortranIndices rsfOffset
      rw [flatMap_block (n := n) (by simp) h1 _ _ _ ih, List.getElem?_map, List.getElem?_range h1]
      rfl

theorem fortran_length : ∀ shape : List ℕ, (fortranIndices shape).length = shape.prod
  | [] => rfl
  | n :: ns => by
    unfold fortranIndices
    rw [List.length_flatMap, List.prod_cons]
    simp [fortran_length ns, Nat.mul_comm]

theorem ownCoord_ok {p : PatchM α} {d : String} {ds : List String} {c : MCoord} (h : p.cm.ents.get? d = some (ds, c)) : p.ownCoord d = .ok c := by
  unfold PatchM.ownCoord
  rw [h]

theorem written_seconds (k : Kind) (x : ℚ) : Written k x (toSeconds k x) := by
  unfold Written toSeconds
  split_ifs <;> field_simp

theorem seconds_add (k : Kind) (x y : ℚ) (n : ℕ) : toSeconds k x + n * toSeconds k y = toSeconds k (x + n * y) := by
  unfold toSeconds
  split_ifs <;> ring

theorem foldl_put {show' : Option ℚ → String} {dim : String} {w : WavFile β} : ∀ (l : List (Option ℚ × List β)) (dir : Dict (WavFile β)),
    (l.map fun e => dim ++ "_" ++ show' e.1 ++ ".wav").Nodup →
    (∀ e ∈ l, Dict.get? (l.foldl (putChannel show' dim w) dir) (dim ++ "_" ++ show' e.1 ++ ".wav") = some ⟨w.rate, [e.2]⟩) ∧
    ∀ n, n ∉ l.map (fun e => dim ++ "_" ++ show' e.1 ++ ".wav") → Dict.get? (l.foldl (putChannel show' dim w) dir) n = Dict.get? dir n
  | [], dir, _ => ⟨by simp, fun _ _ => rfl⟩
  | e :: l, dir, h => by
    rw [List.map_cons, List.nodup_cons] at h
    obtain ⟨h1, h2⟩ := foldl_put l (putChannel show' dim w dir e) h.2
    rw [List.foldl_cons]
    refine ⟨fun x hx => ?_, fun n hn => ?_⟩
    · rcases List.mem_cons.1 hx with rfl | hx
      · rw [h2 _ h.1]
        unfold putChannel
        rw [Dict.get?_set, if_pos rfl]
      · exact h1 x hx
    · rw [List.map_cons, List.mem_cons, not_or] at hn
      rw [h2 n hn.2]
      unfold putChannel
      rw [Dict.get?_set, if_neg hn.1]

theorem traces_two {p : PatchM α} {o : String} (hsh : p.cm.shape = p.data.shape) (ho : p.cm.dims = [o, "time"] ∨ p.cm.dims = ["time", o]) (hne : o ≠ "time") :
    p.wavTraces = .ok (o, (List.range (lenDim p.cm o)).map (traceAt p)) := by
  unfold PatchM.wavTraces
  rcases ho with h | h
  · have hs : p.data.shape = [lenDim p.cm o, lenDim p.cm "time"] := by
      rw [← hsh]
      unfold CM.shape
      rw [h, if_neg (by simp)]
      rfl
    have ht : ∀ j, traceAt p j = (List.range (lenDim p.cm "time")).map fun t => p.data.get [j, t] := by
      intro j
      unfold traceAt
      rw [h]
      simp [hne]
    rw [if_neg (by rw [h]; simp)]
    rw [h, hs]
    show (if o = "time" then _ else Except.ok (o, _)) = Except.ok (o, (List.range (lenDim p.cm o)).map (traceAt p))
    rw [if_neg hne]
    rw [funext ht]
  · have hs : p.data.shape = [lenDim p.cm "time", lenDim p.cm o] := by
      rw [← hsh]
      unfold CM.shape
      rw [h, if_neg (by simp)]
      rfl
    have ht : ∀ j, traceAt p j = (List.range (lenDim p.cm "time")).map fun t => p.data.get [t, j] := by
      intro j
      unfold traceAt
      rw [h]
      simp [hne]
    rw [if_neg (by rw [h]; simp)]
    rw [h, hs, funext ht]
    rfl

end Verif
