import Verif.Proof.SelectTotal
import Verif.Props.Patch
/-! # C17: intervals and slices can always be selected -/
namespace Verif
open Spec

/-- **C17.** Selecting intervals of labels or slices of samples along dimensions, at most one per dimension, by monotonic coordinates never fails, whatever
the limits are, if coordinates of floats are evenly sampled; the result holds, along every dimension, exactly the samples asked for. -/
theorem C17_select_succeeds {α} (argsort : List ℚ → List ℕ) (ha : IsArgsort argsort) (p : PatchM α) (hm : Regular p.cm)
    (hd : p.cm.dims ≠ []) (hsh : p.cm.shape = p.data.shape) (hf : EvenFloats p.cm) (kw : Dict CQuery) (h1 : ∀ r ∈ kw, IntervalOrSlice r.2)
    (h2 : ∀ r ∈ kw, Askable p.cm r.1) (hone : OnePerDim p.cm kw) :
    ∃ q red, p.select argsort kw = .ok q ∧ Selected p q kw red ∧ Regular q.cm ∧ q.cm.shape = q.data.shape := by
  have hn : ∀ p ∈ kw, NonNegSamples p.2 := by
    intro p hp
    have := h1 p hp
    revert this
    cases p.2 <;> simp [IntervalOrSlice, NonNegSamples]
  obtain ⟨q, hq⟩ := PatchM.select_total ha hm hd hsh hf h1 h2 hone
  have h := hq
  unfold PatchM.select at h
  split_ifs at h
  obtain ⟨r, hr, hnew⟩ := bind_split h
  have hg := hr
  unfold CM.select at hg
  rw [groups_single h2 hone, List.foldlM_cons] at hg
  obtain ⟨s, hs, he⟩ := bind_split hg
  cases he
  obtain ⟨red, h3, h4, h5⟩ := group_spec ha hm hd hsh hn hone hs
  unfold PatchM.new at hnew
  rw [if_pos h5] at hnew
  cases hnew
  exact ⟨_, red, hq, h3, h4, h5⟩

theorem exCM_evenFloats : EvenFloats exCM := by
  intro name ds c h
  have := Dict.mem_of_get? h
  simp only [exCM, List.mem_cons, Prod.mk.injEq, List.not_mem_nil, or_false] at this
  rcases this with ⟨_, _, h⟩ | ⟨_, _, h⟩ | ⟨_, _, h⟩ | ⟨_, _, h⟩ <;> cases h

example : ∃ q red, exPatch.select stableArgsort [("depth", .between (some 4) none)] = .ok q ∧
    Selected exPatch q [("depth", .between (some 4) none)] red ∧ Regular q.cm ∧ q.cm.shape = q.data.shape := by
  refine C17_select_succeeds stableArgsort stableArgsort_spec exPatch exCM_regular (by decide) (by decide +kernel) exCM_evenFloats _ ?_ ?_ ?_
  · simp [IntervalOrSlice]
  · simp only [List.mem_singleton, forall_eq]
    exact ⟨"distance", .int, _, rfl, Or.inr ⟨_, rfl⟩⟩
  · exact List.pairwise_singleton _ _

/-- Both dimensions at once, with limits between labels and a slice that reverses. -/
example : (exPatch.select stableArgsort [("distance", .slice (.slice ⟨none, none, some (-2)⟩))]).map (fun q => (q.data.shape, q.data.get [1, 0])) =
    .ok ([2, 2], 13) := by decide +kernel

/-- A patch whose float labels drift a little, with one far away at the end. -/
def exNearly : PatchM ℕ := ⟨⟨["x"], [("x", ["x"], .one .float (.mono (driftData ++ [2000000])))]⟩, [63], fun i => i.getD 0 0⟩

/-- **C17 violated** (floats which are not evenly sampled): the patch can be built and all of its samples selected, but selecting the samples below
1500000 raises an AssertionError, because what remains is nearly even (see `C14_raises_violated`). -/
theorem C17_drift_violated : exNearly.cm.shape = exNearly.data.shape ∧ strictInc (driftData ++ [2000000]) = true ∧
    (exNearly.select stableArgsort [("x", .between none (some 3000000))]).map (fun q => q.data.shape) = .ok [63] ∧
    (exNearly.select stableArgsort [("x", .between none (some 1500000))]).map (fun q => q.data.shape) = .error .assertionError := by
  refine ⟨?_, ?_, ?_, ?_⟩ <;> decide +kernel

end Verif
