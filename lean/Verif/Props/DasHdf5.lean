import Verif.Proof.DasHdf5
import Verif.Props.Patch
/-!
# C101: DAS-HDF5 files
-/
namespace Verif
open Spec
variable {α : Type} {argsort : List ℚ → List ℕ}

/-- **C101.** The array of a file may be stored with channels first or with times first. If there are not as many channels as times, what is read is what selecting within the limits
leaves of the whole file: the array with its dimensions as they are stored, the channels with their places, the times with their traces. -/
theorem C101_read_partial (ha : IsArgsort argsort) {f : CfFile α} (h : CfLayout f) (hne : f.channel.length ≠ f.t.length) :
    ∃ w, HoldsCf f (cfDims f) w ∧ ∀ (time channel : Option ℚ × Option ℚ) (o : Option (PatchM α)), f.read argsort time channel = .ok o →
      ∃ gs q, gs.flatten.Perm [("time", CQuery.between time.1 time.2), ("channel", CQuery.between channel.1 channel.2)] ∧ SelectedBy w gs q ∧
        o = if q.data.shape.prod = 0 then none else some q :=
  cf_read ha h (by unfold cfDims; split_ifs <;> simp) (by rw [if_neg hne])

/-- Three channels and two times. -/
def exCf (timeFirst : Bool) : CfFile ℕ :=
  ⟨[1, 2, 3], [7, 8], [0, 1000], [5, 9, 6], [1, 1, 1], [4, 0, 5], ⟨if timeFirst then [2, 3] else [3, 2], fun i => i.getD 0 0 * 10 + i.getD 1 0⟩, timeFirst⟩

theorem exCf_layout (b : Bool) : CfLayout (exCf b) where
  some_sample := ⟨by show 1 ≤ 3; decide, by show 1 ≤ 2; decide⟩
  traces := rfl
  places := ⟨rfl, rfl, rfl⟩
  shape := by cases b <;> rfl
  storable := by
    have h1 : Storable [1, 2, 3] := Or.inr (Or.inl ⟨1, 1, 3, by decide, by decide +kernel⟩)
    have h2 : Storable [7, 8] := Or.inr (Or.inl ⟨7, 1, 2, by decide, by decide +kernel⟩)
    have h3 : Storable [0, 1000] := Or.inr (Or.inl ⟨0, 1000, 2, by decide, by decide +kernel⟩)
    have h4 : Storable [5, 9, 6] := Or.inr (Or.inr (Or.inl (by unfold StrictMono'; decide +kernel)))
    have h5 : Storable [1, 1, 1] := Or.inr (Or.inr (Or.inl (by unfold StrictMono'; decide +kernel)))
    have h6 : Storable [4, 0, 5] := Or.inr (Or.inr (Or.inl (by unfold StrictMono'; decide +kernel)))
    intro n d l hl
    have hmem := Dict.mem_of_get? hl
    simp only [cfLabels, exCf, List.mem_cons, List.not_mem_nil, or_false, Prod.mk.injEq] at hmem
    rcases hmem with ⟨_, _, rfl⟩ | ⟨_, _, rfl⟩ | ⟨_, _, rfl⟩ | ⟨_, _, rfl⟩ | ⟨_, _, rfl⟩ | ⟨_, _, rfl⟩ <;> assumption

example : (exCf true).channel.length ≠ (exCf true).t.length := by decide
example : (((exCf true).read stableArgsort (none, none) (some 2, none)).map fun o => o.map fun q => (q.data.get [1, 0], label q "x" [1, 0])) = .ok (some (11, some (some 9))) := by
  decide +kernel
example : (((exCf false).read stableArgsort (none, none) (some 2, none)).map fun o => o.map fun q => (q.data.get [1, 0], label q "x" [1, 0])) = .ok (some (20, some (some 6))) := by
  decide +kernel

/-- **C101 violated** (as many channels as times). Whatever the file says, the first dimension of its array is taken for the channels: every sample of an array stored with times
first is given the channel of its time and the time of its channel. -/
theorem C101_square_violated (ha : IsArgsort argsort) {f : CfFile α} (h : CfLayout f) (he : f.channel.length = f.t.length) (_ht : f.timeFirst = true) :
    ∃ w, HoldsCf f ["channel", "time"] w ∧ ∀ (time channel : Option ℚ × Option ℚ) (o : Option (PatchM α)), f.read argsort time channel = .ok o →
      ∃ gs q, gs.flatten.Perm [("time", CQuery.between time.1 time.2), ("channel", CQuery.between channel.1 channel.2)] ∧ SelectedBy w gs q ∧
        o = if q.data.shape.prod = 0 then none else some q :=
  cf_read ha h (Or.inl rfl) (by rw [if_pos he])

/-- Two channels and two times, times first. -/
def exAmbiguous : CfFile ℕ := ⟨[1, 2], [7, 8], [0, 1000], [5, 5], [1, 1], [0, 0], ⟨[2, 2], fun i => i.getD 0 0 * 10 + i.getD 1 0⟩, true⟩

example : CfLayout exAmbiguous where
  some_sample := by decide
  traces := rfl
  places := ⟨rfl, rfl, rfl⟩
  shape := rfl
  storable := by
    have h1 : Storable [1, 2] := Or.inr (Or.inl ⟨1, 1, 2, by decide, by decide +kernel⟩)
    have h2 : Storable [7, 8] := Or.inr (Or.inl ⟨7, 1, 2, by decide, by decide +kernel⟩)
    have h3 : Storable [0, 1000] := Or.inr (Or.inl ⟨0, 1000, 2, by decide, by decide +kernel⟩)
    have h4 : Storable [5, 5] := Or.inr (Or.inr (Or.inl (by unfold StrictMono'; decide +kernel)))
    have h5 : Storable [1, 1] := Or.inr (Or.inr (Or.inl (by unfold StrictMono'; decide +kernel)))
    have h6 : Storable [0, 0] := Or.inr (Or.inr (Or.inl (by unfold StrictMono'; decide +kernel)))
    intro n d l hl
    have hmem := Dict.mem_of_get? hl
    simp only [cfLabels, exAmbiguous, List.mem_cons, List.not_mem_nil, or_false, Prod.mk.injEq] at hmem
    rcases hmem with ⟨_, _, rfl⟩ | ⟨_, _, rfl⟩ | ⟨_, _, rfl⟩ | ⟨_, _, rfl⟩ | ⟨_, _, rfl⟩ | ⟨_, _, rfl⟩ <;> assumption

/-- The second sample of the first row is the second channel at the first time; it is read as the first channel at the second time. -/
theorem C101_square_read : ((exAmbiguous.read stableArgsort (none, none) (none, none)).map fun o => o.map fun q => (q.data.get [0, 1], label q "channel" [0, 1], label q "time" [0, 1])) =
    .ok (some (1, some (some 1), some (some 1000))) := by decide +kernel

end Verif
