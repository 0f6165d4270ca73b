import Verif.Proof.FourierPad
/-! # Lemmas: the data of a transform and back -/
namespace Verif
open Spec

theorem scale_shiftAll (a : Nd ℂ) (s : ℂ) (axes : List ℕ) : (a.scale s).shiftAll axes = (a.shiftAll axes).scale s := by
  have h1 : ((a.scale s).shiftAll axes).shape = ((a.shiftAll axes).scale s).shape := by
    rw [shiftAll_shape]
    show a.shape = (a.shiftAll axes).shape
    rw [shiftAll_shape]
  have h2 : ((a.scale s).shiftAll axes).get = ((a.shiftAll axes).scale s).get := by
    funext i
    show _ = (a.shiftAll axes).get i * s
    rw [shiftAll_get, shiftAll_get]
    rfl
  cases h : (a.scale s).shiftAll axes
  cases h' : (a.shiftAll axes).scale s
  rw [h, h'] at h1 h2
  simp only at h1 h2
  rw [h1, h2]

theorem scale_scale {a : Nd ℂ} {s : ℂ} (hs : s ≠ 0) : (a.scale s).scale (1 / s) = a := by
  unfold Nd.scale
  simp only
  have : (fun i => a.get i * s * (1 / s)) = a.get := by
    funext i
    rw [mul_assoc, mul_one_div_cancel hs, mul_one]
  rw [this]

theorem ifftn_agree {a b : Nd ℂ} (h : Agree a b) (axes : List ℕ) : Agree (a.ifftn axes) (b.ifftn axes) :=
  foldr_agree (f := fun ax (a : Nd ℂ) => a.ifft ax) (fun x _ _ h => ifft_agree h x) axes h

theorem irfftn_agree {a b : Nd ℂ} (h : Agree a b) (n : ℕ) (axes : List ℕ) : Agree (a.irfftn n axes) (b.irfftn n axes) := by
  unfold Nd.irfftn
  exact irfft_agree (foldl_agree (f := fun (a : Nd ℂ) ax => a.ifft ax) (fun x _ _ h => ifft_agree h x) _ h) _ _

/-- Transform and inverse, neither with a real axis. -/
theorem round_complex {a : Nd ℂ} {axes axes' : List ℕ} {s : ℚ} (hs : s ≠ 0) (hd : axes.Nodup) (hlt : ∀ ax ∈ axes, ax < a.shape.length)
    (hp : axes'.Perm axes) {sizes : List ℕ} (hsz : sizes.length = axes'.length) :
    ∃ b, idftData (((a.fftn axes).scale (s : ℚ)).shiftAll axes) none axes' sizes s = .ok b ∧ Agree b a := by
  have hs' : ((s : ℚ) : ℂ) ≠ 0 := by exact_mod_cast hs
  refine ⟨_, by unfold idftData; rw [if_neg (by rw [hsz]; simp)], ?_⟩
  rw [scale_shiftAll, scale_scale hs', unshiftAll_perm hp, ifftn_perm hp]
  exact (ifftn_agree (unshiftAll_shiftAll hd) _).trans (ifftn_fftn hd hlt)

/-- Transform and inverse, the last axis being a real one. -/
theorem round_real {a : Nd ℂ} (ha : RealData a) {axes axes' : List ℕ} {last : ℕ} {s : ℚ} (hs : s ≠ 0) (hd : (axes ++ [last]).Nodup)
    (hlt : ∀ ax ∈ axes ++ [last], ax < a.shape.length) (hp : axes'.Perm axes) {sizes : List ℕ} (hsz : sizes.length = (axes' ++ [last]).length)
    (hlast : sizes.getLastD 0 = a.shape.getD last 0) (r : String) :
    ∃ b, idftData (((a.rfftn (axes ++ [last])).scale (s : ℚ)).shiftAll (axes ++ [last]).dropLast) (some r) (axes' ++ [last]) sizes s = .ok b ∧ Agree b a := by
  have hs' : ((s : ℚ) : ℂ) ≠ 0 := by exact_mod_cast hs
  refine ⟨_, by unfold idftData; rw [if_neg (by rw [hsz]; simp)], ?_⟩
  rw [scale_shiftAll, scale_scale hs', List.dropLast_concat, List.dropLast_concat, unshiftAll_perm hp, hlast]
  exact (irfftn_agree (unshiftAll_shiftAll (List.nodup_append.1 hd).1) _ _).trans (irfftn_rfftn ha hp hd hlt)

end Verif
