import Verif.Model.Fourier
import Verif.Proof.Calculus
import Mathlib.Algebra.BigOperators.Field
/-! # Transforms of arrays and their inverses -/
namespace Verif
open Spec Complex

/-! ### Waves -/

theorem expi_add (x y : ℚ) : expi (x + y) = expi x * expi y := by
  unfold expi
  rw [← exp_add]
  congr 1
  push_cast
  ring

theorem expi_zero : expi 0 = 1 := by simp [expi]

theorem expi_int (n : ℤ) : expi n = 1 := by
  unfold expi
  rw [exp_eq_one_iff]
  exact ⟨-n, by push_cast; ring⟩

theorem expi_nat (n : ℕ) : expi n = 1 := by simpa using expi_int n

theorem expi_mul (k : ℕ) (x : ℚ) : expi (k * x) = expi x ^ k := by
  unfold expi
  rw [← exp_nat_mul]
  congr 1
  push_cast
  ring

theorem expi_ne_one {x : ℚ} (h0 : x ≠ 0) (h : |x| < 1) : expi x ≠ 1 := by
  unfold expi
  rw [Ne, exp_eq_one_iff]
  rintro ⟨n, hn⟩
  have h1 : (2 * Real.pi * I : ℂ) ≠ 0 := by simp [Real.pi_ne_zero]
  have h2 : ((-x : ℚ) : ℂ) * (2 * Real.pi * I) = (n : ℂ) * (2 * Real.pi * I) := by
    rw [← hn]; push_cast; ring
  have h3 := mul_right_cancel₀ h1 h2
  have h4 : -x = (n : ℚ) := by exact_mod_cast h3
  have h5 : |(n : ℚ)| < 1 := by rw [← h4, abs_neg]; exact h
  have h6 : |n| < 1 := by exact_mod_cast h5
  have h7 : n = 0 := by rwa [Int.abs_lt_one_iff] at h6
  rw [h7] at h4
  apply h0
  have : (0 : ℤ) = 0 := rfl
  simpa using h4

theorem star_expi (x : ℚ) : star (expi x) = expi (-x) := by
  unfold expi
  rw [show star (exp (-(2 * Real.pi * x) * I)) = (starRingEnd ℂ) (exp (-(2 * Real.pi * x) * I)) from rfl, ← exp_conj]
  congr 1
  simp [Complex.conj_ofNat]

theorem list_sum_range {M : Type} [AddCommMonoid M] (n : ℕ) (f : ℕ → M) : ((List.range n).map f).sum = ∑ j ∈ Finset.range n, f j := by
  induction n with
  | zero => simp
  | succ n ih => rw [List.range_succ, List.map_append, List.sum_append, ih, Finset.sum_range_succ]; simp

/-- Different waves are orthogonal. -/
theorem wave_sum {n : ℕ} {j m : ℕ} (hj : j < n) (hm : m < n) :
    ∑ k ∈ Finset.range n, expi ((j : ℚ) * k / n) * expi (-((k : ℚ) * m / n)) = if j = m then (n : ℂ) else 0 := by
  have hn : (n : ℚ) ≠ 0 := by have : n ≠ 0 := by omega
                              exact_mod_cast this
  have h1 : ∀ k ∈ Finset.range n, expi ((j : ℚ) * k / n) * expi (-((k : ℚ) * m / n)) = expi (((j : ℚ) - m) / n) ^ k := by
    intro k _
    rw [← expi_add, ← expi_mul]
    congr 1
    ring
  rw [Finset.sum_congr rfl h1]
  split_ifs with h
  · subst h
    simp [expi_zero]
  · have hx : expi (((j : ℚ) - m) / n) ≠ 1 := by
      apply expi_ne_one
      · rw [div_ne_zero_iff, sub_ne_zero]
        exact ⟨by exact_mod_cast h, hn⟩
      · have hn' : (0 : ℚ) < n := by have : 0 < n := by omega
                                     exact_mod_cast this
        rw [abs_div, abs_of_pos hn', div_lt_one hn', abs_lt]
        have a1 : (j : ℚ) < n := by exact_mod_cast hj
        have a2 : (m : ℚ) < n := by exact_mod_cast hm
        have a3 : (0 : ℚ) ≤ j := by positivity
        have a4 : (0 : ℚ) ≤ m := by positivity
        constructor <;> linarith
    rw [geom_sum_eq hx, ← expi_mul, mul_div_cancel₀ _ hn, show ((j : ℚ) - m) = (((j : ℤ) - (m : ℤ) : ℤ) : ℚ) by push_cast; rfl, expi_int]
    simp

/-! ### Arrays that agree -/

/-- Same shape, and same elements at the indices of that shape. -/
def Agree {α} (a b : Nd α) : Prop := a.shape = b.shape ∧ ∀ i, InRange a.shape i → a.get i = b.get i

theorem Agree.refl {α} (a : Nd α) : Agree a a := ⟨rfl, fun _ _ => rfl⟩
theorem Agree.trans {α} {a b c : Nd α} (h : Agree a b) (h' : Agree b c) : Agree a c :=
  ⟨h.1.trans h'.1, fun i hi => (h.2 i hi).trans (h'.2 i (h.1 ▸ hi))⟩

namespace Nd

theorem fft_shape (a : Nd ℂ) (ax : ℕ) : (a.fft ax).shape = a.shape := rfl
theorem ifft_shape (a : Nd ℂ) (ax : ℕ) : (a.ifft ax).shape = a.shape := rfl

theorem fft_get (a : Nd ℂ) (ax : ℕ) (i : List ℕ) : (a.fft ax).get i =
    ∑ j ∈ Finset.range (a.shape.getD ax 0), a.get (i.set ax j) * expi (j * (i.getD ax 0 : ℕ) / (a.shape.getD ax 0 : ℕ)) :=
  list_sum_range _ _

theorem ifft_get (a : Nd ℂ) (ax : ℕ) (i : List ℕ) : (a.ifft ax).get i =
    (∑ k ∈ Finset.range (a.shape.getD ax 0), a.get (i.set ax k) * expi (-(k * (i.getD ax 0 : ℕ) / (a.shape.getD ax 0 : ℕ)))) /
      (a.shape.getD ax 0 : ℕ) := by
  show _ / _ = _
  rw [list_sum_range]

theorem irfft_get (a : Nd ℂ) (n ax : ℕ) (i : List ℕ) : (a.irfft n ax).get i =
    (∑ k ∈ Finset.range n, a.hermitian ax n k i * expi (-(k * (i.getD ax 0 : ℕ) / n))) / n := by
  show _ / _ = _
  rw [list_sum_range]

end Nd

theorem fft_agree {a b : Nd ℂ} (h : Agree a b) (ax : ℕ) : Agree (a.fft ax) (b.fft ax) := by
  refine ⟨h.1, fun i hi => ?_⟩
  rw [Nd.fft_get, Nd.fft_get, ← h.1]
  refine Finset.sum_congr rfl fun j hj => ?_
  rw [h.2 _ (inRange_set hi (Finset.mem_range.1 hj))]

theorem ifft_agree {a b : Nd ℂ} (h : Agree a b) (ax : ℕ) : Agree (a.ifft ax) (b.ifft ax) := by
  refine ⟨h.1, fun i hi => ?_⟩
  rw [Nd.ifft_get, Nd.ifft_get, ← h.1]
  congr 1
  refine Finset.sum_congr rfl fun j hj => ?_
  rw [h.2 _ (inRange_set hi (Finset.mem_range.1 hj))]

theorem getD_set_self {i : List ℕ} {ax j : ℕ} (h : ax < i.length) : (i.set ax j).getD ax 0 = j := by
  rw [List.getD_eq_getElem?_getD, List.getElem?_set_self h]; rfl

theorem getD_set_ne {i : List ℕ} {ax bx j : ℕ} (h : ax ≠ bx) : (i.set ax j).getD bx 0 = i.getD bx 0 := by
  rw [List.getD_eq_getElem?_getD, List.getElem?_set_ne h, ← List.getD_eq_getElem?_getD]

/-- The inverse transform along one axis undoes the transform. -/
theorem ifft_fft {a : Nd ℂ} {ax : ℕ} (hax : ax < a.shape.length) : Agree ((a.fft ax).ifft ax) a := by
  refine ⟨rfl, fun i hi => ?_⟩
  have hi' : InRange a.shape i := hi
  have hil : ax < i.length := by rw [inRange_length hi']; exact hax
  have him : i.getD ax 0 < a.shape.getD ax 0 := (inRange_iff.1 hi').2 ax hax
  set n := a.shape.getD ax 0 with hn
  have hn0 : (n : ℂ) ≠ 0 := by have : n ≠ 0 := by omega
                               exact_mod_cast this
  rw [Nd.ifft_get]
  show (∑ k ∈ Finset.range n, (a.fft ax).get (i.set ax k) * expi (-(k * (i.getD ax 0 : ℕ) / n))) / n = a.get i
  have : ∀ k ∈ Finset.range n, (a.fft ax).get (i.set ax k) * expi (-(k * (i.getD ax 0 : ℕ) / n)) =
      ∑ j ∈ Finset.range n, a.get (i.set ax j) * (expi (j * k / n) * expi (-(k * (i.getD ax 0 : ℕ) / n))) := by
    intro k _
    rw [Nd.fft_get, Finset.sum_mul]
    refine Finset.sum_congr rfl fun j _ => ?_
    rw [List.set_set, getD_set_self hil]
    ring
  rw [Finset.sum_congr rfl this, Finset.sum_comm]
  have : ∀ j ∈ Finset.range n, ∑ k ∈ Finset.range n, a.get (i.set ax j) * (expi (j * k / n) * expi (-(k * (i.getD ax 0 : ℕ) / n))) =
      if j = i.getD ax 0 then a.get (i.set ax j) * n else 0 := by
    intro j hj
    rw [← Finset.mul_sum, wave_sum (Finset.mem_range.1 hj) him]
    split_ifs <;> simp
  rw [Finset.sum_congr rfl this, Finset.sum_ite_eq' (Finset.range n), if_pos (Finset.mem_range.2 him)]
  rw [mul_div_cancel_right₀ _ hn0]
  congr 1
  rw [List.getD_eq_getElem?_getD, List.getElem?_eq_getElem hil]
  exact List.set_getElem_self hil

/-- Transforms along different axes can be exchanged. -/
theorem ifft_fft_comm (a : Nd ℂ) {ax bx : ℕ} (h : ax ≠ bx) : (a.fft ax).ifft bx = (a.ifft bx).fft ax := by
  have hg : ((a.fft ax).ifft bx).get = ((a.ifft bx).fft ax).get := by
    funext i
    rw [Nd.ifft_get, Nd.fft_get]
    show (∑ k ∈ Finset.range (a.shape.getD bx 0), (a.fft ax).get (i.set bx k) * _) / _ =
      ∑ j ∈ Finset.range (a.shape.getD ax 0), (a.ifft bx).get (i.set ax j) * _
    simp only [Nd.ifft_get, Nd.fft_get, Finset.sum_mul, Finset.sum_div, div_mul_eq_mul_div]
    rw [Finset.sum_comm]
    refine Finset.sum_congr rfl fun j _ => Finset.sum_congr rfl fun k _ => ?_
    rw [getD_set_ne h, getD_set_ne (Ne.symm h), List.set_comm _ _ (Ne.symm h)]
    rw [Nd.ifft_shape, Nd.fft_shape]
    ring
  show Nd.mk _ _ = Nd.mk _ _
  exact congrArg _ hg

theorem ifft_ifft_comm (a : Nd ℂ) {ax bx : ℕ} (h : ax ≠ bx) : (a.ifft ax).ifft bx = (a.ifft bx).ifft ax := by
  have hg : ((a.ifft ax).ifft bx).get = ((a.ifft bx).ifft ax).get := by
    funext i
    rw [Nd.ifft_get, Nd.ifft_get]
    show (∑ k ∈ Finset.range (a.shape.getD bx 0), (a.ifft ax).get (i.set bx k) * _) / _ =
      (∑ j ∈ Finset.range (a.shape.getD ax 0), (a.ifft bx).get (i.set ax j) * _) / _
    simp only [Nd.ifft_get, Finset.sum_mul, Finset.sum_div, div_mul_eq_mul_div]
    rw [Finset.sum_comm]
    refine Finset.sum_congr rfl fun j _ => Finset.sum_congr rfl fun k _ => ?_
    rw [getD_set_ne h, getD_set_ne (Ne.symm h), List.set_comm _ _ (Ne.symm h)]
    rw [Nd.ifft_shape, Nd.ifft_shape]
    ring
  show Nd.mk _ _ = Nd.mk _ _
  exact congrArg _ hg

/-! ### Real data -/

theorem hermitian_agree {a b : Nd ℂ} (h : Agree a b) {ax n k : ℕ} (hk : k < n) {i : List ℕ} (hi : InRange (a.shape.set ax n) i) :
    a.hermitian ax n k i = b.hermitian ax n k i := by
  have key : ∀ x < a.shape.getD ax 0, a.get (i.set ax x) = b.get (i.set ax x) := by
    intro x hx
    apply h.2
    rw [inRange_iff] at hi ⊢
    rw [List.length_set] at hi
    refine ⟨by rw [List.length_set]; exact hi.1, fun y hy => ?_⟩
    by_cases hxy : ax = y
    · subst hxy
      rw [getD_set_self (by rw [hi.1]; exact hy)]
      exact hx
    · rw [getD_set_ne hxy]
      have := hi.2 y hy
      rwa [getD_set_ne hxy] at this
  unfold Nd.hermitian
  rw [← h.1]
  split_ifs with h1 h2 h3
  · rfl
  · rw [key k (by push Not at h1; omega)]
  · rw [key k (by push Not at h1; omega)]
  · rw [key (n - k) (by push Not at h1; omega)]

theorem irfft_agree {a b : Nd ℂ} (h : Agree a b) (n ax : ℕ) : Agree (a.irfft n ax) (b.irfft n ax) := by
  refine ⟨by show a.shape.set ax n = b.shape.set ax n; rw [h.1], fun i hi => ?_⟩
  rw [Nd.irfft_get, Nd.irfft_get]
  congr 1
  refine Finset.sum_congr rfl fun k hk => ?_
  rw [hermitian_agree h (Finset.mem_range.1 hk) hi]

/-- All elements are real numbers. -/
def RealData (a : Nd ℂ) : Prop := ∀ i, InRange a.shape i → (a.get i).im = 0

/-- The inverse real transform undoes the real transform, if it is told the length. -/
theorem irfft_rfft {a : Nd ℂ} (ha : RealData a) {ax : ℕ} (hax : ax < a.shape.length) :
    Agree ((a.rfft ax).irfft (a.shape.getD ax 0) ax) a := by
  set n := a.shape.getD ax 0 with hn
  have hsh : ((a.rfft ax).irfft n ax).shape = a.shape := by
    show (a.shape.set ax (n / 2 + 1)).set ax n = a.shape
    rw [List.set_set, hn, List.getD_eq_getElem?_getD, List.getElem?_eq_getElem hax]
    exact List.set_getElem_self hax
  refine ⟨hsh, fun i hi => ?_⟩
  rw [hsh] at hi
  have hil : ax < i.length := by rw [inRange_length hi]; exact hax
  have him : i.getD ax 0 < n := (inRange_iff.1 hi).2 ax hax
  rw [← (ifft_fft hax).2 i hi, Nd.ifft_get, Nd.irfft_get]
  show _ = (∑ k ∈ Finset.range n, (a.fft ax).get (i.set ax k) * expi (-(k * (i.getD ax 0 : ℕ) / n))) / n
  congr 1
  refine Finset.sum_congr rfl fun k hk => ?_
  rw [Finset.mem_range] at hk
  congr 1
  have hconj : ∀ x ≤ n, star ((a.fft ax).get (i.set ax (n - x))) = (a.fft ax).get (i.set ax x) := by
    intro x hx
    rw [Nd.fft_get, Nd.fft_get, ← hn, star_sum]
    refine Finset.sum_congr rfl fun j hj => ?_
    rw [List.set_set, List.set_set, getD_set_self hil, getD_set_self hil, star_mul', star_expi]
    have hre : star (a.get (i.set ax j)) = a.get (i.set ax j) := by
      apply Complex.conj_eq_iff_im.2
      exact ha _ (inRange_set hi (Finset.mem_range.1 hj))
    rw [hre]
    congr 1
    have hn0 : (n : ℚ) ≠ 0 := by have : n ≠ 0 := by omega
                                 exact_mod_cast this
    have : (-((j : ℚ) * (n - x : ℕ) / n)) = (j : ℚ) * x / n + (-(j : ℤ) : ℤ) := by
      rw [Nat.cast_sub hx]; push_cast; field_simp; ring
    rw [this, expi_add, expi_int, mul_one]
  have hlen : (a.rfft ax).shape.getD ax 0 = n / 2 + 1 := by
    show (a.shape.set ax (n / 2 + 1)).getD ax 0 = _
    exact getD_set_self hax
  unfold Nd.hermitian
  rw [hlen, if_neg (by omega)]
  show (if k = 0 ∨ 2 * k = n then (((a.fft ax).get (i.set ax k)).re : ℂ) else if 2 * k < n then (a.fft ax).get (i.set ax k)
    else star ((a.fft ax).get (i.set ax (n - k)))) = _
  split_ifs with h1 h2
  · apply Complex.conj_eq_iff_re.1
    have := hconj k hk.le
    rcases h1 with rfl | h1
    · rw [Nat.sub_zero] at this
      have e : (a.fft ax).get (i.set ax n) = (a.fft ax).get (i.set ax 0) := by
        rw [Nd.fft_get, Nd.fft_get, ← hn]
        refine Finset.sum_congr rfl fun j hj => ?_
        rw [List.set_set, List.set_set, getD_set_self hil, getD_set_self hil]
        congr 1
        have hn0 : (n : ℚ) ≠ 0 := by have : n ≠ 0 := by omega
                                     exact_mod_cast this
        rw [mul_div_cancel_right₀ _ hn0, expi_nat]
        simp [expi_zero]
      rw [e] at this
      exact this
    · rw [show n - k = k by omega] at this
      exact this
  · rfl
  · exact hconj k hk.le

/-! ### Several axes -/

theorem foldr_agree {β} {f : β → Nd ℂ → Nd ℂ} (hf : ∀ x a b, Agree a b → Agree (f x a) (f x b)) :
    ∀ (l : List β) {a b : Nd ℂ}, Agree a b → Agree (l.foldr f a) (l.foldr f b)
  | [], _, _, h => h
  | x :: l, _, _, h => hf x _ _ (foldr_agree hf l h)

theorem foldl_agree {β} {f : Nd ℂ → β → Nd ℂ} (hf : ∀ x a b, Agree a b → Agree (f a x) (f b x)) :
    ∀ (l : List β) {a b : Nd ℂ}, Agree a b → Agree (l.foldl f a) (l.foldl f b)
  | [], _, _, h => h
  | x :: l, _, _, h => foldl_agree hf l (hf x _ _ h)

theorem foldr_perm {β α} {f : β → α → α} (hf : ∀ x y a, x ≠ y → f x (f y a) = f y (f x a)) {l l' : List β} (h : l.Perm l') (a : α) :
    l.foldr f a = l'.foldr f a := by
  induction h with
  | nil => rfl
  | cons x _ ih => rw [List.foldr_cons, List.foldr_cons, ih]
  | swap x y l =>
    simp only [List.foldr_cons]
    by_cases hxy : x = y
    · rw [hxy]
    · exact hf _ _ _ (Ne.symm hxy)
  | trans _ _ ih1 ih2 => rw [ih1, ih2]

theorem fftn_shape (a : Nd ℂ) : ∀ axes : List ℕ, (a.fftn axes).shape = a.shape
  | [] => rfl
  | _ :: axes => fftn_shape a axes

theorem ifftn_shape (a : Nd ℂ) : ∀ axes : List ℕ, (a.ifftn axes).shape = a.shape
  | [] => rfl
  | _ :: axes => ifftn_shape a axes

theorem ifftn_perm {axes axes' : List ℕ} (h : axes.Perm axes') (a : Nd ℂ) : a.ifftn axes = a.ifftn axes' :=
  foldr_perm (f := fun ax (a : Nd ℂ) => a.ifft ax) (fun _ _ a hne => ifft_ifft_comm a (Ne.symm hne)) h a

theorem ifftn_fft_comm {ax : ℕ} : ∀ {axes : List ℕ}, ax ∉ axes → ∀ a : Nd ℂ, (a.fft ax).ifftn axes = (a.ifftn axes).fft ax
  | [], _, _ => rfl
  | bx :: axes, h, a => by
    rw [List.mem_cons, not_or] at h
    show ((a.fft ax).ifftn axes).ifft bx = ((a.ifftn axes).ifft bx).fft ax
    rw [ifftn_fft_comm h.2, ifft_fft_comm _ h.1]

/-- The inverse transform undoes the transform along several axes. -/
theorem ifftn_fftn {a : Nd ℂ} : ∀ {axes : List ℕ}, axes.Nodup → (∀ ax ∈ axes, ax < a.shape.length) → Agree ((a.fftn axes).ifftn axes) a
  | [], _, _ => Agree.refl a
  | ax :: axes, hd, h => by
    rw [List.nodup_cons] at hd
    show Agree ((((a.fftn axes).fft ax).ifftn axes).ifft ax) a
    rw [ifftn_fft_comm hd.1]
    refine (ifft_fft ?_).trans (ifftn_fftn hd.2 fun x hx => h x (by simp [hx]))
    rw [ifftn_shape, fftn_shape]
    exact h ax (by simp)

theorem foldl_ifft_eq (a : Nd ℂ) : ∀ axes : List ℕ, axes.foldl (fun a ax => a.ifft ax) a = a.ifftn axes.reverse
  | axes => by unfold Nd.ifftn; rw [List.foldr_reverse]

/-- The inverse of a transform whose last axis is real. -/
theorem irfftn_rfftn {a : Nd ℂ} (ha : RealData a) {axes axes' : List ℕ} {last : ℕ} (hp : axes'.Perm axes) (hd : (axes ++ [last]).Nodup)
    (h : ∀ ax ∈ axes ++ [last], ax < a.shape.length) :
    Agree ((a.rfftn (axes ++ [last])).irfftn (a.shape.getD last 0) (axes' ++ [last])) a := by
  unfold Nd.rfftn Nd.irfftn
  rw [List.getLastD_concat, List.getLastD_concat, List.dropLast_concat, List.dropLast_concat, foldl_ifft_eq,
    ifftn_perm ((List.reverse_perm _).trans hp)]
  refine (irfft_agree (ifftn_fftn (List.nodup_append.1 hd).1 ?_) _ _).trans (irfft_rfft ha (h last (by simp)))
  intro ax hax
  show ax < (a.shape.set _ _).length
  rw [List.length_set]
  exact h ax (by simp [hax])

/-! ### Shifts -/

theorem roll_agree {a b : Nd ℂ} (h : Agree a b) (v : ℤ) (ax : ℕ) : Agree (a.roll v ax) (b.roll v ax) := by
  refine ⟨h.1, fun i hi => ?_⟩
  have hi' : InRange a.shape i := hi
  show a.get (i.set ax (((i.getD ax 0 : ℤ) - v) % (a.shape.getD ax 0 : ℤ)).toNat) =
    b.get (i.set ax (((i.getD ax 0 : ℤ) - v) % (b.shape.getD ax 0 : ℤ)).toNat)
  rw [← h.1]
  by_cases hax : ax < a.shape.length
  · have hpos : (0 : ℤ) < a.shape.getD ax 0 := by
      have := (inRange_iff.1 hi').2 ax hax
      omega
    apply h.2
    apply inRange_set hi'
    have h1 := Int.emod_lt_of_pos ((i.getD ax 0 : ℤ) - v) hpos
    have h2 := Int.emod_nonneg ((i.getD ax 0 : ℤ) - v) hpos.ne'
    omega
  · rw [List.set_eq_of_length_le (by rw [inRange_length hi']; omega)]
    exact h.2 i hi'

theorem roll_comm {α} (a : Nd α) (v w : ℤ) {ax bx : ℕ} (h : ax ≠ bx) : (a.roll v ax).roll w bx = (a.roll w bx).roll v ax := by
  unfold Nd.roll Nd.gather
  simp only [Nd.mk.injEq, true_and]
  funext i
  rw [getD_set_ne h, getD_set_ne (Ne.symm h), List.set_comm _ _ h]

theorem unroll_roll {α} (a : Nd α) (v : ℤ) {ax : ℕ} {i : List ℕ} (hi : InRange a.shape i) : ((a.roll v ax).roll (-v) ax).get i = a.get i := by
  by_cases hax : ax < a.shape.length
  · have hil : ax < i.length := by rw [inRange_length hi]; exact hax
    have him : i.getD ax 0 < a.shape.getD ax 0 := (inRange_iff.1 hi).2 ax hax
    unfold Nd.roll Nd.gather
    simp only
    rw [List.set_set, getD_set_self hil]
    set n := (a.shape.getD ax 0 : ℤ) with hn
    have hpos : 0 < n := by omega
    have h2 := Int.emod_nonneg ((i.getD ax 0 : ℤ) - -v) hpos.ne'
    rw [Int.toNat_of_nonneg h2]
    have : (((i.getD ax 0 : ℤ) - -v) % n - v) % n = i.getD ax 0 := by
      rw [Int.emod_sub_emod, sub_neg_eq_add, add_sub_cancel_right]
      exact Int.emod_eq_of_lt (by omega) (by omega)
    rw [this]
    congr 1
    rw [Int.toNat_natCast, List.getD_eq_getElem?_getD, List.getElem?_eq_getElem hil]
    exact List.set_getElem_self hil
  · unfold Nd.roll Nd.gather
    simp only
    rw [List.set_eq_of_length_le (by rw [List.length_set, inRange_length hi]; omega), List.set_eq_of_length_le (by rw [inRange_length hi]; omega)]

theorem shiftAll_shape {α} (a : Nd α) : ∀ axes : List ℕ, (a.shiftAll axes).shape = a.shape
  | [] => rfl
  | _ :: axes => shiftAll_shape a axes

theorem unshiftAll_shape {α} (a : Nd α) : ∀ axes : List ℕ, (a.unshiftAll axes).shape = a.shape
  | [] => rfl
  | _ :: axes => unshiftAll_shape a axes

theorem unshiftAll_agree {a b : Nd ℂ} (h : Agree a b) (axes : List ℕ) : Agree (a.unshiftAll axes) (b.unshiftAll axes) := by
  refine foldr_agree (f := fun ax (a : Nd ℂ) => a.roll (-((a.shape.getD ax 0 / 2 : ℕ) : ℤ)) ax) ?_ axes h
  intro x a b h
  show Agree (a.roll (-((a.shape.getD x 0 / 2 : ℕ) : ℤ)) x) (b.roll (-((b.shape.getD x 0 / 2 : ℕ) : ℤ)) x)
  rw [h.1]
  exact roll_agree h _ _

theorem unshiftAll_perm {axes axes' : List ℕ} (h : axes.Perm axes') (a : Nd ℂ) : a.unshiftAll axes = a.unshiftAll axes' :=
  foldr_perm (f := fun ax (a : Nd ℂ) => a.roll (-((a.shape.getD ax 0 / 2 : ℕ) : ℤ)) ax)
    (fun _ _ a hne => roll_comm a _ _ (Ne.symm hne)) h a

theorem unshiftAll_shift_comm {α} {ax : ℕ} : ∀ {axes : List ℕ}, ax ∉ axes → ∀ a : Nd α,
    (a.fftshift ax).unshiftAll axes = (a.unshiftAll axes).fftshift ax
  | [], _, _ => rfl
  | bx :: axes, h, a => by
    rw [List.mem_cons, not_or] at h
    have ih := unshiftAll_shift_comm h.2 a
    show ((a.fftshift ax).unshiftAll axes).roll (-((((a.fftshift ax).unshiftAll axes).shape.getD bx 0 / 2 : ℕ) : ℤ)) bx =
      ((a.unshiftAll axes).roll (-(((a.unshiftAll axes).shape.getD bx 0 / 2 : ℕ) : ℤ)) bx).fftshift ax
    rw [ih]
    exact roll_comm _ _ _ h.1

theorem unshiftAll_shiftAll {a : Nd ℂ} : ∀ {axes : List ℕ}, axes.Nodup → Agree ((a.shiftAll axes).unshiftAll axes) a
  | [], _ => Agree.refl a
  | ax :: axes, hd => by
    rw [List.nodup_cons] at hd
    have e : (a.shiftAll (ax :: axes)).unshiftAll axes = ((a.shiftAll axes).unshiftAll axes).fftshift ax :=
      unshiftAll_shift_comm hd.1 (a.shiftAll axes)
    show Agree (((a.shiftAll (ax :: axes)).unshiftAll axes).roll (-((((a.shiftAll (ax :: axes)).unshiftAll axes).shape.getD ax 0 / 2 : ℕ) : ℤ)) ax) a
    rw [e]
    have ih := unshiftAll_shiftAll (a := a) hd.2
    refine Agree.trans ?_ ih
    exact ⟨rfl, fun i hi => unroll_roll _ _ hi⟩

/-! ### The values of the transform -/

/-- Sums over the positions along several axes, each with its own weights. -/
noncomputable def nest (n : ℕ → ℕ) (φ : ℕ → ℕ → ℂ) (g : List ℕ → ℂ) : List ℕ → List ℕ → ℂ
  | [], i => g i
  | ax :: axes, i => ∑ j ∈ Finset.range (n ax), nest n φ g axes (i.set ax j) * φ ax j

theorem nest_weights {n : ℕ → ℕ} {φ ψ : ℕ → ℕ → ℂ} {g : List ℕ → ℂ} : ∀ {axes : List ℕ}, (∀ ax ∈ axes, ∀ j, φ ax j = ψ ax j) →
    ∀ i, nest n φ g axes i = nest n ψ g axes i
  | [], _, _ => rfl
  | ax :: axes, h, i => by
    show ∑ j ∈ Finset.range (n ax), _ = ∑ j ∈ Finset.range (n ax), _
    refine Finset.sum_congr rfl fun j _ => ?_
    rw [nest_weights (fun x hx => h x (by simp [hx])), h ax (by simp)]

theorem nest_lens {n m : ℕ → ℕ} {φ : ℕ → ℕ → ℂ} {g : List ℕ → ℂ} : ∀ {axes : List ℕ}, (∀ ax ∈ axes, n ax = m ax) →
    ∀ i, nest n φ g axes i = nest m φ g axes i
  | [], _, _ => rfl
  | ax :: axes, h, i => by
    show ∑ j ∈ Finset.range (n ax), _ = ∑ j ∈ Finset.range (m ax), _
    rw [h ax (by simp)]
    refine Finset.sum_congr rfl fun j _ => ?_
    rw [nest_lens (fun x hx => h x (by simp [hx]))]

/-- The positions along the axes summed over do not matter. -/
theorem nest_set {n : ℕ → ℕ} {φ : ℕ → ℕ → ℂ} {g : List ℕ → ℂ} : ∀ {axes : List ℕ} {ax : ℕ}, ax ∈ axes → ∀ (i : List ℕ) (x : ℕ),
    nest n φ g axes (i.set ax x) = nest n φ g axes i
  | bx :: axes, ax, h, i, x => by
    show ∑ j ∈ Finset.range (n bx), _ = ∑ j ∈ Finset.range (n bx), _
    refine Finset.sum_congr rfl fun j _ => ?_
    by_cases hb : bx = ax
    · subst hb
      rw [List.set_set]
    · rw [List.set_comm _ _ (Ne.symm hb), nest_set (by simpa [Ne.symm hb] using h)]

theorem fftn_get (a : Nd ℂ) : ∀ {axes : List ℕ}, axes.Nodup → ∀ i, (a.fftn axes).get i =
    nest (fun ax => a.shape.getD ax 0) (fun ax j => expi (j * (i.getD ax 0 : ℕ) / (a.shape.getD ax 0 : ℕ))) a.get axes i
  | [], _, _ => rfl
  | ax :: axes, hd, i => by
    rw [List.nodup_cons] at hd
    show ((a.fftn axes).fft ax).get i = _
    rw [Nd.fft_get, fftn_shape]
    show _ = ∑ j ∈ Finset.range (a.shape.getD ax 0), _
    refine Finset.sum_congr rfl fun j _ => ?_
    rw [fftn_get a hd.2]
    congr 1
    apply nest_weights
    intro bx hbx j'
    rw [getD_set_ne (by rintro rfl; exact hd.1 hbx)]

theorem fftn_get_eq {a b : Nd ℂ} (hg : a.get = b.get) : ∀ {axes : List ℕ}, (∀ ax ∈ axes, a.shape.getD ax 0 = b.shape.getD ax 0) →
    (a.fftn axes).get = (b.fftn axes).get
  | [], _ => hg
  | ax :: axes, h => by
    funext i
    show ((a.fftn axes).fft ax).get i = ((b.fftn axes).fft ax).get i
    rw [Nd.fft_get, Nd.fft_get, fftn_shape, fftn_shape, h ax (by simp), fftn_get_eq hg fun x hx => h x (by simp [hx])]

theorem fftn_concat (a : Nd ℂ) (axes : List ℕ) (last : ℕ) : a.fftn (axes ++ [last]) = (a.fft last).fftn axes := by
  unfold Nd.fftn
  rw [List.foldr_append]
  rfl

theorem rfftn_get {a : Nd ℂ} {axes : List ℕ} {last : ℕ} (hd : (axes ++ [last]).Nodup) :
    (a.rfftn (axes ++ [last])).get = (a.fftn (axes ++ [last])).get := by
  unfold Nd.rfftn
  rw [List.getLastD_concat, List.dropLast_concat, fftn_concat]
  apply fftn_get_eq (a := a.rfft last) (b := a.fft last) rfl
  intro ax hax
  show (a.shape.set last _).getD ax 0 = a.shape.getD ax 0
  apply getD_set_ne
  rintro rfl
  exact List.nodup_append.1 hd |>.2.2 _ hax _ (by simp) rfl

theorem rfftn_shape (a : Nd ℂ) (axes : List ℕ) (last : ℕ) :
    (a.rfftn (axes ++ [last])).shape = a.shape.set last (a.shape.getD last 0 / 2 + 1) := by
  unfold Nd.rfftn
  rw [List.getLastD_concat, fftn_shape]
  rfl

/-- Where the elements come from when the axes are shifted. -/
def unshifted (sh : List ℕ) (i : List ℕ) : List ℕ → List ℕ
  | [] => i
  | ax :: axes => unshifted sh (i.set ax ((((i.getD ax 0 : ℕ) : ℤ) - (sh.getD ax 0 / 2 : ℕ)) % (sh.getD ax 0 : ℤ)).toNat) axes

theorem shiftAll_get {α} (a : Nd α) : ∀ (axes : List ℕ) (i : List ℕ), (a.shiftAll axes).get i = a.get (unshifted a.shape i axes)
  | [], _ => rfl
  | ax :: axes, i => by
    show ((a.shiftAll axes).fftshift ax).get i = _
    unfold Nd.fftshift Nd.roll Nd.gather
    simp only
    rw [shiftAll_get a axes, shiftAll_shape]
    rfl

theorem unshifted_getD (sh : List ℕ) : ∀ (axes : List ℕ) (i : List ℕ), axes.Nodup → (∀ ax ∈ axes, ax < i.length) → ∀ bx,
    (unshifted sh i axes).getD bx 0 =
      if bx ∈ axes then ((((i.getD bx 0 : ℕ) : ℤ) - (sh.getD bx 0 / 2 : ℕ)) % (sh.getD bx 0 : ℤ)).toNat else i.getD bx 0
  | [], _, _, _, _ => by simp [unshifted]
  | ax :: axes, i, hd, hl, bx => by
    rw [List.nodup_cons] at hd
    unfold unshifted
    rw [unshifted_getD sh axes _ hd.2 (by intro x hx; rw [List.length_set]; exact hl x (by simp [hx]))]
    by_cases hb : ax = bx
    · subst hb
      rw [if_neg hd.1, if_pos (by simp), getD_set_self (hl ax (by simp))]
    · rw [getD_set_ne hb]
      by_cases hb' : bx ∈ axes
      · rw [if_pos hb', if_pos (by simp [hb'])]
      · rw [if_neg hb', if_neg (by simp [Ne.symm hb, hb'])]

theorem nest_unshifted {n : ℕ → ℕ} {φ : ℕ → ℕ → ℂ} {g : List ℕ → ℂ} (sh : List ℕ) {axes : List ℕ} : ∀ {axes' : List ℕ}, (∀ ax ∈ axes', ax ∈ axes) →
    ∀ i, nest n φ g axes (unshifted sh i axes') = nest n φ g axes i
  | [], _, _ => rfl
  | ax :: axes', h, i => by
    unfold unshifted
    rw [nest_unshifted sh (fun x hx => h x (by simp [hx])), nest_set (h ax (by simp))]

/-- The values of the shifted transform. -/
theorem shifted_fftn {a b : Nd ℂ} {axes sh : List ℕ} (hd : axes.Nodup) (hsub : ∀ ax ∈ sh, ax ∈ axes) (hshd : sh.Nodup)
    (hb : b.get = (a.fftn axes).get) (hbs : ∀ ax ∈ sh, b.shape.getD ax 0 = a.shape.getD ax 0) {i : List ℕ} (hl : ∀ ax ∈ axes, ax < i.length) :
    (b.shiftAll sh).get i = nest (fun ax => a.shape.getD ax 0)
      (fun ax j => expi (j * (((i.getD ax 0 : ℕ) - if ax ∈ sh then ((a.shape.getD ax 0 / 2 : ℕ) : ℚ) else 0) / (a.shape.getD ax 0 : ℕ)))) a.get axes i := by
  rw [shiftAll_get, hb, fftn_get a hd, nest_unshifted _ hsub]
  apply nest_weights
  intro ax hax j
  rw [unshifted_getD _ _ _ hshd fun x hx => hl x (hsub x hx)]
  split_ifs with h
  · rw [hbs ax h]
    by_cases h0 : a.shape.getD ax 0 = 0
    · rw [h0]; simp
    set n := a.shape.getD ax 0 with hn
    have hpos : (0 : ℤ) < n := by omega
    set x : ℤ := ((i.getD ax 0 : ℕ) : ℤ) - (n / 2 : ℕ) with hx
    have h1 : (((x % (n : ℤ)).toNat : ℕ) : ℚ) = (x : ℚ) - n * (x / (n : ℤ) : ℤ) := by
      have h2 := Int.emod_nonneg x hpos.ne'
      have h3 : (((x % (n : ℤ)).toNat : ℕ) : ℤ) = x - n * (x / (n : ℤ)) := by
        rw [Int.toNat_of_nonneg h2, Int.emod_def]
      exact_mod_cast congrArg (fun z : ℤ => (z : ℚ)) h3
    have hn0 : (n : ℚ) ≠ 0 := by exact_mod_cast h0
    have h4 : (j : ℚ) * ((x % (n : ℤ)).toNat : ℕ) / n = j * (((i.getD ax 0 : ℕ) - ((n / 2 : ℕ) : ℚ)) / n) + ((-(j * (x / (n : ℤ))) : ℤ) : ℚ) := by
      have hxq : (x : ℚ) = (i.getD ax 0 : ℕ) - ((n / 2 : ℕ) : ℚ) := by
        rw [hx, Int.cast_sub, Int.cast_natCast, Int.cast_natCast]
      rw [h1, ← hxq, Int.cast_neg, Int.cast_mul, Int.cast_natCast]; field_simp; ring
    rw [h4, expi_add, expi_int, mul_one]
  · rw [sub_zero, mul_div_assoc]

/-- Elements which are zero can be left out of the sums. -/
theorem nest_pad {n N : ℕ → ℕ} {φ : ℕ → ℕ → ℂ} {g g' : List ℕ → ℂ} (hn : ∀ ax, n ax ≤ N ax) {l : ℕ}
    (hg : ∀ i, i.length = l → (∀ ax < l, i.getD ax 0 < N ax) → g' i = if ∀ ax < l, i.getD ax 0 < n ax then g i else 0) :
    ∀ {axes : List ℕ}, axes.Nodup → (∀ ax ∈ axes, ax < l) → ∀ i, i.length = l → (∀ ax < l, ax ∉ axes → i.getD ax 0 < N ax) →
      nest N φ g' axes i = if ∀ ax < l, ax ∉ axes → i.getD ax 0 < n ax then nest n φ g axes i else 0
  | [], _, _, i, hl, hi => by
    have h1 := hg i hl fun ax h => hi ax h (by simp)
    show g' i = if _ then g i else 0
    rw [h1]
    congr 1
    simp
  | bx :: axes, hd, hlt, i, hl, hi => by
    rw [List.nodup_cons] at hd
    have hb := hlt bx (by simp)
    have step : ∀ j ∈ Finset.range (N bx), nest N φ g' axes (i.set bx j) * φ bx j =
        if j < n bx then (if ∀ ax < l, ax ∉ bx :: axes → i.getD ax 0 < n ax then nest n φ g axes (i.set bx j) * φ bx j else 0) else 0 := by
      intro j hj
      rw [nest_pad hn hg hd.2 (fun x hx => hlt x (by simp [hx])) (i.set bx j) (by rw [List.length_set]; exact hl) ?_]
      · have : (∀ ax < l, ax ∉ axes → (i.set bx j).getD ax 0 < n ax) ↔ j < n bx ∧ ∀ ax < l, ax ∉ bx :: axes → i.getD ax 0 < n ax := by
          constructor
          · intro h
            refine ⟨by have := h bx hb hd.1; rwa [getD_set_self (by rw [hl]; exact hb)] at this, fun ax h1 h2 => ?_⟩
            rw [List.mem_cons, not_or] at h2
            have := h ax h1 h2.2
            rwa [getD_set_ne (Ne.symm h2.1)] at this
          · rintro ⟨h1, h2⟩ ax h3 h4
            by_cases hab : bx = ax
            · subst hab; rw [getD_set_self (by rw [hl]; exact hb)]; exact h1
            · rw [getD_set_ne hab]; exact h2 ax h3 (by simp [Ne.symm hab, h4])
        by_cases h1 : j < n bx
        · rw [if_pos h1]
          by_cases h2 : ∀ ax < l, ax ∉ bx :: axes → i.getD ax 0 < n ax
          · rw [if_pos h2, if_pos (this.2 ⟨h1, h2⟩)]
          · rw [if_neg h2, if_neg (fun h => h2 (this.1 h).2), zero_mul]
        · rw [if_neg h1, if_neg (fun h => h1 (this.1 h).1), zero_mul]
      · intro ax h1 h2
        by_cases hab : bx = ax
        · subst hab; rw [getD_set_self (by rw [hl]; exact hb)]; exact Finset.mem_range.1 hj
        · rw [getD_set_ne hab]; exact hi ax h1 (by simp [Ne.symm hab, h2])
    show ∑ j ∈ Finset.range (N bx), nest N φ g' axes (i.set bx j) * φ bx j = _
    rw [Finset.sum_congr rfl step, ← Finset.sum_filter]
    have hfil : (Finset.range (N bx)).filter (· < n bx) = Finset.range (n bx) := by
      ext j
      simp only [Finset.mem_filter, Finset.mem_range]
      have := hn bx
      omega
    rw [hfil]
    split_ifs with h
    · rfl
    · simp

end Verif
