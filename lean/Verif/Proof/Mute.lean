import Verif.Spec.Mute
import Verif.Proof.CalculusPatch
import Verif.Proof.Query
import Mathlib.Tactic.FieldSimp
import Mathlib.Tactic.LinearCombination
/-! # Lemmas: the geometry of mutes -/
namespace Verif
open Spec

theorem cross_scale {e f : ℚ} (u c : ℚ × ℚ) : cross (u.1 / e, u.2 / f) (c.1 / e, c.2 / f) = (u.1 * c.2 - u.2 * c.1) / (e * f) := by
  unfold cross
  simp only
  rw [div_mul_div_comm, div_mul_div_comm, mul_comm f e, ← sub_div]

theorem inner_dot (e f : ℚ) (u c : ℚ × ℚ) : dot (u.1 / e, u.2 / f) (c.1 / e, c.2 / f) = inner e f u c := rfl

/-- Both products have the signs of the wedge. -/
theorem wedge_iff {e f : ℚ} (he : 0 < e) (hf : 0 < f) {u v c : ℚ × ℚ} (hx : u.1 * v.2 - u.2 * v.1 ≠ 0) (hd : 0 ≤ inner e f u v) :
    ((u.1 * c.2 - u.2 * c.1) / (e * f) * ((v.1 * c.2 - v.2 * c.1) / (e * f)) < 0 ∧ 0 < inner e f u c ∧ 0 < inner e f v c) ↔
      ∃ a b : ℚ, 0 < a ∧ 0 < b ∧ c = (a * u.1 + b * v.1, a * u.2 + b * v.2) := by
  have hef : 0 < e * f := mul_pos he hf
  have hx2 : 0 < (u.1 * v.2 - u.2 * v.1) ^ 2 := by positivity
  have key : (u.1 * c.2 - u.2 * c.1) / (e * f) * ((v.1 * c.2 - v.2 * c.1) / (e * f)) < 0 ↔
      (u.1 * c.2 - u.2 * c.1) * (v.1 * c.2 - v.2 * c.1) < 0 := by
    rw [div_mul_div_comm, div_lt_iff₀ (mul_pos hef hef), zero_mul]
  rw [key]
  have nn : ∀ w : ℚ × ℚ, 0 ≤ inner e f w w := fun w => add_nonneg (mul_self_nonneg _) (mul_self_nonneg _)
  have hlin : ∀ (w : ℚ × ℚ) (a b : ℚ), inner e f w (a * u.1 + b * v.1, a * u.2 + b * v.2) = a * inner e f w u + b * inner e f w v := by
    intro w a b
    unfold inner
    simp only
    ring
  have hsymm : inner e f v u = inner e f u v := by unfold inner; ring
  have upos : 0 < inner e f u u := by
    rcases (nn u).lt_or_eq with h | h
    · exact h
    · exfalso
      unfold inner at h
      have h1 : u.1 / e = 0 := by nlinarith [mul_self_nonneg (u.1 / e), mul_self_nonneg (u.2 / f)]
      have h2 : u.2 / f = 0 := by nlinarith [mul_self_nonneg (u.1 / e), mul_self_nonneg (u.2 / f)]
      rw [div_eq_zero_iff] at h1 h2
      have h1 := h1.resolve_right he.ne'
      have h2 := h2.resolve_right hf.ne'
      exact hx (by rw [h1, h2]; ring)
  have vpos : 0 < inner e f v v := by
    rcases (nn v).lt_or_eq with h | h
    · exact h
    · exfalso
      unfold inner at h
      have h1 : v.1 / e = 0 := by nlinarith [mul_self_nonneg (v.1 / e), mul_self_nonneg (v.2 / f)]
      have h2 : v.2 / f = 0 := by nlinarith [mul_self_nonneg (v.1 / e), mul_self_nonneg (v.2 / f)]
      rw [div_eq_zero_iff] at h1 h2
      have h1 := h1.resolve_right he.ne'
      have h2 := h2.resolve_right hf.ne'
      exact hx (by rw [h1, h2]; ring)
  constructor
  · rintro ⟨h1, h2, h3⟩
    obtain ⟨a, b, hc⟩ : ∃ a b : ℚ, c = (a * u.1 + b * v.1, a * u.2 + b * v.2) := by
      refine ⟨-(v.1 * c.2 - v.2 * c.1) / (u.1 * v.2 - u.2 * v.1), (u.1 * c.2 - u.2 * c.1) / (u.1 * v.2 - u.2 * v.1), Prod.ext ?_ ?_⟩
      · simp only
        rw [div_mul_eq_mul_div, div_mul_eq_mul_div, ← add_div, eq_div_iff hx]
        ring
      · simp only
        rw [div_mul_eq_mul_div, div_mul_eq_mul_div, ← add_div, eq_div_iff hx]
        ring
    have e1 : (u.1 * c.2 - u.2 * c.1) * (v.1 * c.2 - v.2 * c.1) = -(a * b) * (u.1 * v.2 - u.2 * v.1) ^ 2 := by
      rw [hc]; simp only; ring
    rw [e1] at h1
    have hab : 0 < a * b := by
      by_contra hn
      push Not at hn
      have := mul_nonneg (neg_nonneg.2 hn) hx2.le
      linarith
    rw [hc, hlin] at h2 h3
    rcases mul_pos_iff.1 hab with ⟨ha, hb⟩ | ⟨ha, hb⟩
    · exact ⟨a, b, ha, hb, hc⟩
    · exfalso
      have := mul_neg_of_neg_of_pos ha upos
      have := mul_nonpos_of_nonpos_of_nonneg hb.le hd
      linarith
  · rintro ⟨a, b, ha, hb, rfl⟩
    refine ⟨?_, ?_, ?_⟩
    · have e1 : (u.1 * (a * u.2 + b * v.2) - u.2 * (a * u.1 + b * v.1)) * (v.1 * (a * u.2 + b * v.2) - v.2 * (a * u.1 + b * v.1)) =
          -((a * b) * (u.1 * v.2 - u.2 * v.1) ^ 2) := by ring
      simp only
      rw [e1]
      have := mul_pos (mul_pos ha hb) hx2
      linarith
    · rw [hlin]
      have := mul_pos ha upos
      have := mul_nonneg hb.le hd
      linarith
    · rw [hlin, hsymm]
      have := mul_pos hb vpos
      have := mul_nonneg ha.le hd
      linarith

/-- The lines meet in one point. -/
theorem intersection_on {l m : Line} {o : ℚ × ℚ} (h : intersection l m = some o) : OnLine l o ∧ OnLine m o := by
  unfold intersection at h
  simp only at h
  split_ifs at h with hc
  have hd : (l.p.1 - l.q.1) * (m.p.2 - m.q.2) - (l.p.2 - l.q.2) * (m.p.1 - m.q.1) ≠ 0 := by
    intro h0
    rw [h0] at hc
    exact hc (by decide +kernel)
  simp only [Option.some.injEq] at h
  subst h
  set d := (l.p.1 - l.q.1) * (m.p.2 - m.q.2) - (l.p.2 - l.q.2) * (m.p.1 - m.q.1) with hdd
  constructor
  · refine ⟨((l.p.1 - m.p.1) * (m.p.2 - m.q.2) - (l.p.2 - m.p.2) * (m.p.1 - m.q.1)) / d, Prod.ext ?_ ?_⟩ <;>
    · simp only [along]
      rw [div_mul_eq_mul_div, div_eq_iff hd, add_mul, div_mul_cancel₀ _ hd, hdd]
      ring
  · refine ⟨((l.p.1 - m.p.1) * (l.p.2 - l.q.2) - (l.p.2 - m.p.2) * (l.p.1 - l.q.1)) / d, Prod.ext ?_ ?_⟩ <;>
    · simp only [along]
      rw [div_mul_eq_mul_div, div_eq_iff hd, add_mul, div_mul_cancel₀ _ hd, hdd]
      ring

theorem on_unique {l m : Line} (hx : (along l).1 * (along m).2 - (along l).2 * (along m).1 ≠ 0) {o o' : ℚ × ℚ} (h1 : OnLine l o) (h2 : OnLine m o)
    (h1' : OnLine l o') (h2' : OnLine m o') : o = o' := by
  obtain ⟨a, rfl⟩ := h1
  obtain ⟨b, hb⟩ := h2
  obtain ⟨a', rfl⟩ := h1'
  obtain ⟨b', hb'⟩ := h2'
  simp only [Prod.mk.injEq] at hb hb'
  have : (a - a') * ((along l).1 * (along m).2 - (along l).2 * (along m).1) = 0 := by
    linear_combination (along m).2 * (hb.1 - hb'.1) - (along m).1 * (hb.2 - hb'.2)
  rcases mul_eq_zero.1 this with h | h
  · have : a = a' := by linarith
    rw [this]
  · exact absurd h hx

/-- The side of a line on which a point is. -/
theorem onLine_iff {l : Line} (hne : along l ≠ (0, 0)) (c : ℚ × ℚ) :
    OnLine l c ↔ (along l).1 * (c.2 - l.p.2) - (along l).2 * (c.1 - l.p.1) = 0 := by
  constructor
  · rintro ⟨t, rfl⟩
    simp only
    ring
  · intro h
    have hpos : (along l).1 * (along l).1 + (along l).2 * (along l).2 ≠ 0 := by
      intro h0
      refine hne (Prod.ext ?_ ?_)
      · show (along l).1 = 0
        nlinarith [mul_self_nonneg (along l).1, mul_self_nonneg (along l).2]
      · show (along l).2 = 0
        nlinarith [mul_self_nonneg (along l).1, mul_self_nonneg (along l).2]
    refine ⟨((along l).1 * (c.1 - l.p.1) + (along l).2 * (c.2 - l.p.2)) / ((along l).1 * (along l).1 + (along l).2 * (along l).2),
      Prod.ext ?_ ?_⟩
    · simp only
      rw [div_mul_eq_mul_div, ← sub_eq_iff_eq_add', eq_div_iff hpos]
      linear_combination (-(along l).2) * h
    · simp only
      rw [div_mul_eq_mul_div, ← sub_eq_iff_eq_add', eq_div_iff hpos]
      linear_combination (along l).1 * h

/-- A point in a strip. -/
theorem strip_iff {l m : Line} (hne : along l ≠ (0, 0)) (hp : (along l).1 * (along m).2 - (along l).2 * (along m).1 = 0) (c : ℚ × ℚ) :
    ((along l).1 * (c.2 - l.p.2) - (along l).2 * (c.1 - l.p.1)) * ((along l).1 * (c.2 - m.p.2) - (along l).2 * (c.1 - m.p.1)) < 0 ↔
      InStrip l m c := by
  unfold InStrip
  rw [onLine_iff hne]
  constructor
  · intro h
    set X := (along l).1 * (c.2 - l.p.2) - (along l).2 * (c.1 - l.p.1) with hX
    set K := (along l).1 * (m.p.2 - l.p.2) - (along l).2 * (m.p.1 - l.p.1) with hK
    have hY : (along l).1 * (c.2 - m.p.2) - (along l).2 * (c.1 - m.p.1) = X - K := by rw [hX, hK]; ring
    rw [hY] at h
    have hX0 : X ≠ 0 := by intro h0; rw [h0] at h; simp at h
    have hK0 : K ≠ 0 := by intro h0; rw [h0] at h; nlinarith [mul_self_nonneg X]
    have ht : 0 < X / K ∧ X / K < 1 := by
      rcases lt_or_gt_of_ne hK0 with hk | hk
      · have : X < 0 := by
          by_contra hn
          push Not at hn
          have := mul_nonneg hn (show 0 ≤ X - K by linarith)
          linarith
        have : 0 < X - K := by
          by_contra hn
          push Not at hn
          have := mul_nonneg_of_nonpos_of_nonpos (show X ≤ 0 by linarith) hn
          linarith
        exact ⟨div_pos_of_neg_of_neg (by assumption) hk, by rw [div_lt_iff_of_neg hk]; linarith⟩
      · have h1 : 0 < X := by
          by_contra hn
          push Not at hn
          have := mul_nonneg_of_nonpos_of_nonpos hn (show X - K ≤ 0 by linarith)
          linarith
        have : X - K < 0 := by
          by_contra hn
          push Not at hn
          have := mul_nonneg h1.le hn
          linarith
        exact ⟨div_pos h1 hk, by rw [div_lt_iff₀ hk]; linarith⟩
    refine ⟨hX0, ((c.1 - X / K * m.p.1) / (1 - X / K), (c.2 - X / K * m.p.2) / (1 - X / K)), m.p, ?_, ⟨0, by simp⟩, X / K, ht.1, ht.2, ?_⟩
    · rw [onLine_iff hne]
      have h1 : (1 - X / K) ≠ 0 := by linarith [ht.2]
      have hKX : X / K * K = X := div_mul_cancel₀ _ hK0
      have : ((along l).1 * ((c.2 - X / K * m.p.2) / (1 - X / K) - l.p.2) - (along l).2 * ((c.1 - X / K * m.p.1) / (1 - X / K) - l.p.1)) *
          (1 - X / K) = 0 := by
        have e1 : (c.2 - X / K * m.p.2) / (1 - X / K) * (1 - X / K) = c.2 - X / K * m.p.2 := div_mul_cancel₀ _ h1
        have e2 : (c.1 - X / K * m.p.1) / (1 - X / K) * (1 - X / K) = c.1 - X / K * m.p.1 := div_mul_cancel₀ _ h1
        generalize X / K = t at *
        linear_combination (along l).1 * e1 - (along l).2 * e2 - hX - hKX + t * hK
      exact (mul_eq_zero.1 this).resolve_right h1
    · have h1 : (1 - X / K) ≠ 0 := by linarith [ht.2]
      refine Prod.ext ?_ ?_
      · simp only
        have e2 : (c.1 - X / K * m.p.1) / (1 - X / K) * (1 - X / K) = c.1 - X / K * m.p.1 := div_mul_cancel₀ _ h1
        linear_combination -e2
      · simp only
        have e1 : (c.2 - X / K * m.p.2) / (1 - X / K) * (1 - X / K) = c.2 - X / K * m.p.2 := div_mul_cancel₀ _ h1
        linear_combination -e1
  · rintro ⟨hX0, o, o', ⟨a, rfl⟩, ⟨b, rfl⟩, t, h0, h1, rfl⟩
    simp only at hX0 ⊢
    set K := (along l).1 * (m.p.2 - l.p.2) - (along l).2 * (m.p.1 - l.p.1) with hK
    have e1 : (along l).1 * (l.p.2 + a * (along l).2 + t * (m.p.2 + b * (along m).2 - (l.p.2 + a * (along l).2)) - l.p.2) -
        (along l).2 * (l.p.1 + a * (along l).1 + t * (m.p.1 + b * (along m).1 - (l.p.1 + a * (along l).1)) - l.p.1) = t * K := by
      linear_combination t * b * hp - t * hK
    have e2 : (along l).1 * (l.p.2 + a * (along l).2 + t * (m.p.2 + b * (along m).2 - (l.p.2 + a * (along l).2)) - m.p.2) -
        (along l).2 * (l.p.1 + a * (along l).1 + t * (m.p.1 + b * (along m).1 - (l.p.1 + a * (along l).1)) - m.p.1) = (t - 1) * K := by
      linear_combination t * b * hp - (t - 1) * hK
    rw [e1] at hX0
    rw [e1, e2]
    have hK0 : K ≠ 0 := by rintro h; exact hX0 (by rw [h, mul_zero])
    have hK2 : 0 < K * K := mul_self_pos.2 hK0
    have : t * K * ((t - 1) * K) = -(t * (1 - t) * (K * K)) := by ring
    rw [this]
    have := mul_pos (mul_pos h0 (show 0 < 1 - t by linarith)) hK2
    linarith

/-- The same line, seen from another origin. -/
def SameUp (t : ℚ × ℚ) (l l' : Line) : Prop := along l = along l' ∧ ∀ o, OnLine l o ↔ OnLine l' (o.1 + t.1, o.2 + t.2)

theorem wedge_up {t : ℚ × ℚ} {l l' m m' : Line} (hl : SameUp t l l') (hm : SameUp t m m') (u v c : ℚ × ℚ) :
    InWedge l m u v c ↔ InWedge l' m' u v (c.1 + t.1, c.2 + t.2) := by
  unfold InWedge
  constructor
  · rintro ⟨o, h1, h2, a, b, ha, hb, rfl⟩
    refine ⟨_, (hl.2 o).1 h1, (hm.2 o).1 h2, a, b, ha, hb, Prod.ext ?_ ?_⟩ <;> simp only <;> ring
  · rintro ⟨o, h1, h2, a, b, ha, hb, h⟩
    have e : o = ((o.1 - t.1) + t.1, (o.2 - t.2) + t.2) := by ext <;> simp
    rw [e] at h1 h2
    simp only [Prod.mk.injEq] at h
    refine ⟨(o.1 - t.1, o.2 - t.2), (hl.2 (o.1 - t.1, o.2 - t.2)).2 h1, (hm.2 (o.1 - t.1, o.2 - t.2)).2 h2, a, b, ha, hb, Prod.ext ?_ ?_⟩
    · simp only
      linear_combination h.1
    · simp only
      linear_combination h.2

theorem strip_up {t : ℚ × ℚ} {l l' m m' : Line} (hl : SameUp t l l') (hm : SameUp t m m') (c : ℚ × ℚ) :
    InStrip l m c ↔ InStrip l' m' (c.1 + t.1, c.2 + t.2) := by
  unfold InStrip
  refine and_congr (not_congr (hl.2 c)) ?_
  constructor
  · rintro ⟨o, o', h1, h2, s, h0, hs, rfl⟩
    refine ⟨_, _, (hl.2 o).1 h1, (hm.2 o').1 h2, s, h0, hs, Prod.ext ?_ ?_⟩ <;> simp only <;> ring
  · rintro ⟨o, o', h1, h2, s, h0, hs, h⟩
    have e : o = ((o.1 - t.1) + t.1, (o.2 - t.2) + t.2) := by ext <;> simp
    have e' : o' = ((o'.1 - t.1) + t.1, (o'.2 - t.2) + t.2) := by ext <;> simp
    rw [e] at h1
    rw [e'] at h2
    simp only [Prod.mk.injEq] at h
    refine ⟨(o.1 - t.1, o.2 - t.2), (o'.1 - t.1, o'.2 - t.2), (hl.2 (o.1 - t.1, o.2 - t.2)).2 h1, (hm.2 (o'.1 - t.1, o'.2 - t.2)).2 h2, s, h0, hs,
      Prod.ext ?_ ?_⟩
    · simp only
      linear_combination h.1
    · simp only
      linear_combination h.2

theorem intersection_skew {l m : Line} (h : 1 / 10 ^ 8 < |(along l).1 * (along m).2 - (along l).2 * (along m).1|) :
    ∃ o, intersection l m = some o := by
  unfold intersection
  have hd : isClose ((l.p.1 - l.q.1) * (m.p.2 - m.q.2) - (l.p.2 - l.q.2) * (m.p.1 - m.q.1)) 0 = false := by
    rw [← Bool.not_eq_true, isClose_iff]
    unfold along at h
    simp only at h
    rw [show (l.p.1 - l.q.1) * (m.p.2 - m.q.2) - (l.p.2 - l.q.2) * (m.p.1 - m.q.1) - 0 =
      (l.q.1 - l.p.1) * (m.q.2 - m.p.2) - (l.q.2 - l.p.2) * (m.q.1 - m.p.1) by ring]
    push Not
    norm_num at h ⊢
    exact h
  simp only [hd]
  exact ⟨_, rfl⟩

/-- Which line is given by a number. -/
def FillOk (fill : Option ℕ) (first second : Bool) : Prop :=
  (first = false → second = false → fill = none) ∧ (first = true → second = false → fill = some 0) ∧
  (first = false → second = true → fill = some 1)

theorem scale_neg (e f : ℚ) (u : ℚ × ℚ) : neg2 (u.1 / e, u.2 / f) = (-u.1 / e, -u.2 / f) := by
  unfold neg2; simp only [neg_div]

theorem inner_neg_left (e f : ℚ) (u v : ℚ × ℚ) : inner e f (-u.1, -u.2) v = -inner e f u v := by unfold inner; simp only; ring
theorem inner_neg_right (e f : ℚ) (u v : ℚ × ℚ) : inner e f u (-v.1, -v.2) = -inner e f u v := by unfold inner; simp only; ring

theorem dir_scale (e f : ℚ) (l : Line) : l.dir (e, f) = ((along l).1 / e, (along l).2 / f) := rfl

/-- Lines that are long enough are compared. -/
theorem lineParams_eq {e f : ℚ} {l m : Line} (fill : Option ℕ) (hlong : Long e f (along l) (along m)) :
    ∃ par : Bool, (par = true ↔ (1 - 1 / 1000000000) * (1 - 1 / 1000000000) * (inner e f (along l) (along l) * inner e f (along m) (along m)) <
      inner e f (along l) (along m) * inner e f (along l) (along m)) ∧
    lineParams (e, f) l m fill = (facing par fill ((along l).1 / e, (along l).2 / f) ((along m).1 / e, (along m).2 / f)).map fun d =>
      ⟨if par then some (l.p, m.p) else (intersection l m).map fun o => (o, o), (e, f), d.1, d.2, par⟩ := by
  unfold lineParams
  simp only [dir_scale, inner_dot]
  refine ⟨_, decide_eq_true_iff, if_neg ?_⟩
  push Not
  have := hlong
  unfold Long at this
  norm_num at this ⊢
  exact this

/-- Two lines that meet. -/
theorem lineParams_skew {e f : ℚ} (he : 0 < e) (hf : 0 < f) {l m : Line} {fill : Option ℕ} {first second : Bool} (hfill : FillOk fill first second)
    (hboth : first = true → second = true → 0 ≤ inner e f (along l) (along m))
    (hlong : Long e f (along l) (along m)) (hskew : Skew e f (along l) (along m)) {u v : ℚ × ℚ}
    (hop : Opens e f first second (along l) (along m) u v) :
    ∃ g, lineParams (e, f) l m fill = .ok g ∧ ∀ c, g.inside c = true ↔ InWedge l m u v c := by
  obtain ⟨o, ho⟩ := intersection_skew hskew.2
  obtain ⟨par, hpar, hrun⟩ := lineParams_eq fill hlong
  have hpar : par = false := by
    rw [← Bool.not_eq_true, hpar, not_lt]
    have := hskew.1
    norm_num at this ⊢
    nlinarith
  have hface : facing false fill ((along l).1 / e, (along l).2 / f) ((along m).1 / e, (along m).2 / f) = .ok ((u.1 / e, u.2 / f), (v.1 / e, v.2 / f)) := by
    unfold facing
    rw [inner_dot]
    rcases hop with ⟨h, rfl, rfl⟩ | ⟨h, h1, h2, rfl, rfl⟩ | ⟨h, h2, rfl, rfl⟩
    · rw [if_pos h]
    · rw [if_neg (not_le.2 h), hfill.2.1 h1 h2, scale_neg]; rfl
    · have h1 : first = false := by
        cases hfi : first
        · rfl
        · exact absurd (hboth hfi h2) (not_le.2 h)
      rw [if_neg (not_le.2 h), hfill.2.2 h1 h2, scale_neg, scale_neg]; rfl
  have hd : 0 ≤ inner e f u v := by
    rcases hop with ⟨h, rfl, rfl⟩ | ⟨h, h1, h2, rfl, rfl⟩ | ⟨h, h2, rfl, rfl⟩
    · exact h
    · rw [inner_neg_left]; linarith
    · rw [inner_neg_right]; linarith
  have hx0 : (along l).1 * (along m).2 - (along l).2 * (along m).1 ≠ 0 := by
    intro h0
    have := hskew.2
    rw [h0] at this
    norm_num at this
  have hx : u.1 * v.2 - u.2 * v.1 ≠ 0 := by
    rcases hop with ⟨h, rfl, rfl⟩ | ⟨h, h1, h2, rfl, rfl⟩ | ⟨h, h2, rfl, rfl⟩
    · exact hx0
    · simp only; intro h0; exact hx0 (by linarith)
    · simp only; intro h0; exact hx0 (by linarith)
  refine ⟨⟨some (o, o), (e, f), (u.1 / e, u.2 / f), (v.1 / e, v.2 / f), false⟩, ?_, fun c => ?_⟩
  · rw [hrun, hpar, hface, ho]
    rfl
  · unfold MuteGeo.inside MuteGeo.from
    simp only [Bool.false_or, Bool.and_eq_true, decide_eq_true_eq]
    have ec : ∀ w : ℚ × ℚ, cross (w.1 / e, w.2 / f) ((c.1 - o.1) / e, (c.2 - o.2) / f) = (w.1 * (c.2 - o.2) - w.2 * (c.1 - o.1)) / (e * f) :=
      fun w => cross_scale w (c.1 - o.1, c.2 - o.2)
    have ed : ∀ w : ℚ × ℚ, dot (w.1 / e, w.2 / f) ((c.1 - o.1) / e, (c.2 - o.2) / f) = inner e f w (c.1 - o.1, c.2 - o.2) :=
      fun w => inner_dot e f w (c.1 - o.1, c.2 - o.2)
    rw [ec, ec, ed, ed]
    have hw := wedge_iff he hf (c := (c.1 - o.1, c.2 - o.2)) hx hd
    simp only at hw
    rw [hw]
    obtain ⟨on1, on2⟩ := intersection_on ho
    constructor
    · rintro ⟨a, b, ha, hb, h⟩
      simp only [Prod.mk.injEq] at h
      refine ⟨o, on1, on2, a, b, ha, hb, Prod.ext ?_ ?_⟩
      · simp only
        linear_combination h.1
      · simp only
        linear_combination h.2
    · rintro ⟨o', h1, h2, a, b, ha, hb, h⟩
      have : o' = o := on_unique hx0 h1 h2 on1 on2
      subst this
      refine ⟨a, b, ha, hb, ?_⟩
      rw [h]
      refine Prod.ext ?_ ?_ <;> simp only <;> ring

theorem inner_pos {e f : ℚ} {u : ℚ × ℚ} (h : (1 / 10 ^ 9) ^ 2 ≤ inner e f u u) : u ≠ (0, 0) := by
  rintro rfl
  unfold inner at h
  norm_num at h

/-- Two parallel lines. -/
theorem lineParams_parallel {e f : ℚ} (he : 0 < e) (hf : 0 < f) {l m : Line} {fill : Option ℕ} (hlong : Long e f (along l) (along m))
    (hp : (along l).1 * (along m).2 - (along l).2 * (along m).1 = 0) :
    ∃ g, lineParams (e, f) l m fill = .ok g ∧ ∀ c, g.inside c = true ↔ InStrip l m c := by
  have hne := inner_pos hlong.1
  have hne' := inner_pos hlong.2
  have pu : 0 < inner e f (along l) (along l) := lt_of_lt_of_le (by norm_num) hlong.1
  have pv : 0 < inner e f (along m) (along m) := lt_of_lt_of_le (by norm_num) hlong.2
  obtain ⟨s, hs⟩ : ∃ s : ℚ, along m = (s * (along l).1, s * (along l).2) := by
    by_cases h1 : (along l).1 = 0
    · have h2 : (along l).2 ≠ 0 := fun h2 => hne (Prod.ext h1 h2)
      refine ⟨(along m).2 / (along l).2, Prod.ext ?_ ?_⟩
      · simp only
        rw [h1] at hp ⊢
        have : (along l).2 * (along m).1 = 0 := by linarith
        rw [(mul_eq_zero.1 this).resolve_left h2]; ring
      · simp only
        rw [div_mul_cancel₀ _ h2]
    · refine ⟨(along m).1 / (along l).1, Prod.ext ?_ ?_⟩
      · simp only
        rw [div_mul_cancel₀ _ h1]
      · simp only
        rw [div_mul_eq_mul_div, eq_div_iff h1]
        linear_combination hp
  have hs0 : s ≠ 0 := by
    rintro rfl
    exact hne' (by rw [hs]; simp)
  have huv : inner e f (along l) (along m) = s * inner e f (along l) (along l) := by rw [hs]; unfold inner; simp only; ring
  have hvv : inner e f (along m) (along m) = s * s * inner e f (along l) (along l) := by rw [hs]; unfold inner; simp only; ring
  obtain ⟨par, hpar, hrun⟩ := lineParams_eq fill hlong
  have hpar : par = true := by
    rw [hpar, huv, hvv]
    have : 0 < s * s * (inner e f (along l) (along l) * inner e f (along l) (along l)) := mul_pos (mul_self_pos.2 hs0) (mul_pos pu pu)
    nlinarith
  obtain ⟨x, y, hxy, hface⟩ : ∃ x y : ℚ, 0 < x * (y * s) ∧ facing true fill ((along l).1 / e, (along l).2 / f) ((along m).1 / e, (along m).2 / f) =
      .ok ((x * (along l).1 / e, x * (along l).2 / f), (y * (along m).1 / e, y * (along m).2 / f)) := by
    unfold facing
    rw [inner_dot, huv]
    by_cases hsp : 0 < s
    · refine ⟨1, 1, by simpa using hsp, ?_⟩
      rw [if_pos (mul_nonneg hsp.le pu.le)]
      simp
    · have hsn : s < 0 := lt_of_le_of_ne (not_lt.1 hsp) hs0
      rw [if_neg (by rw [not_le]; exact mul_neg_of_neg_of_pos hsn pu)]
      simp only [Bool.true_or, if_true, scale_neg]
      by_cases hz : fill.getD 0 = 0
      · refine ⟨-1, 1, by linarith, ?_⟩
        rw [if_pos hz]
        simp
      · refine ⟨1, -1, by linarith, ?_⟩
        rw [if_neg hz]
        simp
  refine ⟨⟨some (l.p, m.p), (e, f), (x * (along l).1 / e, x * (along l).2 / f), (y * (along m).1 / e, y * (along m).2 / f), true⟩, ?_, fun c => ?_⟩
  · rw [hrun, hpar, hface]
    rfl
  · unfold MuteGeo.inside MuteGeo.from
    simp only [Bool.true_or, Bool.and_true, decide_eq_true_eq]
    rw [← strip_iff hne hp c]
    have e1 := cross_scale (e := e) (f := f) (x * (along l).1, x * (along l).2) (c.1 - l.p.1, c.2 - l.p.2)
    have e2 := cross_scale (e := e) (f := f) (y * (along m).1, y * (along m).2) (c.1 - m.p.1, c.2 - m.p.2)
    simp only at e1 e2
    have hef : 0 < e * f := mul_pos he hf
    rw [e1, e2, div_mul_div_comm, div_lt_iff₀ (mul_pos hef hef), zero_mul]
    have e3 : (x * (along l).1 * (c.2 - l.p.2) - x * (along l).2 * (c.1 - l.p.1)) * (y * (along m).1 * (c.2 - m.p.2) - y * (along m).2 * (c.1 - m.p.1)) =
        (x * (y * s)) * (((along l).1 * (c.2 - l.p.2) - (along l).2 * (c.1 - l.p.1)) * ((along l).1 * (c.2 - m.p.2) - (along l).2 * (c.1 - m.p.1))) := by
      rw [hs]; simp only; ring
    rw [e3]
    constructor
    · intro h
      by_contra hn
      push Not at hn
      have := mul_nonneg hxy.le hn
      linarith
    · exact fun h => mul_neg_of_pos_of_neg hxy h

end Verif
