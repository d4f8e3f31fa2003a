import Verif.Base.Tac
import Verif.Spec.Lines

/-!
Properties C20 and C21: closest points of segments.
-/

set_option linter.unusedSectionVars false
set_option autoImplicit false

namespace Geom.Lines.Props

open Spec DotSpace

section
variable {K V : Type} [Field K] [LinearOrder K] [IsStrictOrderedRing K] [AddCommGroup V] [Module K V] [DotSpace K V]

theorem inSeg_iff (l : Seg V) (x : V) :
    InSeg (K := K) l x ↔ ∃ t : K, 0 ≤ t ∧ t ≤ 1 ∧ x = l.a + t • (l.b - l.a) := by
  constructor
  · rintro ⟨u, v, hu, hv, h, rfl⟩
    refine ⟨v, hv, by linarith, ?_⟩
    obtain rfl : u = 1 - v := by linarith
    module
  · rintro ⟨t, h0, h1, rfl⟩
    exact ⟨1 - t, t, by linarith, h0, by ring, by module⟩

/-- The squared distance along a step. -/
theorem distSq_step (p q d : V) :
    distSq (K := K) p (q + d) = distSq p q - 2 * dot (p - q) d + dot d d := by
  have : p - (q + d) = (p - q) - d := by abel
  simp only [distSq, this, sub_dot, dot_sub, dot_comm d]
  ring

end

/-! ## C20 -/

section
variable {V : Type} [AddCommGroup V] [Module ℝ V] [DotSpace ℝ V]

/-- A segment with different end points: the result is a point of the segment, and no point of the
segment is closer to the query point. -/
theorem C20_closest (l : Seg V) (p : V) (h : l.a ≠ l.b) :
    ∃ q, closestPointOnLine l p = some q ∧ InSeg (K := ℝ) l q ∧
      ∀ x, InSeg (K := ℝ) l x → distSq (K := ℝ) p q ≤ distSq p x := by
  have hd : l.b - l.a ≠ 0 := sub_ne_zero.2 (Ne.symm h)
  have h0 : 0 < dot (l.b - l.a) (l.b - l.a) := dot_pos hd
  have hlen : 0 < √(dot (l.b - l.a) (l.b - l.a)) := Real.sqrt_pos.2 h0
  have hsq : √(dot (l.b - l.a) (l.b - l.a)) * √(dot (l.b - l.a) (l.b - l.a)) = dot (l.b - l.a) (l.b - l.a) :=
    Real.mul_self_sqrt h0.le
  unfold closestPointOnLine Seg.direction
  simp only [if_neg hlen.ne', smul_dot]
  generalize √(dot (l.b - l.a) (l.b - l.a)) = len at *
  generalize hP : dot (l.b - l.a) (p - l.a) = P at *
  have hP' : dot (p - l.a) (l.b - l.a) = P := by rw [dot_comm, hP]
  -- distances along the segment, as a polynomial
  have key : ∀ t : ℝ, distSq p (l.a + t • (l.b - l.a)) = distSq p l.a - 2 * t * P + t * t * (len * len) := by
    intro t
    rw [distSq_step, dot_smul, dot_smul, smul_dot, hP', ← hsq]
    ring
  have keyb : distSq p l.b = distSq p l.a - 2 * P + len * len := by
    have := key 1
    rw [one_smul, add_sub_cancel] at this
    rw [this]; ring
  split_ifs with h1 h2
  · refine ⟨l.a, rfl, (inSeg_iff l l.a).2 ⟨0, le_rfl, zero_le_one, by module⟩, fun x hx => ?_⟩
    obtain ⟨t, ht0, ht1, rfl⟩ := (inSeg_iff l x).1 hx
    rw [key]
    have hP0 : P < 0 := by
      by_contra hc
      have : 0 ≤ 1 / len * P := mul_nonneg (by positivity) (not_lt.1 hc)
      linarith
    nlinarith [mul_nonneg ht0 (neg_nonneg.2 hP0.le), mul_self_nonneg (t * len)]
  · refine ⟨l.b, rfl, (inSeg_iff l l.b).2 ⟨1, zero_le_one, le_rfl, by module⟩, fun x hx => ?_⟩
    obtain ⟨t, ht0, ht1, rfl⟩ := (inSeg_iff l x).1 hx
    rw [key, keyb]
    have hP0 : len * len < P := by
      have := (mul_lt_mul_iff_right₀ hlen).2 h2
      have e : len * (1 / len * P) = P := by field_simp
      linarith
    nlinarith [mul_nonneg (sub_nonneg.2 ht1) (sub_nonneg.2 hP0.le), mul_self_nonneg ((1 - t) * len), mul_nonneg (sub_nonneg.2 ht1) ht0]
  · have e : len * (1 / len * P) = P := by field_simp
    generalize hf : 1 / len * P = f at *
    have hq : l.a + f • (1 / len) • (l.b - l.a) = l.a + (f / len) • (l.b - l.a) := by
      rw [smul_smul, mul_one_div]
    refine ⟨_, rfl, (inSeg_iff l _).2 ⟨f / len, div_nonneg (not_lt.1 h1) hlen.le, (div_le_one hlen).2 (not_lt.1 h2), hq⟩, fun x hx => ?_⟩
    obtain ⟨t, ht0, ht1, rfl⟩ := (inSeg_iff l x).1 hx
    rw [hq, key, key, ← e]
    have e2 : f / len * len = f := by field_simp
    generalize f / len = g at *
    subst e2
    nlinarith [mul_self_nonneg ((t - g) * len)]

/-- `DistanceToLine` is the distance to the closest point: at most the distance to each point of the
segment, and reached. -/
theorem C20_distance (l : Seg V) (p : V) (h : l.a ≠ l.b) :
    ∃ r, distanceToLine l p = some r ∧ 0 ≤ r ∧ (∃ q, InSeg (K := ℝ) l q ∧ r * r = distSq q p) ∧
      ∀ x, InSeg (K := ℝ) l x → r * r ≤ distSq x p := by
  obtain ⟨q, hq, hin, hmin⟩ := C20_closest l p h
  have comm : ∀ x y : V, distSq (K := ℝ) x y = distSq y x := by
    intro x y
    have : x - y = -(y - x) := by abel
    rw [distSq, this, neg_dot, dot_neg, neg_neg, distSq]
  have hr : √(dot (q - p) (q - p)) * √(dot (q - p) (q - p)) = distSq q p := Real.mul_self_sqrt (dot_self_nonneg _)
  refine ⟨_, by rw [distanceToLine, hq]; rfl, Real.sqrt_nonneg _, ⟨q, hin, hr⟩, fun x hx => ?_⟩
  rw [hr, comm q, comm x]
  exact hmin x hx

/-- `DistanceSqToLine` is the least squared distance to a point of the segment. -/
theorem C20_distanceSq (l : Seg V) (p : V) (h : l.a ≠ l.b) :
    ∃ r, distanceSqToLine l p = some r ∧ (∃ q, InSeg (K := ℝ) l q ∧ r = distSq q p) ∧
      ∀ x, InSeg (K := ℝ) l x → r ≤ distSq x p := by
  obtain ⟨q, hq, hin, hmin⟩ := C20_closest l p h
  have comm : ∀ x y : V, distSq (K := ℝ) x y = distSq y x := by
    intro x y
    have : x - y = -(y - x) := by abel
    rw [distSq, this, neg_dot, dot_neg, neg_neg, distSq]
  refine ⟨_, by rw [distanceSqToLine, hq]; rfl, ⟨q, hin, rfl⟩, fun x hx => ?_⟩
  rw [comm x]
  have := hmin x hx
  rwa [comm p q] at this

/-- A degenerate segment gives no number at all. -/
theorem C20_degenerate (l : Seg V) (p : V) (h : l.a = l.b) : closestPointOnLine l p = none := by
  simp [closestPointOnLine, Seg.direction, h, zero_dot]

example : closestPointOnLine ⟨⟨3, 4⟩, ⟨3, 4⟩⟩ (⟨1, 2⟩ : V2 ℝ) = none := C20_degenerate _ _ rfl

/-- The statement without exclusion of the degenerate segment fails: the only point of the segment is
not returned. -/
theorem C20_degenerate_refuted :
    ¬ ∀ (l : Seg (V3 ℝ)) (p : V3 ℝ), ∃ q, closestPointOnLine l p = some q ∧ InSeg (K := ℝ) l q := by
  intro h
  obtain ⟨q, hq, -⟩ := h ⟨⟨1, 2, 3⟩, ⟨1, 2, 3⟩⟩ ⟨0, 0, 0⟩
  rw [C20_degenerate _ _ rfl] at hq
  cases hq

/-- A segment of the plane whose end points differ. -/
theorem sampleSeg : (Seg.mk (⟨0, 0⟩ : V2 ℝ) ⟨3, 4⟩).a ≠ (Seg.mk (⟨0, 0⟩ : V2 ℝ) ⟨3, 4⟩).b := by
  intro h
  have := congrArg V2.x h
  norm_num at this

example := C20_closest _ (⟨5, 0⟩ : V2 ℝ) sampleSeg
example := C20_distance _ (⟨5, 0⟩ : V2 ℝ) sampleSeg
example := C20_distanceSq _ (⟨5, 0⟩ : V2 ℝ) sampleSeg

end

/-! ## C21 -/

section
variable {K V : Type} [Field K] [LinearOrder K] [IsStrictOrderedRing K] [AddCommGroup V] [Module K V] [DotSpace K V]

theorem saturate_mem (t : K) : 0 ≤ saturate t ∧ saturate t ≤ 1 :=
  ⟨le_max_left _ _, max_le zero_le_one (min_le_left _ _)⟩

theorem saturate_mono {s t : K} (h : s ≤ t) : saturate s ≤ saturate t :=
  max_le_max le_rfl (min_le_min le_rfl h)

theorem saturate_cases (t : K) : (saturate t = 0 ∧ t < 0) ∨ (saturate t = t ∧ 0 ≤ t ∧ t ≤ 1) ∨ (saturate t = 1 ∧ 1 < t) := by
  unfold saturate
  rcases lt_or_ge t 0 with h | h
  · left; exact ⟨max_eq_left ((min_le_right _ _).trans h.le), h⟩
  · right
    rcases le_or_gt t 1 with h1 | h1
    · left; exact ⟨by rw [min_eq_right h1, max_eq_right h], h, h1⟩
    · right; exact ⟨by rw [min_eq_left h1.le, max_eq_right zero_le_one], h1⟩

/-- The clamped minimizer of a parabola over [0, 1]. -/
theorem saturate_opt {a m s' : K} (ha : 0 ≤ a) (h0 : 0 ≤ s') (h1 : s' ≤ 1) :
    0 ≤ (a * (saturate m - m)) * (s' - saturate m) := by
  rcases saturate_cases m with ⟨e, h⟩ | ⟨e, h, h'⟩ | ⟨e, h⟩ <;> rw [e]
  · have := mul_nonneg (mul_nonneg ha (neg_nonneg.2 h.le)) h0
    linarith
  · simp
  · have := mul_nonneg (mul_nonneg ha (sub_nonneg.2 h.le)) (sub_nonneg.2 h1)
    linarith

/-- After clamping `t` to 0 and recomputing `s`, the gradient in `t` still points inwards. -/
theorem reclamp {a b c e f : K} (ha : 0 < a) (hD : 0 ≤ a * e - b * b)
    (hpar : a * e - b * b = 0 → a * f = b * c)
    (h : b * (if a * e - b * b ≠ 0 then saturate ((b * f - c * e) / (a * e - b * b)) else 0) + f < 0) :
    b * saturate (-c / a) + f ≤ 0 := by
  have em : a * (-c / a) = -c := by field_simp
  generalize -c / a = m at *
  -- if the unclamped line is below zero at `m`, so it is at the clamped value
  have below : b * m + f ≤ 0 → (∃ o : K, 0 ≤ o ∧ o ≤ 1 ∧ b * o + f < 0) → b * saturate m + f ≤ 0 := by
    rintro h1 ⟨o, ho0, ho1, ho⟩
    rcases saturate_cases m with ⟨e, h⟩ | ⟨e, h, h'⟩ | ⟨e, h⟩ <;> rw [e]
    · rcases le_total 0 b with hb | hb
      · have := mul_nonneg hb ho0
        linarith
      · have := mul_nonneg_of_nonpos_of_nonpos hb h.le
        linarith
    · exact h1
    · rcases le_total 0 b with hb | hb
      · have := mul_nonneg hb (sub_nonneg.2 h.le)
        linarith
      · have := mul_nonneg_of_nonpos_of_nonpos hb (sub_nonpos.2 ho1)
        linarith
  by_cases hz : a * e - b * b = 0
  · rw [if_neg (not_not.2 hz)] at h
    refine below ?_ ⟨0, le_rfl, zero_le_one, h⟩
    have h2 : a * (b * m + f) = 0 := by
      linear_combination b * em + hpar hz
    rcases mul_eq_zero.1 h2 with h3 | h3
    · exact absurd h3 ha.ne'
    · exact h3.le
  · have hDp : 0 < a * e - b * b := lt_of_le_of_ne hD (Ne.symm hz)
    rw [if_pos hz] at h
    have es : (a * e - b * b) * ((b * f - c * e) / (a * e - b * b)) = b * f - c * e := mul_div_cancel₀ _ hz
    generalize (b * f - c * e) / (a * e - b * b) = s at *
    rcases le_or_gt (b * m + f) 0 with h1 | h1
    · exact below h1 ⟨saturate s, (saturate_mem s).1, (saturate_mem s).2, h⟩
    · -- the minimizer `s` is beyond `m`
      have h3 : (a * e - b * b) * (s - m) = b * (b * m + f) := by
        linear_combination es - e * em
      rcases le_total 0 b with hb | hb
      · have hsm : m ≤ s := by
          have : 0 ≤ (a * e - b * b) * (s - m) := by rw [h3]; exact mul_nonneg hb h1.le
          have := nonneg_of_mul_nonneg_right this hDp
          linarith
        have := mul_nonneg hb (sub_nonneg.2 (saturate_mono hsm))
        linarith
      · have hsm : s ≤ m := by
          have : (a * e - b * b) * (s - m) ≤ 0 := by rw [h3]; exact mul_nonpos_of_nonpos_of_nonneg hb h1.le
          have := nonpos_of_mul_nonpos_right this hDp
          linarith
        have := mul_nonneg_of_nonpos_of_nonpos hb (sub_nonpos.2 (saturate_mono hsm))
        linarith

/-- First order condition of the distance of two points on two lines; it is enough as the squared
distance is convex. -/
theorem optimal_of (u v r : V) (s t : K)
    (h : ∀ s' t' : K, 0 ≤ s' → s' ≤ 1 → 0 ≤ t' → t' ≤ 1 →
      0 ≤ (dot u r + s * dot u u - t * dot u v) * (s' - s) + (-dot v r - s * dot u v + t * dot v v) * (t' - t))
    (s' t' : K) (hs0 : 0 ≤ s') (hs1 : s' ≤ 1) (ht0 : 0 ≤ t') (ht1 : t' ≤ 1) :
    dot (r + s • u - t • v) (r + s • u - t • v) ≤ dot (r + s' • u - t' • v) (r + s' • u - t' • v) := by
  have h1 := h s' t' hs0 hs1 ht0 ht1
  have h2 : 0 ≤ dot ((s' - s) • u - (t' - t) • v) ((s' - s) • u - (t' - t) • v) := dot_self_nonneg _
  simp only [sub_dot, dot_sub, add_dot, dot_add, smul_dot, dot_smul, dot_comm v u, dot_comm r u, dot_comm r v] at *
  linarith

theorem cauchy (u v : V) : 0 ≤ dot u u * dot v v - dot u v * dot u v := by
  by_cases h : u = 0
  · subst h; simp [zero_dot]
  · have hp := dot_pos (K := K) h
    have : 0 ≤ dot (dot u u • v - dot u v • u) (dot u u • v - dot u v • u) := dot_self_nonneg _
    simp only [sub_dot, dot_sub, smul_dot, dot_smul, dot_comm v u] at this
    have h2 : 0 ≤ dot u u * (dot u u * dot v v - dot u v * dot u v) := by linarith
    exact nonneg_of_mul_nonneg_right h2 hp

/-- Parallel vectors have proportional dot products. -/
theorem parallel (u v r : V) (h : dot u u * dot v v - dot u v * dot u v = 0) :
    dot u u * dot v r = dot u v * dot u r := by
  have h0 : dot (dot u u • v - dot u v • u) (dot u u • v - dot u v • u) = 0 := by
    simp only [sub_dot, dot_sub, smul_dot, dot_smul, dot_comm v u]
    linear_combination (dot u u) * h
  have h1 := eq_zero_of_dot _ h0
  have h2 : dot (dot u u • v - dot u v • u) r = 0 := by rw [h1, zero_dot]
  simp only [sub_dot, smul_dot] at h2
  linarith

/-- The parameters are in the unit square and the distance satisfies the first order condition. -/
theorem params_scalar {eps a b c e f s t : K} (heps : 0 ≤ eps)
    (hA : a ≤ eps → a = 0) (hB : e ≤ eps → e = 0)
    (hc : 0 ≤ a * e - b * b) (hpar : a * e - b * b = 0 → a * f = b * c)
    (hb0 : a = 0 → b = 0) (hb1 : e = 0 → b = 0) (hc0 : a = 0 → c = 0) (hf0 : e = 0 → f = 0)
    (h : (if a ≤ eps ∧ e ≤ eps then none
      else if a ≤ eps then some (0, saturate (f / e))
      else if e ≤ eps then some (saturate (-c / a), 0)
      else if (b * (if a * e - b * b ≠ 0 then saturate ((b * f - c * e) / (a * e - b * b)) else 0) + f) / e < 0
      then some (saturate (-c / a), 0)
      else if (b * (if a * e - b * b ≠ 0 then saturate ((b * f - c * e) / (a * e - b * b)) else 0) + f) / e > 1
      then some (saturate ((b - c) / a), 1)
      else some (if a * e - b * b ≠ 0 then saturate ((b * f - c * e) / (a * e - b * b)) else 0,
        (b * (if a * e - b * b ≠ 0 then saturate ((b * f - c * e) / (a * e - b * b)) else 0) + f) / e)) = some (s, t)) :
    (0 ≤ s ∧ s ≤ 1 ∧ 0 ≤ t ∧ t ≤ 1) ∧
    ∀ s' t' : K, 0 ≤ s' → s' ≤ 1 → 0 ≤ t' → t' ≤ 1 →
      0 ≤ (c + s * a - t * b) * (s' - s) + (-f - s * b + t * e) * (t' - t) := by
  by_cases h1 : a ≤ eps ∧ e ≤ eps
  · rw [if_pos h1] at h; cases h
  rw [if_neg h1] at h
  by_cases h2 : a ≤ eps
  · -- the first segment is a point
    rw [if_pos h2] at h
    simp only [Option.some.injEq, Prod.mk.injEq] at h
    obtain ⟨rfl, rfl⟩ := h
    refine ⟨⟨le_rfl, zero_le_one, saturate_mem _⟩, fun s' t' hs0 hs1 ht0 ht1 => ?_⟩
    have a0 := hA h2
    have he : 0 < e := by
      by_contra hc
      exact h1 ⟨h2, by linarith⟩
    have := saturate_opt (m := f / e) he.le ht0 ht1
    have e1 : e * (saturate (f / e) - f / e) = -f + saturate (f / e) * e := by field_simp; ring
    rw [e1] at this
    rw [a0, hb0 a0, hc0 a0]
    linarith
  rw [if_neg h2] at h
  have ha : 0 < a := by linarith
  have optS : ∀ m : K, ∀ s' : K, 0 ≤ s' → s' ≤ 1 → 0 ≤ (saturate (m / a) * a - m) * (s' - saturate (m / a)) := by
    intro m s' hs0 hs1
    have := saturate_opt (m := m / a) ha.le hs0 hs1
    have e1 : a * (saturate (m / a) - m / a) = saturate (m / a) * a - m := by field_simp
    rwa [e1] at this
  by_cases h3 : e ≤ eps
  · -- the second segment is a point
    rw [if_pos h3] at h
    simp only [Option.some.injEq, Prod.mk.injEq] at h
    obtain ⟨rfl, rfl⟩ := h
    refine ⟨⟨(saturate_mem _).1, (saturate_mem _).2, le_rfl, zero_le_one⟩, fun s' t' hs0 hs1 ht0 ht1 => ?_⟩
    have e0 := hB h3
    have := optS (-c) s' hs0 hs1
    rw [e0, hb1 e0, hf0 e0]
    linarith
  rw [if_neg h3] at h
  have he : 0 < e := by linarith
  by_cases h4 : (b * (if a * e - b * b ≠ 0 then saturate ((b * f - c * e) / (a * e - b * b)) else 0) + f) / e < 0
  · -- `t` clamped to 0
    rw [if_pos h4] at h
    simp only [Option.some.injEq, Prod.mk.injEq] at h
    obtain ⟨rfl, rfl⟩ := h
    refine ⟨⟨(saturate_mem _).1, (saturate_mem _).2, le_rfl, zero_le_one⟩, fun s' t' hs0 hs1 ht0 ht1 => ?_⟩
    have h5 := reclamp ha hc hpar (neg_of_div_neg_left h4 he.le)
    have := optS (-c) s' hs0 hs1
    have := mul_nonneg (neg_nonneg.2 h5) ht0
    linarith
  rw [if_neg h4] at h
  by_cases h5 : (b * (if a * e - b * b ≠ 0 then saturate ((b * f - c * e) / (a * e - b * b)) else 0) + f) / e > 1
  · -- `t` clamped to 1
    rw [if_pos h5] at h
    simp only [Option.some.injEq, Prod.mk.injEq] at h
    obtain ⟨rfl, rfl⟩ := h
    refine ⟨⟨(saturate_mem _).1, (saturate_mem _).2, zero_le_one, le_rfl⟩, fun s' t' hs0 hs1 ht0 ht1 => ?_⟩
    have h6 := (one_lt_div he).1 h5
    have h7 := reclamp (a := a) (b := -b) (c := c - b) (e := e) (f := e - f) ha (by linarith)
      (fun hz => by
        have hz' : a * e - b * b = 0 := by linarith
        linear_combination hz' - hpar hz') (by
        have e1 : a * e - -b * -b = a * e - b * b := by ring
        have e2 : -b * (e - f) - (c - b) * e = b * f - c * e := by ring
        rw [e1, e2]
        linarith)
    rw [neg_sub] at h7
    have := optS (b - c) s' hs0 hs1
    have := mul_nonneg (neg_nonneg.2 h7) (sub_nonneg.2 ht1)
    linarith
  · -- no clamping of `t`
    rw [if_neg h5] at h
    simp only [Option.some.injEq, Prod.mk.injEq] at h
    obtain ⟨rfl, rfl⟩ := h
    refine ⟨⟨?_, ?_, not_lt.1 h4, not_lt.1 h5⟩, fun s' t' hs0 hs1 ht0 ht1 => ?_⟩
    · split_ifs
      · exact (saturate_mem _).1
      · exact le_rfl
    · split_ifs
      · exact (saturate_mem _).2
      · exact zero_le_one
    · by_cases hz : a * e - b * b = 0
      · rw [if_neg (not_not.2 hz)]
        have e1 : c + 0 * a - (b * 0 + f) / e * b = 0 := by
          have h8 : a * (c * e - f * b) = 0 := by linear_combination c * hz - b * hpar hz
          have h9 := (mul_eq_zero.1 h8).resolve_left ha.ne'
          field_simp
          linear_combination h9
        have e2 : -f - 0 * b + (b * 0 + f) / e * e = 0 := by field_simp; ring
        rw [e1, e2]; simp
      · rw [if_pos hz]
        have := saturate_opt (m := (b * f - c * e) / (a * e - b * b)) (div_nonneg hc he.le) hs0 hs1
        have es : (a * e - b * b) * ((b * f - c * e) / (a * e - b * b)) = b * f - c * e := mul_div_cancel₀ _ hz
        generalize (b * f - c * e) / (a * e - b * b) = m at *
        have e1 : c + saturate m * a - (b * saturate m + f) / e * b = (a * e - b * b) / e * (saturate m - m) := by
          field_simp
          linear_combination es
        have e2 : -f - saturate m * b + (b * saturate m + f) / e * e = 0 := by field_simp; ring
        rw [e1, e2]
        linarith

/-- The end points of the result lie on the two segments, and no two points of the segments are
closer. `eps` is the tolerance below which a segment counts as a point: segments with a squared length
up to `eps` have to be points. -/
theorem C21_closest (eps : K) (heps : 0 ≤ eps) (A B : Seg V)
    (hA : distSq (K := K) A.a A.b ≤ eps → A.a = A.b) (hB : distSq (K := K) B.a B.b ≤ eps → B.a = B.b) :
    InSeg (K := K) A (closestSegment eps A B).a ∧ InSeg (K := K) B (closestSegment eps A B).b ∧
    ∀ x y, InSeg (K := K) A x → InSeg (K := K) B y →
      distSq (K := K) (closestSegment eps A B).a (closestSegment eps A B).b ≤ distSq x y := by
  have hdist : ∀ l : Seg V, distSq (K := K) l.a l.b = dot l.direction l.direction := by
    intro l
    have : l.a - l.b = -(l.b - l.a) := by abel
    rw [distSq, this, neg_dot, dot_neg, neg_neg, Seg.direction]
  have hzero : ∀ l : Seg V, l.a = l.b → l.direction = 0 := fun l h => by rw [Seg.direction, h, sub_self]
  rw [hdist] at hA hB
  unfold closestSegment
  cases h : closestParams eps A B with
  | none =>
    have h1 : dot (K := K) A.direction A.direction ≤ eps ∧ dot (K := K) B.direction B.direction ≤ eps := by
      by_contra hn
      unfold closestParams at h
      simp only [if_neg hn] at h
      split_ifs at h
    have eA := hzero A (hA h1.1)
    have eB := hzero B (hB h1.2)
    refine ⟨(inSeg_iff A _).2 ⟨0, le_rfl, zero_le_one, by module⟩, (inSeg_iff B _).2 ⟨0, le_rfl, zero_le_one, by module⟩, ?_⟩
    intro x y hx hy
    obtain ⟨s, -, -, rfl⟩ := (inSeg_iff A x).1 hx
    obtain ⟨t, -, -, rfl⟩ := (inSeg_iff B y).1 hy
    rw [Seg.direction] at eA eB
    rw [eA, eB, smul_zero, smul_zero, add_zero, add_zero]
  | some st =>
    obtain ⟨s, t⟩ := st
    have hzA : dot (K := K) A.direction A.direction = 0 → A.direction = 0 := eq_zero_of_dot _
    have hzB : dot (K := K) B.direction B.direction = 0 → B.direction = 0 := eq_zero_of_dot _
    obtain ⟨⟨s0, s1, t0, t1⟩, hopt⟩ := params_scalar heps
      (fun h => by rw [hzero A (hA h), zero_dot]) (fun h => by rw [hzero B (hB h), zero_dot])
      (cauchy A.direction B.direction) (parallel A.direction B.direction (A.a - B.a))
      (fun h => by rw [hzA h, zero_dot]) (fun h => by rw [hzB h, dot_zero]) (fun h => by rw [hzA h, zero_dot])
      (fun h => by rw [hzB h, zero_dot]) h
    have hmin := optimal_of A.direction B.direction (A.a - B.a) s t hopt
    refine ⟨(inSeg_iff A _).2 ⟨s, s0, s1, by simp only [Seg.direction]; module⟩,
      (inSeg_iff B _).2 ⟨t, t0, t1, by simp only [Seg.direction]; module⟩, ?_⟩
    intro x y hx hy
    obtain ⟨s', hs0, hs1, rfl⟩ := (inSeg_iff A x).1 hx
    obtain ⟨t', ht0, ht1, rfl⟩ := (inSeg_iff B y).1 hy
    have := hmin s' t' hs0 hs1 ht0 ht1
    have e1 : s • A.direction + A.a - (t • B.direction + B.a) = A.a - B.a + s • A.direction - t • B.direction := by module
    have e2 : A.a + s' • (A.b - A.a) - (B.a + t' • (B.b - B.a)) = A.a - B.a + s' • A.direction - t' • B.direction := by
      simp only [Seg.direction]; module
    rw [distSq, distSq, e1, e2]
    exact this

example := C21_closest (1 / 1000) (by norm_num) (⟨⟨0, 0, 0⟩, ⟨2, 0, 0⟩⟩ : Seg (V3 ℚ)) ⟨⟨1, -1, 1⟩, ⟨1, 3, 1⟩⟩ (by decide +kernel) (by decide +kernel)

/-- `DistanceSqBetweenLines` is the least squared distance. -/
theorem C21_distanceSq (eps : K) (heps : 0 ≤ eps) (A B : Seg V)
    (hA : distSq (K := K) A.a A.b ≤ eps → A.a = A.b) (hB : distSq (K := K) B.a B.b ≤ eps → B.a = B.b) :
    (∃ x y, InSeg (K := K) A x ∧ InSeg (K := K) B y ∧ distanceSqBetween eps A B = distSq x y) ∧
    ∀ x y, InSeg (K := K) A x → InSeg (K := K) B y → distanceSqBetween eps A B ≤ distSq x y := by
  obtain ⟨h1, h2, h3⟩ := C21_closest eps heps A B hA hB
  have e : distanceSqBetween eps A B = distSq (closestSegment eps A B).a (closestSegment eps A B).b := by
    have : (closestSegment eps A B).a - (closestSegment eps A B).b =
      -((closestSegment eps A B).b - (closestSegment eps A B).a) := by abel
    rw [distSq, this, neg_dot, dot_neg, neg_neg, distanceSqBetween, Seg.direction]
  exact ⟨⟨_, _, h1, h2, e⟩, fun x y hx hy => by rw [e]; exact h3 x y hx hy⟩

example := C21_distanceSq (1 / 1000) (by norm_num) (⟨⟨0, 0, 0⟩, ⟨2, 0, 0⟩⟩ : Seg (V3 ℚ)) ⟨⟨1, -1, 1⟩, ⟨1, 3, 1⟩⟩ (by decide +kernel) (by decide +kernel)

/-- `DistanceBetweenLines` is the least distance. -/
theorem C21_distance {V : Type} [AddCommGroup V] [Module ℝ V] [DotSpace ℝ V] (eps : ℝ) (heps : 0 ≤ eps) (A B : Seg V)
    (hA : distSq (K := ℝ) A.a A.b ≤ eps → A.a = A.b) (hB : distSq (K := ℝ) B.a B.b ≤ eps → B.a = B.b) :
    0 ≤ distanceBetween eps A B ∧
    (∃ x y, InSeg (K := ℝ) A x ∧ InSeg (K := ℝ) B y ∧ distanceBetween eps A B * distanceBetween eps A B = distSq x y) ∧
    ∀ x y, InSeg (K := ℝ) A x → InSeg (K := ℝ) B y → distanceBetween eps A B * distanceBetween eps A B ≤ distSq x y := by
  have e : distanceBetween eps A B * distanceBetween eps A B = distanceSqBetween eps A B :=
    Real.mul_self_sqrt (dot_self_nonneg _)
  rw [e]
  exact ⟨Real.sqrt_nonneg _, C21_distanceSq eps heps A B hA hB⟩

example := C21_distance (1 / 1000) (by norm_num) (⟨⟨0, 0⟩, ⟨2, 0⟩⟩ : Seg (V2 ℝ)) ⟨⟨1, 1⟩, ⟨1, 3⟩⟩
  (by intro h; norm_num [distSq, DotSpace.dot, V2.dot] at h) (by intro h; norm_num [distSq, DotSpace.dot, V2.dot] at h)

/-- Without the assumption on short segments the claim fails: a segment of squared length within the
tolerance is replaced by its first end point. -/
theorem C21_short_refuted :
    ¬ ∀ (eps : ℚ) (A B : Seg (V2 ℚ)), 0 < eps → ∀ x y, InSeg (K := ℚ) A x → InSeg (K := ℚ) B y →
      distSq (K := ℚ) (closestSegment eps A B).a (closestSegment eps A B).b ≤ distSq x y := by
  intro h
  have := h (1 / 100) ⟨⟨0, 0⟩, ⟨1 / 10, 0⟩⟩ ⟨⟨1, 0⟩, ⟨1, 1⟩⟩ (by norm_num) ⟨1 / 10, 0⟩ ⟨1, 0⟩
    ⟨0, 1, by norm_num, by norm_num, by norm_num, by ext <;> simp⟩ ⟨1, 0, by norm_num, by norm_num, by norm_num, by ext <;> simp⟩
  revert this
  decide +kernel

/-- Skew segments in space: both parameters are inside. -/
example :
    let A : Seg (V3 ℚ) := ⟨⟨0, 0, 0⟩, ⟨2, 0, 0⟩⟩
    let B : Seg (V3 ℚ) := ⟨⟨1, -1, 1⟩, ⟨1, 3, 1⟩⟩
    closestParams (1 / 1000) A B = some (1 / 2, 1 / 4) ∧ closestSegment (1 / 1000) A B = ⟨⟨1, 0, 0⟩, ⟨1, 0, 1⟩⟩ ∧
      (distSq (K := ℚ) A.a A.b ≤ 1 / 1000 → A.a = A.b) := by
  decide +kernel

/-- Both clamping branches are reached. -/
example :
    closestParams (1 / 1000 : ℚ) (⟨⟨0, 0⟩, ⟨1, 0⟩⟩ : Seg (V2 ℚ)) ⟨⟨2, 1⟩, ⟨3, 2⟩⟩ = some (1, 0) ∧
    closestParams (1 / 1000 : ℚ) (⟨⟨0, 0⟩, ⟨4, 0⟩⟩ : Seg (V2 ℚ)) ⟨⟨2, 3⟩, ⟨1, 1⟩⟩ = some (1 / 4, 1) := by
  decide +kernel

end

end Geom.Lines.Props
