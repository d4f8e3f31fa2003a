import Verif.Props.Plane

/-!
Properties C14-C16: intersection of planes with rays, segments and planes.
-/

set_option linter.unusedSectionVars false
set_option autoImplicit false

namespace Geom.Plane.Props

open Spec

variable {K : Type} [Field K] [LinearOrder K] [IsStrictOrderedRing K]

/-! ## C16 -/

theorem side_at (eq : Eqn) (p : Pl K) (o d : V3 K) (t : K) :
    side eq p (at_ o d t) = side eq p o + t * V3.dot p.normal d := by
  cases eq <;> simp only [side, at_, V3.dot] <;> ring

theorem interp_ne (nz : Bool) (eq : Eqn) (p : Pl K) (o d : V3 K) (h : V3.dot p.normal d ≠ 0) :
    interp nz eq p o d = .fin (-side eq p o / V3.dot p.normal d) := by
  rw [interp, Ext.div_ne h, sgnDistance_eq]

theorem on_at_iff (eq : Eqn) (p : Pl K) (o d : V3 K) (h : V3.dot p.normal d ≠ 0) (t : K) :
    On eq p (at_ o d t) ↔ t = -side eq p o / V3.dot p.normal d := by
  rw [on_iff, side_at, eq_div_iff h]
  exact ⟨fun h => by linear_combination h, fun h => by linear_combination h⟩

theorem ray_lerp (r : Ray K) (t : K) : r.lerp t = at_ r.origin r.direction t := by
  ext <;> simp [Ray.lerp, at_] <;> ring

theorem line_lerp (l : Line K) (t : K) : l.lerp t = at_ l.a l.direction t := by
  ext <;> simp [Line.lerp, at_, Line.direction]

/-- A ray which is not parallel to the plane: hit exactly if the plane is met at some t ≥ 0; the
point returned is the one point of the ray on the plane. -/
theorem C16_ray_partial (nz : Bool) (eq : Eqn) (p : Pl K) (r : Ray K) (h : V3.dot p.normal r.direction ≠ 0) :
    (∀ x, intersectRay nz eq p r = .point x ↔ ∃ t, 0 ≤ t ∧ x = at_ r.origin r.direction t ∧ On eq p x) ∧
    (intersectRay nz eq p r = .none ↔ ¬ ∃ t, 0 ≤ t ∧ On eq p (at_ r.origin r.direction t)) := by
  set k := -side eq p r.origin / V3.dot p.normal r.direction with hk
  have hr : intersectRay nz eq p r = if 0 ≤ k then .point (at_ r.origin r.direction k) else .none := by
    simp only [intersectRay, interp_ne nz eq p _ _ h, Ext.ge, ← hk, ray_lerp, decide_eq_true_eq]
  rw [hr]
  by_cases h0 : 0 ≤ k
  · rw [if_pos h0]
    refine ⟨fun x => ⟨fun hx => ?_, ?_⟩, ⟨fun hx => (by cases hx), fun hx => ?_⟩⟩
    · injection hx with hx
      exact ⟨k, h0, hx.symm, hx ▸ (on_at_iff eq p _ _ h k).2 rfl⟩
    · rintro ⟨t, -, rfl, ht⟩
      rw [(on_at_iff eq p _ _ h t).1 ht]
    · exact absurd ⟨k, h0, (on_at_iff eq p _ _ h k).2 rfl⟩ hx
  · rw [if_neg h0]
    refine ⟨fun x => ⟨fun hx => (by cases hx), ?_⟩, ⟨fun _ => ?_, fun _ => rfl⟩⟩
    · rintro ⟨t, ht, rfl, ho⟩
      rw [(on_at_iff eq p _ _ h t).1 ho] at ht
      exact absurd ht h0
    · rintro ⟨t, ht, ho⟩
      rw [(on_at_iff eq p _ _ h t).1 ho] at ht
      exact absurd ht h0

/-- The same for a segment, with 0 ≤ t ≤ 1. -/
theorem C16_segment_partial (nz : Bool) (eq : Eqn) (p : Pl K) (l : Line K) (h : V3.dot p.normal (l.b - l.a) ≠ 0) :
    (∀ x, intersectLine nz eq p l = .point x ↔ ∃ t, 0 ≤ t ∧ t ≤ 1 ∧ x = at_ l.a (l.b - l.a) t ∧ On eq p x) ∧
    (intersectLine nz eq p l = .none ↔ ¬ ∃ t, 0 ≤ t ∧ t ≤ 1 ∧ On eq p (at_ l.a (l.b - l.a) t)) := by
  set k := -side eq p l.a / V3.dot p.normal (l.b - l.a) with hk
  have hr : intersectLine nz eq p l = if 0 ≤ k ∧ k ≤ 1 then .point (at_ l.a (l.b - l.a) k) else .none := by
    simp only [intersectLine, Line.direction, interp_ne nz eq p _ _ h, Ext.ge, Ext.le, ← hk, line_lerp, Bool.and_eq_true, decide_eq_true_eq]
  rw [hr]
  by_cases h0 : 0 ≤ k ∧ k ≤ 1
  · rw [if_pos h0]
    refine ⟨fun x => ⟨fun hx => ?_, ?_⟩, ⟨fun hx => (by cases hx), fun hx => ?_⟩⟩
    · injection hx with hx
      exact ⟨k, h0.1, h0.2, hx.symm, hx ▸ (on_at_iff eq p _ _ h k).2 rfl⟩
    · rintro ⟨t, -, -, rfl, ht⟩
      rw [(on_at_iff eq p _ _ h t).1 ht]
    · exact absurd ⟨k, h0.1, h0.2, (on_at_iff eq p _ _ h k).2 rfl⟩ hx
  · rw [if_neg h0]
    refine ⟨fun x => ⟨fun hx => (by cases hx), ?_⟩, ⟨fun _ => ?_, fun _ => rfl⟩⟩
    · rintro ⟨t, t0, t1, rfl, ho⟩
      rw [(on_at_iff eq p _ _ h t).1 ho] at t0 t1
      exact absurd ⟨t0, t1⟩ h0
    · rintro ⟨t, t0, t1, ho⟩
      rw [(on_at_iff eq p _ _ h t).1 ho] at t0 t1
      exact absurd ⟨t0, t1⟩ h0

/-- A parallel segment is never reported as a hit, on the plane or off it. -/
theorem C16_parallel_segment_partial (nz : Bool) (eq : Eqn) (p : Pl K) (l : Line K)
    (h : V3.dot p.normal (l.b - l.a) = 0) : intersectLine nz eq p l = .none := by
  simp only [intersectLine, Line.direction, interp, Ext.div, h, if_true]
  split_ifs <;> simp_all [Ext.ge, Ext.le]

/-- What happens for a ray parallel to the plane: it is reported as a hit (at infinity) exactly if
the origin is off the plane, on its back side if the divisor is +0, on its front side if it is -0. -/
theorem C16_parallel_ray_refuted (nz : Bool) (eq : Eqn) (p : Pl K) (r : Ray K) (h : V3.dot p.normal r.direction = 0) :
    intersectRay nz eq p r =
      if (nz = false ∧ sgnDistance eq p r.origin < 0) ∨ (nz = true ∧ 0 < sgnDistance eq p r.origin) then .infinite else .none := by
  simp only [intersectRay, interp, Ext.div, h, if_true]
  generalize sgnDistance eq p r.origin = s
  rcases lt_trichotomy s 0 with hs | hs | hs
  · cases nz <;> simp [hs, hs.ne, not_lt.2 hs.le, Ext.ge]
  · subst hs; simp [Ext.ge]
  · cases nz <;> simp [hs, hs.ne', not_lt.2 hs.le, Ext.ge]

/-- A ray parallel to the plane, one below it, is a hit. -/
theorem C16_refuted : ∃ (p : Pl ℚ) (r : Ray ℚ), (∀ t, ¬ On .nxEqD p (at_ r.origin r.direction t)) ∧
    intersectRay false .nxEqD p r = .infinite := by
  refine ⟨⟨⟨0, 0, 1⟩, 1⟩, ⟨0, ⟨1, 0, 0⟩⟩, fun t => ?_, by decide +kernel⟩
  simp [On, at_]

/-- A ray and a segment which hit, and a ray which does not. -/
example : intersectRay false .nxEqD (⟨⟨0, 0, 1⟩, 1⟩ : Pl ℚ) ⟨0, ⟨1, 0, 2⟩⟩ = .point ⟨1/2, 0, 1⟩ ∧
    intersectLine false .nxdEqZero (⟨⟨0, 0, 1⟩, -1⟩ : Pl ℚ) ⟨0, ⟨1, 0, 2⟩⟩ = .point ⟨1/2, 0, 1⟩ ∧
    intersectRay false .nxEqD (⟨⟨0, 0, 1⟩, -1⟩ : Pl ℚ) ⟨0, ⟨1, 0, 2⟩⟩ = .none := by decide +kernel

/-! ## C14: two planes -/

/-- The outcome of the two-plane query. -/
theorem C14_line (eq : Eqn) (a b : Pl K) (e : K) (he : 0 ≤ e) (r : Ray K) (h : intersect2 eq a b e = some r) (x : V3 K) :
    (On eq a x ∧ On eq b x) ↔ ∃ t, x = at_ r.origin r.direction t := by
  simp only [intersect2] at h
  split at h
  · rename_i hd
    injection h with h
    subst h
    obtain ⟨⟨a1, a2, a3⟩, da⟩ := a
    obtain ⟨⟨b1, b2, b3⟩, db⟩ := b
    obtain ⟨x1, x2, x3⟩ := x
    set A := eq.distanceSign da with hA
    set B := eq.distanceSign db with hB
    have oa : On eq ⟨⟨a1, a2, a3⟩, da⟩ ⟨x1, x2, x3⟩ ↔ a1 * x1 + a2 * x2 + a3 * x3 = A := by
      cases eq
      · exact Iff.rfl
      · simp only [On, hA, Eqn.distanceSign]; exact ⟨fun h => by linear_combination h, fun h => by linear_combination h⟩
    have ob : On eq ⟨⟨b1, b2, b3⟩, db⟩ ⟨x1, x2, x3⟩ ↔ b1 * x1 + b2 * x2 + b3 * x3 = B := by
      cases eq
      · exact Iff.rfl
      · simp only [On, hB, Eqn.distanceSign]; exact ⟨fun h => by linear_combination h, fun h => by linear_combination h⟩
    rw [oa, ob]
    simp only [V3.dot, V3.cross_x, V3.cross_y, V3.cross_z] at hd
    set D := (a2 * b3 - a3 * b2) * (a2 * b3 - a3 * b2) + (a3 * b1 - a1 * b3) * (a3 * b1 - a1 * b3) +
      (a1 * b2 - a2 * b1) * (a1 * b2 - a2 * b1) with hD
    have hD0 : D ≠ 0 := (lt_of_le_of_lt he hd).ne'
    have hi : D * (1 / D) = 1 := by field_simp
    simp only [V3.dot, V3.cross_x, V3.cross_y, V3.cross_z, at_, V3.mk.injEq, V3.smul_x, V3.smul_y, V3.smul_z, V3.sub_x, V3.sub_y,
      V3.sub_z, ← hD]
    generalize 1 / D = i at *
    constructor
    · rintro ⟨h1, h2⟩
      refine ⟨i * (x1 * (a2 * b3 - a3 * b2) + x2 * (a3 * b1 - a1 * b3) + x3 * (a1 * b2 - a2 * b1)), ?_, ?_, ?_⟩
      · rw [← h1, ← h2]
        linear_combination -x1 * hi + i * x1 * hD
      · rw [← h1, ← h2]
        linear_combination -x2 * hi + i * x2 * hD
      · rw [← h1, ← h2]
        linear_combination -x3 * hi + i * x3 * hD
    · rintro ⟨t, rfl, rfl, rfl⟩
      constructor
      · linear_combination A * hi - i * A * hD
      · linear_combination B * hi - i * B * hD
  · cases h

/-- It fails exactly if the squared length of the cross product is at most epsilon. -/
theorem C14_fails (eq : Eqn) (a b : Pl K) (e : K) :
    intersect2 eq a b e = none ↔ (V3.cross a.normal b.normal).lenSq ≤ e := by
  simp only [intersect2]
  split
  · rename_i h
    simpa [V3.lenSq] using h
  · rename_i h
    simpa [V3.lenSq] using h

/-- The direction of the line is perpendicular to both normals and not zero. -/
theorem C14_direction (eq : Eqn) (a b : Pl K) (e : K) (he : 0 ≤ e) (r : Ray K) (h : intersect2 eq a b e = some r) :
    V3.dot a.normal r.direction = 0 ∧ V3.dot b.normal r.direction = 0 ∧ r.direction ≠ 0 := by
  simp only [intersect2] at h
  split at h
  · rename_i hd
    injection h with h
    subst h
    refine ⟨?_, ?_, fun h => ?_⟩
    · simp only [V3.dot, V3.cross_x, V3.cross_y, V3.cross_z]; ring
    · simp only [V3.dot, V3.cross_x, V3.cross_y, V3.cross_z]; ring
    · simp only at h
      rw [h] at hd
      simp [V3.dot] at hd
      exact absurd hd (not_lt.2 he)
  · cases h

/-- Two planes which are not perpendicular. -/
example : intersect2 .nxEqD (⟨⟨1, 0, 0⟩, 2⟩ : Pl ℚ) ⟨⟨1, 1, 0⟩, 5⟩ (1/1000) = some ⟨⟨2, 3, 0⟩, ⟨0, 0, 1⟩⟩ := by decide +kernel

/-! ## C15: three planes -/

/-- If the query succeeds with a point, the point lies on the three planes. -/
theorem C15_sound_partial (nz : Bool) (eq : Eqn) (a b c : Pl K) (e : K) (he : 0 ≤ e) (x : V3 K)
    (h : intersect3 nz eq a b c e = .point x) : On eq a x ∧ On eq b x ∧ On eq c x := by
  unfold intersect3 at h
  split at h
  · rename_i r hr
    by_cases hd : V3.dot c.normal r.direction = 0
    · rw [C16_parallel_ray_refuted nz eq c r hd] at h
      split at h <;> cases h
    · obtain ⟨t, -, rfl, ho⟩ := ((C16_ray_partial nz eq c r hd).1 x).1 h
      have := (C14_line eq a b e he r hr _).2 ⟨t, rfl⟩
      exact ⟨this.1, this.2, ho⟩
  · cases h

theorem det_eq (a b c : V3 K) : V3.dot c (V3.cross a b) = det a b c := by
  simp only [V3.dot, V3.cross_x, V3.cross_y, V3.cross_z, det]; ring

theorem intersect2_eq (eq : Eqn) (a b : Pl K) (e : K) (h : e < (V3.cross a.normal b.normal).lenSq) :
    ∃ o, intersect2 eq a b e = some ⟨o, V3.cross a.normal b.normal⟩ := by
  have h' : V3.dot (V3.cross a.normal b.normal) (V3.cross a.normal b.normal) > e := h
  simp only [intersect2, if_pos h']
  exact ⟨_, rfl⟩

/-- For independent normals there is exactly one common point; the query returns it if it lies in
the direction of the cross product of the first two normals (seen from the point of their line which
is nearest to the origin), and otherwise reports that there is none. -/
theorem C15_complete_partial (nz : Bool) (eq : Eqn) (a b c : Pl K) (e : K) (he : 0 ≤ e)
    (h2 : e < (V3.cross a.normal b.normal).lenSq) (h3 : det a.normal b.normal c.normal ≠ 0) :
    ∃ x, (∀ y, (On eq a y ∧ On eq b y ∧ On eq c y) ↔ y = x) ∧
      (intersect3 nz eq a b c e = if 0 ≤ V3.dot x (V3.cross a.normal b.normal) then .point x else .none) := by
  obtain ⟨o, ho⟩ := intersect2_eq eq a b e h2
  have hd : V3.dot c.normal (V3.cross a.normal b.normal) ≠ 0 := by rw [det_eq]; exact h3
  set d := V3.cross a.normal b.normal with hdd
  set k := -side eq c o / V3.dot c.normal d with hk
  have hline := C14_line eq a b e he _ ho
  simp only at hline
  refine ⟨at_ o d k, fun y => ⟨?_, ?_⟩, ?_⟩
  · rintro ⟨h1, h2, h3⟩
    obtain ⟨t, rfl⟩ := (hline y).1 ⟨h1, h2⟩
    rw [(on_at_iff eq c o d hd t).1 h3]
  · rintro rfl
    have := (hline _).2 ⟨k, rfl⟩
    exact ⟨this.1, this.2, (on_at_iff eq c o d hd k).2 rfl⟩
  · have hr : intersect3 nz eq a b c e = if 0 ≤ k then .point (at_ o d k) else .none := by
      simp only [intersect3, ho, intersectRay, interp_ne nz eq c _ _ hd, Ext.ge, ← hk, ray_lerp, decide_eq_true_eq]
    rw [hr]
    have hl : 0 < d.lenSq := lt_of_le_of_lt he h2
    have ood : V3.dot o d = 0 := by
      have h' : V3.dot d d > e := h2
      simp only [intersect2, ← hdd, if_pos h'] at ho
      injection ho with ho
      injection ho with ho
      rw [← ho]
      simp only [V3.dot, V3.cross_x, V3.cross_y, V3.cross_z, V3.smul_x, V3.smul_y, V3.smul_z]; ring
    have e1 : V3.dot (at_ o d k) d = k * d.lenSq := by
      have : V3.dot (at_ o d k) d = V3.dot o d + k * d.lenSq := by simp only [V3.dot, at_, V3.lenSq]; ring
      rw [this, ood, zero_add]
    have : 0 ≤ V3.dot (at_ o d k) d ↔ 0 ≤ k := by
      rw [e1]
      exact ⟨fun h => nonneg_of_mul_nonneg_left h hl, fun h => mul_nonneg h hl.le⟩
    simp only [this]

/-- Exchanging the first two planes turns the direction round: unless the common point is the one
nearest to the origin on the line of the first two, exactly one of the two orders succeeds. -/
theorem C15_order_refuted (nz : Bool) (eq : Eqn) (a b c : Pl K) (e : K) (he : 0 ≤ e)
    (h2 : e < (V3.cross a.normal b.normal).lenSq) (h3 : det a.normal b.normal c.normal ≠ 0)
    (x : V3 K) (ha : On eq a x) (hb : On eq b x) (hc : On eq c x) (hx : V3.dot x (V3.cross a.normal b.normal) ≠ 0) :
    (intersect3 nz eq a b c e = .point x ∧ intersect3 nz eq b a c e = .none) ∨
    (intersect3 nz eq a b c e = .none ∧ intersect3 nz eq b a c e = .point x) := by
  have hneg : V3.cross b.normal a.normal = -V3.cross a.normal b.normal := by ext <;> simp <;> ring
  have h2' : e < (V3.cross b.normal a.normal).lenSq := by
    rw [hneg]
    have : (-V3.cross a.normal b.normal).lenSq = (V3.cross a.normal b.normal).lenSq := by
      simp only [V3.lenSq, V3.dot, V3.neg_x, V3.neg_y, V3.neg_z]; ring
    rwa [this]
  have h3' : det b.normal a.normal c.normal ≠ 0 := by
    have : det b.normal a.normal c.normal = -det a.normal b.normal c.normal := by simp only [det]; ring
    rw [this]; exact neg_ne_zero.2 h3
  obtain ⟨y, y1, y2⟩ := C15_complete_partial nz eq a b c e he h2 h3
  obtain ⟨z, z1, z2⟩ := C15_complete_partial nz eq b a c e he h2' h3'
  have hy : x = y := (y1 x).1 ⟨ha, hb, hc⟩
  have hz : x = z := (z1 x).1 ⟨hb, ha, hc⟩
  subst hy
  subst hz
  have hn : V3.dot x (V3.cross b.normal a.normal) = -V3.dot x (V3.cross a.normal b.normal) := by
    rw [hneg]; simp only [V3.dot, V3.neg_x, V3.neg_y, V3.neg_z]; ring
  rw [y2, z2, hn]
  rcases lt_or_gt_of_ne hx with h | h
  · right
    rw [if_neg (not_le.2 h), if_pos (by linarith)]
    exact ⟨rfl, rfl⟩
  · left
    rw [if_pos h.le, if_neg (by linarith)]
    exact ⟨rfl, rfl⟩

/-- The planes x = 0, y = 0 and z = -1: no intersection is found. -/
theorem C15_refuted : ∃ (a b c : Pl ℚ) (x : V3 ℚ), det a.normal b.normal c.normal ≠ 0 ∧
    (On .nxEqD a x ∧ On .nxEqD b x ∧ On .nxEqD c x) ∧ intersect3 false .nxEqD a b c (1/1000) = .none :=
  ⟨⟨⟨1, 0, 0⟩, 0⟩, ⟨⟨0, 1, 0⟩, 0⟩, ⟨⟨0, 0, 1⟩, -1⟩, ⟨0, 0, -1⟩, by norm_num [det], by norm_num [On], by decide +kernel⟩

/-- If the third plane is parallel to the line of the first two and off it on the right side, the
query reports a hit although the planes have no common point. -/
theorem C15_sound_refuted : ∃ (a b c : Pl ℚ), (¬ ∃ x, On .nxEqD a x ∧ On .nxEqD b x ∧ On .nxEqD c x) ∧
    intersect3 false .nxEqD a b c (1/1000) = .infinite := by
  refine ⟨⟨⟨1, 0, 0⟩, 0⟩, ⟨⟨0, 1, 0⟩, 0⟩, ⟨⟨1, 1, 0⟩, 1⟩, ?_, by decide +kernel⟩
  rintro ⟨x, h1, h2, h3⟩
  simp only [On] at h1 h2 h3
  linarith

/-- Three planes with a common point in the right direction, not at the origin. -/
example : intersect3 false .nxdEqZero (⟨⟨1, 0, 0⟩, -1⟩ : Pl ℚ) ⟨⟨1, 1, 0⟩, -3⟩ ⟨⟨0, 1, 1⟩, -5⟩ (1/1000) = .point ⟨1, 2, 3⟩ := by
  decide +kernel

/-! The theorems for these planes. -/

example := C16_ray_partial false .nxEqD (⟨⟨0, 0, 1⟩, 1⟩ : Pl ℚ) ⟨0, ⟨1, 0, 2⟩⟩ (by decide +kernel)
example := C16_segment_partial false .nxEqD (⟨⟨0, 0, 1⟩, 1⟩ : Pl ℚ) ⟨0, ⟨1, 0, 2⟩⟩ (by decide +kernel)
example := C16_parallel_segment_partial false .nxEqD (⟨⟨0, 0, 1⟩, 1⟩ : Pl ℚ) ⟨⟨0, 0, 5⟩, ⟨1, 0, 5⟩⟩ (by decide +kernel)
example := C16_parallel_ray_refuted false .nxEqD (⟨⟨0, 0, 1⟩, 1⟩ : Pl ℚ) ⟨⟨0, 0, 5⟩, ⟨1, 2, 0⟩⟩ (by decide +kernel)
example := C14_line .nxEqD (⟨⟨1, 0, 0⟩, 2⟩ : Pl ℚ) ⟨⟨1, 1, 0⟩, 5⟩ (1 / 1000) (by norm_num) ⟨⟨2, 3, 0⟩, ⟨0, 0, 1⟩⟩ (by decide +kernel) ⟨2, 3, 7⟩
example := C15_sound_partial false .nxdEqZero (⟨⟨1, 0, 0⟩, -1⟩ : Pl ℚ) ⟨⟨1, 1, 0⟩, -3⟩ ⟨⟨0, 1, 1⟩, -5⟩ (1 / 1000) (by norm_num) ⟨1, 2, 3⟩ (by decide +kernel)
example := C15_complete_partial false .nxdEqZero (⟨⟨1, 0, 0⟩, -1⟩ : Pl ℚ) ⟨⟨1, 1, 0⟩, -3⟩ ⟨⟨0, 1, 1⟩, -5⟩ (1 / 1000) (by norm_num) (by decide +kernel) (by decide +kernel)
example := C15_order_refuted false .nxdEqZero (⟨⟨1, 0, 0⟩, -1⟩ : Pl ℚ) ⟨⟨1, 1, 0⟩, -3⟩ ⟨⟨0, 1, 1⟩, -5⟩ (1 / 1000) (by norm_num) (by decide +kernel) (by decide +kernel)
  ⟨1, 2, 3⟩ (by norm_num [On, side, Eqn.distanceSign]) (by norm_num [On, side, Eqn.distanceSign]) (by norm_num [On, side, Eqn.distanceSign]) (by decide +kernel)

end Geom.Plane.Props
