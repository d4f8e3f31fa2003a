import Verif.Props.Plane

/-!
Properties C13 and C79-C81: planes against boxes and cones, transformed planes.
-/

set_option linter.unusedSectionVars false
set_option autoImplicit false

namespace Geom.Plane.Props

open Spec

section
variable {K : Type} [Field K] [LinearOrder K] [IsStrictOrderedRing K]

/-! ## Interval radius -/

theorem mul_bound {s h a : K} (hs : |s| ≤ h) : |s * a| ≤ h * |a| := by
  rw [abs_mul]
  exact mul_le_mul_of_nonneg_right hs (abs_nonneg a)

theorem radius_lower {D a b c s t u hx hy hz : K} (hs : |s| ≤ hx) (ht : |t| ≤ hy) (hu : |u| ≤ hz) :
    |D| - (hx * |a| + hy * |b| + hz * |c|) ≤ |D + (s * a + (t * b + u * c))| := by
  have h1 := mul_bound (a := a) hs
  have h2 := mul_bound (a := b) ht
  have h3 := mul_bound (a := c) hu
  have e1 : |s * a + (t * b + u * c)| ≤ |s * a| + (|t * b| + |u * c|) :=
    (abs_add_le _ _).trans (by linarith [abs_add_le (t * b) (u * c)])
  have e2 : |D| ≤ |D + (s * a + (t * b + u * c))| + |s * a + (t * b + u * c)| := by
    have := abs_sub (D + (s * a + (t * b + u * c))) (s * a + (t * b + u * c))
    simpa using this
  linarith

theorem extremal (a h : K) (hh : 0 ≤ h) : ∃ s, |s| ≤ h ∧ s * a = h * |a| := by
  rcases le_total 0 a with ha | ha
  · exact ⟨h, by rw [abs_of_nonneg hh], by rw [abs_of_nonneg ha]⟩
  · exact ⟨-h, by rw [abs_neg, abs_of_nonneg hh], by rw [abs_of_nonpos ha]; ring⟩

theorem radius_attained {D a b c hx hy hz : K} (h1 : 0 ≤ hx) (h2 : 0 ≤ hy) (h3 : 0 ≤ hz)
    (hD : 0 ≤ |D| - (hx * |a| + hy * |b| + hz * |c|)) :
    ∃ s t u, |s| ≤ hx ∧ |t| ≤ hy ∧ |u| ≤ hz ∧
      |D + (s * a + (t * b + u * c))| = |D| - (hx * |a| + hy * |b| + hz * |c|) := by
  obtain ⟨s, s1, s2⟩ := extremal a hx h1
  obtain ⟨t, t1, t2⟩ := extremal b hy h2
  obtain ⟨u, u1, u2⟩ := extremal c hz h3
  rcases le_total 0 D with h | h
  · refine ⟨-s, -t, -u, by rwa [abs_neg], by rwa [abs_neg], by rwa [abs_neg], ?_⟩
    rw [abs_of_nonneg h] at hD ⊢
    rw [show D + (-s * a + (-t * b + -u * c)) = D - (s * a + t * b + u * c) by ring, s2, t2, u2, abs_of_nonneg hD]
  · refine ⟨s, t, u, s1, t1, u1, ?_⟩
    rw [abs_of_nonpos h] at hD ⊢
    rw [show D + (s * a + (t * b + u * c)) = -(-D - (s * a + t * b + u * c)) by ring, s2, t2, u2, abs_neg, abs_of_nonneg hD]

theorem side_add (eq : Eqn) (p : Pl K) (x w : V3 K) : side eq p (x + w) = side eq p x + V3.dot p.normal w := by
  cases eq <;> simp only [side, V3.add_x, V3.add_y, V3.add_z, V3.dot] <;> ring

/-! ## C79: DistanceToPlane for oriented boxes -/

/-- The result is a lower bound of the distances of the points of the oriented box, and it is the
distance of one of them if it is not negative. -/
theorem C79_distance_obb (eq : Eqn) (p : Pl K) (b : OBox K) :
    (∀ x, InOBox b x → distanceOBox eq p b ≤ distance eq p x) ∧
    (0 ≤ b.halfSize.x → 0 ≤ b.halfSize.y → 0 ≤ b.halfSize.z → 0 ≤ distanceOBox eq p b →
      ∃ x, InOBox b x ∧ distance eq p x = distanceOBox eq p b) := by
  have e : ∀ s t u : K, side eq p (b.center + (s • b.axisX + (t • b.axisY + u • b.axisZ))) =
      side eq p b.center + (s * V3.dot p.normal b.axisX + (t * V3.dot p.normal b.axisY + u * V3.dot p.normal b.axisZ)) := by
    intro s t u
    rw [side_add]
    simp only [V3.dot, V3.add_x, V3.add_y, V3.add_z, V3.smul_x, V3.smul_y, V3.smul_z]; ring
  refine ⟨?_, fun h1 h2 h3 h0 => ?_⟩
  · rintro x ⟨s, t, u, hs, ht, hu, rfl⟩
    simp only [distanceOBox, distance, sgnDistance_eq, e]
    exact radius_lower hs ht hu
  · simp only [distanceOBox, distance, sgnDistance_eq] at h0 ⊢
    obtain ⟨s, t, u, hs, ht, hu, h⟩ := radius_attained h1 h2 h3 h0
    exact ⟨_, ⟨s, t, u, hs, ht, hu, rfl⟩, by rw [e, h]⟩

/-- If the result is not positive, the plane touches the box: some point of the box lies on it. -/
theorem C79_touches (eq : Eqn) (p : Pl K) (b : OBox K) (h1 : 0 ≤ b.halfSize.x) (h2 : 0 ≤ b.halfSize.y)
    (h3 : 0 ≤ b.halfSize.z) : distanceOBox eq p b ≤ 0 ↔ ∃ x, InOBox b x ∧ On eq p x := by
  constructor
  · intro h
    simp only [distanceOBox, distance, sgnDistance_eq] at h
    obtain ⟨s, s1, s2⟩ := extremal (V3.dot p.normal b.axisX) _ h1
    obtain ⟨t, t1, t2⟩ := extremal (V3.dot p.normal b.axisY) _ h2
    obtain ⟨u, u1, u2⟩ := extremal (V3.dot p.normal b.axisZ) _ h3
    set D := side eq p b.center with hD
    have hR : |D| ≤ s * V3.dot p.normal b.axisX + t * V3.dot p.normal b.axisY + u * V3.dot p.normal b.axisZ := by
      rw [s2, t2, u2]; linarith
    set R := s * V3.dot p.normal b.axisX + t * V3.dot p.normal b.axisY + u * V3.dot p.normal b.axisZ with hRd
    obtain ⟨k, hk, hk2⟩ : ∃ k : K, |k| ≤ 1 ∧ k * R = -D := by
      rcases eq_or_lt_of_le ((abs_nonneg D).trans hR) with h0 | h0
      · refine ⟨0, by simp, ?_⟩
        have : |D| ≤ 0 := by rw [h0]; exact hR
        simp [abs_nonpos_iff.1 this]
      · refine ⟨-D / R, ?_, by field_simp⟩
        rw [abs_div, abs_neg, abs_of_pos h0]
        exact (div_le_one h0).2 hR
    have hb : ∀ {s h : K}, |s| ≤ h → |k * s| ≤ h := by
      intro s h hs
      rw [abs_mul]
      calc |k| * |s| ≤ 1 * |s| := mul_le_mul_of_nonneg_right hk (abs_nonneg _)
        _ ≤ h := by rw [one_mul]; exact hs
    refine ⟨_, ⟨k * s, k * t, k * u, hb s1, hb t1, hb u1, rfl⟩, ?_⟩
    rw [on_iff, side_add, ← hD]
    have : V3.dot p.normal ((k * s) • b.axisX + ((k * t) • b.axisY + (k * u) • b.axisZ)) = k * R := by
      rw [hRd]
      simp only [V3.dot, V3.add_x, V3.add_y, V3.add_z, V3.smul_x, V3.smul_y, V3.smul_z]; ring
    rw [this, hk2]; ring
  · rintro ⟨x, hx, ho⟩
    have := (C79_distance_obb eq p b).1 x hx
    rw [on_iff] at ho
    rwa [distance, sgnDistance_eq, ho, abs_zero] at this

/-- A box with skew axes in front of a plane. -/
example : distanceOBox .nxEqD (⟨⟨1, 0, 0⟩, 0⟩ : Pl ℚ) ⟨⟨10, 0, 0⟩, ⟨1, 2, 3⟩, ⟨3/5, 4/5, 0⟩, ⟨-4/5, 3/5, 0⟩, ⟨0, 0, 1⟩⟩ = 39/5 := by
  decide +kernel

/-! ## C13: axis-aligned boxes -/

/-- The distance of a box: a lower bound, attained if it is not negative. -/
theorem C13_distance (eq : Eqn) (p : Pl K) (b : Box K) (hb : Valid b) :
    (∀ x, InBox b x → distanceBox eq p b ≤ distance eq p x) ∧
    (0 ≤ distanceBox eq p b → ∃ x, InBox b x ∧ distance eq p x = distanceBox eq p b) := by
  have h2 : (2 : K) ≠ 0 := two_ne_zero
  obtain ⟨v1, v2, v3⟩ := hb
  set c : V3 K := (1 / 2 : K) • (b.min + b.max) with hc
  have cx : c.x = (b.min.x + b.max.x) / 2 := by simp [hc]; ring
  have cy : c.y = (b.min.y + b.max.y) / 2 := by simp [hc]; ring
  have cz : c.z = (b.min.z + b.max.z) / 2 := by simp [hc]; ring
  have e : ∀ s t u : K, side eq p ⟨c.x + s, c.y + t, c.z + u⟩ =
      side eq p c + (s * p.normal.x + (t * p.normal.y + u * p.normal.z)) := by
    intro s t u
    cases eq <;> simp only [side] <;> ring
  have hd : distanceBox eq p b = |side eq p c| - ((b.max.x - c.x) * |p.normal.x| + (b.max.y - c.y) * |p.normal.y| +
      (b.max.z - c.z) * |p.normal.z|) := by
    simp only [distanceBox, distance, sgnDistance_eq, ← hc, V3.sub_x, V3.sub_y, V3.sub_z]
  rw [hd]
  refine ⟨?_, fun h0 => ?_⟩
  · rintro x ⟨⟨x1, x2⟩, ⟨y1, y2⟩, z1, z2⟩
    have hx : x = ⟨c.x + (x.x - c.x), c.y + (x.y - c.y), c.z + (x.z - c.z)⟩ := by ext <;> simp
    rw [distance, sgnDistance_eq, hx, e]
    refine radius_lower ?_ ?_ ?_ <;> rw [abs_le] <;> constructor <;> linarith
  · obtain ⟨s, t, u, hs, ht, hu, h⟩ := radius_attained (by linarith) (by linarith) (by linarith) h0
    refine ⟨⟨c.x + s, c.y + t, c.z + u⟩, ?_, by rw [distance, sgnDistance_eq, e, h]⟩
    rw [abs_le] at hs ht hu
    refine ⟨⟨?_, ?_⟩, ⟨?_, ?_⟩, ?_, ?_⟩ <;> simp only <;> linarith [hs.1, hs.2, ht.1, ht.2, hu.1, hu.2]

theorem pick_near {n l h x : K} (h1 : l ≤ x) (h2 : x ≤ h) : n * (if n > 0 then l else h) ≤ n * x := by
  split
  · rename_i hn; exact mul_le_mul_of_nonneg_left h1 hn.le
  · rename_i hn; exact mul_le_mul_of_nonpos_left h2 (not_lt.1 hn)

theorem pick_far {n l h x : K} (h1 : l ≤ x) (h2 : x ≤ h) : n * x ≤ n * (if n > 0 then h else l) := by
  split
  · rename_i hn; exact mul_le_mul_of_nonneg_left h2 hn.le
  · rename_i hn; exact mul_le_mul_of_nonpos_left h1 (not_lt.1 hn)

theorem isFrontFacing_iff (eq : Eqn) (p : Pl K) (x : V3 K) : isFrontFacing eq p x = true ↔ 0 < side eq p x := by
  cases eq <;> simp [isFrontFacing, side, V3.dot, Eqn.distanceSign]
  exact ⟨fun h => by linarith, fun h => by linarith⟩

/-- `RelationToPlane`: in front exactly if all points of the box are, behind exactly if none is. -/
theorem C13_relation (eq : Eqn) (p : Pl K) (b : Box K) (hb : Valid b) :
    (relationBox eq p b = .inFrontOf ↔ ∀ x, InBox b x → 0 < sgnDistance eq p x) ∧
    (relationBox eq p b = .behind ↔ ∀ x, InBox b x → sgnDistance eq p x ≤ 0) ∧
    (relationBox eq p b = .clipped ↔ (∃ x, InBox b x ∧ 0 < sgnDistance eq p x) ∧
      ∃ x, InBox b x ∧ sgnDistance eq p x ≤ 0) := by
  obtain ⟨v1, v2, v3⟩ := hb
  set near : V3 K := ⟨if p.normal.x > 0 then b.min.x else b.max.x,
    if p.normal.y > 0 then b.min.y else b.max.y, if p.normal.z > 0 then b.min.z else b.max.z⟩ with hnear
  set far : V3 K := ⟨if p.normal.x > 0 then b.max.x else b.min.x,
    if p.normal.y > 0 then b.max.y else b.min.y, if p.normal.z > 0 then b.max.z else b.min.z⟩ with hfar
  have inb : ∀ (n l h : K), l ≤ h → (l ≤ (if n > 0 then l else h) ∧ (if n > 0 then l else h) ≤ h) := by
    intro n l h hl; split <;> simp [hl]
  have inb' : ∀ (n l h : K), l ≤ h → (l ≤ (if n > 0 then h else l) ∧ (if n > 0 then h else l) ≤ h) := by
    intro n l h hl; split <;> simp [hl]
  have hn : InBox b near := ⟨inb _ _ _ v1, inb _ _ _ v2, inb _ _ _ v3⟩
  have hf : InBox b far := ⟨inb' _ _ _ v1, inb' _ _ _ v2, inb' _ _ _ v3⟩
  have ln : ∀ x, InBox b x → side eq p near ≤ side eq p x := by
    rintro x ⟨⟨x1, x2⟩, ⟨y1, y2⟩, z1, z2⟩
    have h1 := pick_near (n := p.normal.x) x1 x2
    have h2 := pick_near (n := p.normal.y) y1 y2
    have h3 := pick_near (n := p.normal.z) z1 z2
    cases eq <;> simp only [side, hnear] <;> linarith
  have lf : ∀ x, InBox b x → side eq p x ≤ side eq p far := by
    rintro x ⟨⟨x1, x2⟩, ⟨y1, y2⟩, z1, z2⟩
    have h1 := pick_far (n := p.normal.x) x1 x2
    have h2 := pick_far (n := p.normal.y) y1 y2
    have h3 := pick_far (n := p.normal.z) z1 z2
    cases eq <;> simp only [side, hfar] <;> linarith
  have hr : relationBox eq p b = if isFrontFacing eq p near then .inFrontOf
      else if isFrontFacing eq p far then .clipped else .behind := rfl
  simp only [hr, isFrontFacing_iff, sgnDistance_eq]
  by_cases h1 : 0 < side eq p near
  · have h2 : 0 < side eq p far := h1.trans_le (ln far hf)
    rw [if_pos h1]
    refine ⟨⟨fun _ x hx => h1.trans_le (ln x hx), fun _ => rfl⟩, ⟨fun h => (by cases h), fun h => ?_⟩,
      ⟨fun h => (by cases h), ?_⟩⟩
    · exact absurd (h near hn) (not_le.2 h1)
    · rintro ⟨-, x, hx, h⟩
      exact absurd (h1.trans_le (ln x hx)) (not_lt.2 h)
  · rw [if_neg h1]
    by_cases h2 : 0 < side eq p far
    · rw [if_pos h2]
      refine ⟨⟨fun h => (by cases h), fun h => absurd (h near hn) h1⟩, ⟨fun h => (by cases h), fun h => ?_⟩,
        ⟨fun _ => ⟨⟨far, hf, h2⟩, near, hn, not_lt.1 h1⟩, fun _ => rfl⟩⟩
      exact absurd (h far hf) (not_le.2 h2)
    · rw [if_neg h2]
      refine ⟨⟨fun h => (by cases h), fun h => absurd (h near hn) h1⟩,
        ⟨fun _ x hx => (lf x hx).trans (not_lt.1 h2), fun _ => rfl⟩, ⟨fun h => (by cases h), ?_⟩⟩
      rintro ⟨⟨x, hx, h⟩, -⟩
      exact absurd (h.trans_le (lf x hx)) h2

/-- `RelationToPlane` of a point: by the signed distance, with the tolerance on both sides. -/
theorem C13_relation_point (eq : Eqn) (p : Pl K) (x : V3 K) (e : K) (he : 0 ≤ e) :
    (relationPoint eq p x e = .inFrontOf ↔ e < sgnDistance eq p x) ∧
    (relationPoint eq p x e = .behind ↔ sgnDistance eq p x < -e) ∧
    (relationPoint eq p x e = .onto ↔ distance eq p x ≤ e) := by
  unfold relationPoint distance
  simp only [gt_iff_lt, abs_le]
  generalize sgnDistance eq p x = d
  by_cases h1 : e < d
  · rw [if_pos h1]
    exact ⟨⟨fun _ => h1, fun _ => rfl⟩, ⟨fun h => (by cases h), fun h => by linarith⟩,
      ⟨fun h => (by cases h), fun h => by linarith [h.2]⟩⟩
  · rw [if_neg h1]
    by_cases h2 : d < -e
    · rw [if_pos h2]
      exact ⟨⟨fun h => (by cases h), fun h => absurd h h1⟩, ⟨fun _ => h2, fun _ => rfl⟩,
        ⟨fun h => (by cases h), fun h => by linarith [h.1]⟩⟩
    · rw [if_neg h2]
      exact ⟨⟨fun h => (by cases h), fun h => absurd h h1⟩, ⟨fun h => (by cases h), fun h => absurd h h2⟩,
        ⟨fun _ => ⟨not_lt.1 h2, not_lt.1 h1⟩, fun _ => rfl⟩⟩

/-- A box which the plane clips. -/
example : relationBox .nxEqD (⟨⟨1, -1, 0⟩, 0⟩ : Pl ℚ) ⟨⟨0, 0, 0⟩, ⟨1, 1, 1⟩⟩ = .clipped ∧
    relationBox .nxdEqZero (⟨⟨1, -1, 0⟩, 2⟩ : Pl ℚ) ⟨⟨0, 0, 0⟩, ⟨1, 1, 1⟩⟩ = .inFrontOf ∧
    Valid (⟨⟨0, 0, 0⟩, ⟨1, 1, 1⟩⟩ : Box ℚ) := by
  refine ⟨by decide +kernel, by decide +kernel, by simp [Valid]⟩

/-! ## C80: TransformPlane -/

/-- For a rigid transformation and the equation n·x = d the result is the image of the plane. -/
theorem C80_rigid_partial (m : Transform.Mat K) (hm : Orthogonal m) (p : Pl K) (hp : UnitN p) (x : V3 K) :
    On .nxEqD (transformPlane .nxEqD m p) (Transform.apply m x) ↔ On .nxEqD p x := by
  obtain ⟨⟨a1, a2, a3⟩, b1, b2, b3⟩ := hm
  unfold UnitN at hp
  obtain ⟨⟨n1, n2, n3⟩, d⟩ := p
  obtain ⟨x1, x2, x3⟩ := x
  have key : ∀ u v w u' v' w' : K,
      (m 0 0 * u + m 0 1 * v + m 0 2 * w) * (m 0 0 * u' + m 0 1 * v' + m 0 2 * w') +
      (m 1 0 * u + m 1 1 * v + m 1 2 * w) * (m 1 0 * u' + m 1 1 * v' + m 1 2 * w') +
      (m 2 0 * u + m 2 1 * v + m 2 2 * w) * (m 2 0 * u' + m 2 1 * v' + m 2 2 * w') = u * u' + v * v' + w * w' := by
    intro u v w u' v' w'
    linear_combination u * u' * a1 + v * v' * a2 + w * w' * a3 + (u * v' + v * u') * b1 + (u * w' + w * u') * b2 +
      (v * w' + w * v') * b3
  simp only [On, transformPlane, rotateVector, memberPoint, Transform.apply, Eqn.distanceSign, V3.dot, V3.smul_x, V3.smul_y, V3.smul_z] at *
  have k1 := key n1 n2 n3 x1 x2 x3
  have k2 := key n1 n2 n3 (d * n1) (d * n2) (d * n3)
  constructor
  · intro h
    linear_combination h - k1 + k2 + d * hp
  · intro h
    linear_combination h + k1 - k2 - d * hp

/-- For the equation n·x + d = 0 the sign of the distance is lost: a translation by 1 along the
normal takes the plane z = 2 to z = -3. -/
theorem C80_alt_refuted : ∃ (m : Transform.Mat ℚ) (p : Pl ℚ) (x : V3 ℚ), Orthogonal m ∧ UnitN p ∧
    On .nxdEqZero p x ∧ ¬ On .nxdEqZero (transformPlane .nxdEqZero m p) (Transform.apply m x) := by
  refine ⟨fun i j => if j.val = i.val then 1 else if i.val = 2 ∧ j.val = 3 then 1 else 0, ⟨⟨0, 0, 1⟩, -2⟩, ⟨0, 0, 2⟩, ?_, ?_, ?_, ?_⟩
  · simp [Orthogonal]
  · norm_num [UnitN]
  · norm_num [On]
  · norm_num [On, transformPlane, rotateVector, memberPoint, Transform.apply, Eqn.distanceSign, V3.dot]

/-- With scaling the result is not the image either: the plane x + y = 0 (scaled normal) under
stretching x by 2. -/
theorem C80_scale_refuted : ∃ (m : Transform.Mat ℚ) (p : Pl ℚ) (x : V3 ℚ), UnitN p ∧
    On .nxEqD p x ∧ ¬ On .nxEqD (transformPlane .nxEqD m p) (Transform.apply m x) := by
  refine ⟨fun i j => if j.val = i.val then (if i = 0 then 2 else 1) else 0, ⟨⟨3/5, 4/5, 0⟩, 0⟩, ⟨4, -3, 0⟩, ?_, ?_, ?_⟩
  · norm_num [UnitN]
  · norm_num [On]
  · norm_num [On, transformPlane, rotateVector, memberPoint, Transform.apply, Eqn.distanceSign, V3.dot]

end

/-! ## C81: cones -/

theorem cauchy (w v : V3 ℝ) : (w.x * v.x + w.y * v.y + w.z * v.z) ^ 2 ≤
    w.lenSq * (v.x * v.x + v.y * v.y + v.z * v.z) := by
  unfold V3.lenSq V3.dot
  have h1 := sq_nonneg (w.x * v.y - w.y * v.x)
  have h2 := sq_nonneg (w.y * v.z - w.z * v.y)
  have h3 := sq_nonneg (w.z * v.x - w.x * v.z)
  linarith

/-- `IsFrontFacingPlane(plane, cone)` tells whether all points of the solid cone are in front. -/
theorem C81_cone (eq : Eqn) (p : Pl ℝ) (c : Cone) (hr : 0 ≤ c.radius)
    (hd : c.direction.x * c.direction.x + c.direction.y * c.direction.y + c.direction.z * c.direction.z = 1) :
    isFrontFacingCone eq p c = true ↔ ∀ x, InCone c x → 0 < sgnDistance eq p x := by
  obtain ⟨P, d, h, r⟩ := c
  simp only at hr hd
  set n := p.normal with hn
  set k := V3.dot n d with hk
  set w : V3 ℝ := V3.cross (V3.cross n d) d with hw
  -- w = -(n - k d)
  have wx : w.x = k * d.x - n.x := by
    simp only [hw, hk, V3.cross_x, V3.cross_y, V3.cross_z, V3.dot]; linear_combination -n.x * hd
  have wy : w.y = k * d.y - n.y := by
    simp only [hw, hk, V3.cross_x, V3.cross_y, V3.cross_z, V3.dot]; linear_combination -n.y * hd
  have wz : w.z = k * d.z - n.z := by
    simp only [hw, hk, V3.cross_x, V3.cross_y, V3.cross_z, V3.dot]; linear_combination -n.z * hd
  have wd : w.x * d.x + w.y * d.y + w.z * d.z = 0 := by
    rw [wx, wy, wz]; simp only [hk, V3.dot]; linear_combination (n.x * d.x + n.y * d.y + n.z * d.z) * hd
  have hk' : k = n.x * d.x + n.y * d.y + n.z * d.z := rfl
  have nw : n.x * w.x + n.y * w.y + n.z * w.z = -w.lenSq := by
    have : w.lenSq = w.x * w.x + w.y * w.y + w.z * w.z := rfl
    rw [this]
    linear_combination k * wd + w.x * wx + w.y * wy + w.z * wz
  set o := normalizeVec w with ho
  have od : o.x * d.x + o.y * d.y + o.z * d.z = 0 := by
    obtain ⟨s, hs⟩ := normalizeVec_smul w
    rw [ho, hs]; simp only [V3.smul_x, V3.smul_y, V3.smul_z]; linear_combination s * wd
  have ol : o.x * o.x + o.y * o.y + o.z * o.z ≤ 1 := by
    by_cases h0 : w = 0
    · have : o = 0 := by rw [ho, h0]; simp [normalizeVec, V3.lenSq, V3.dot]
      simp [this]
    · exact (normalizeVec_unit h0).le
  have no : n.x * o.x + n.y * o.y + n.z * o.z = -√w.lenSq := by
    by_cases h0 : w = 0
    · have : o = 0 := by rw [ho, h0]; simp [normalizeVec, V3.lenSq, V3.dot]
      simp [this, h0, V3.lenSq, V3.dot]
    · have hp := lenSq_pos_of h0
      have h1 : √w.lenSq * √w.lenSq = w.lenSq := Real.mul_self_sqrt hp.le
      have h2 : √w.lenSq ≠ 0 := (Real.sqrt_pos.2 hp).ne'
      rw [ho, normalizeVec, if_neg hp.ne']
      simp only [V3.smul_x, V3.smul_y, V3.smul_z]
      have : n.x * (1 / √w.lenSq * w.x) + n.y * (1 / √w.lenSq * w.y) + n.z * (1 / √w.lenSq * w.z) =
          (1 / √w.lenSq) * (-w.lenSq) := by linear_combination (1 / √w.lenSq) * nw
      rw [this]
      generalize √w.lenSq = q at *
      rw [← h1]; field_simp
  -- side is affine
  have sa : ∀ v, side eq p (P + v) = side eq p P + (n.x * v.x + n.y * v.y + n.z * v.z) := fun v => side_add eq p P v
  have hcode : isFrontFacingCone eq p ⟨P, d, h, r⟩ = true ↔
      0 < side eq p P ∧ 0 < side eq p P + (h * k + r * (-√w.lenSq)) := by
    have e : P + h • d + r • o = P + (h • d + r • o) := by ext <;> simp <;> ring
    unfold isFrontFacingCone
    simp only [← hn, ← hw, ← ho]
    by_cases h1 : 0 < side eq p P
    · rw [if_pos ((isFrontFacing_iff eq p P).2 h1), isFrontFacing_iff, e, sa]
      simp only [V3.add_x, V3.add_y, V3.add_z, V3.smul_x, V3.smul_y, V3.smul_z]
      rw [show n.x * (h * d.x + r * o.x) + n.y * (h * d.y + r * o.y) + n.z * (h * d.z + r * o.z) =
        h * k + r * (-√w.lenSq) by rw [hk']; linear_combination r * no]
      simp [h1]
    · rw [if_neg (fun h => h1 ((isFrontFacing_iff eq p P).1 h))]
      simp [h1]
  rw [hcode]
  constructor
  · rintro ⟨h1, h2⟩ x ⟨t, v, t0, t1, vd, vl, rfl⟩
    simp only at vd vl
    rw [sgnDistance_eq, sa]
    simp only [V3.add_x, V3.add_y, V3.add_z, V3.smul_x, V3.smul_y, V3.smul_z]
    -- Cauchy-Schwarz for w and v
    have nv : n.x * v.x + n.y * v.y + n.z * v.z = -(w.x * v.x + w.y * v.y + w.z * v.z) := by
      rw [wx, wy, wz]; linear_combination k * vd
    have cs : (w.x * v.x + w.y * v.y + w.z * v.z) ^ 2 ≤ (√w.lenSq * (t * r)) ^ 2 := by
      have h0 : 0 ≤ w.lenSq := by
        unfold V3.lenSq V3.dot; nlinarith [mul_self_nonneg w.x, mul_self_nonneg w.y, mul_self_nonneg w.z]
      have h3 : √w.lenSq * √w.lenSq = w.lenSq := Real.mul_self_sqrt h0
      have h4 : (√w.lenSq * (t * r)) ^ 2 = w.lenSq * ((t * r) * (t * r)) := by
        linear_combination (t * r) * (t * r) * h3
      rw [h4]
      have h5 : w.lenSq * (v.x * v.x + v.y * v.y + v.z * v.z) ≤ w.lenSq * ((t * r) * (t * r)) :=
        mul_le_mul_of_nonneg_left vl h0
      exact (cauchy w v).trans h5
    have h6 : w.x * v.x + w.y * v.y + w.z * v.z ≤ √w.lenSq * (t * r) :=
      (abs_le_of_sq_le_sq' cs (by positivity)).2
    have e : n.x * (t * h * d.x + v.x) + n.y * (t * h * d.y + v.y) + n.z * (t * h * d.z + v.z) =
        t * (h * k) + (n.x * v.x + n.y * v.y + n.z * v.z) := by rw [hk']; ring
    rw [e, nv]
    have h7 : 0 ≤ (1 - t) * side eq p P := mul_nonneg (by linarith) h1.le
    have h8 : 0 ≤ t * (side eq p P + (h * k + r * (-√w.lenSq))) := mul_nonneg t0 h2.le
    rcases eq_or_lt_of_le t0 with rfl | tp
    · simp only [zero_mul, mul_zero] at h6 ⊢
      linarith
    · have h9 : 0 < t * (side eq p P + (h * k + r * (-√w.lenSq))) := mul_pos tp h2
      linarith
  · intro hx
    have h1 := hx P ⟨0, 0, le_refl _, zero_le_one, by simp, by simp, by ext <;> simp⟩
    have h2 := hx (P + ((1 * h) • d + r • o)) ⟨1, r • o, zero_le_one, le_refl _, by
      simp only [V3.smul_x, V3.smul_y, V3.smul_z]; linear_combination r * od, by
      simp only [V3.smul_x, V3.smul_y, V3.smul_z]
      have := mul_le_mul_of_nonneg_left ol (mul_self_nonneg r)
      linarith, rfl⟩
    rw [sgnDistance_eq] at h1 h2
    refine ⟨h1, ?_⟩
    rw [sa] at h2
    simp only [V3.add_x, V3.add_y, V3.add_z, V3.smul_x, V3.smul_y, V3.smul_z] at h2
    have e : n.x * (1 * h * d.x + r * o.x) + n.y * (1 * h * d.y + r * o.y) + n.z * (1 * h * d.z + r * o.z) =
        h * k + r * (-√w.lenSq) := by rw [hk']; linear_combination r * no
    rwa [e] at h2

/-- A cone whose tip is in front of the plane and whose bottom reaches behind it. -/
example : let c : Cone := ⟨⟨0, 0, 1⟩, ⟨1, 0, 0⟩, 1, 2⟩
    let p : Pl ℝ := ⟨⟨0, 0, 1⟩, 0⟩
    isFrontFacing .nxEqD p c.point = true ∧ ∃ x, InCone c x ∧ ¬ 0 < sgnDistance .nxEqD p x := by
  intro c p
  refine ⟨by simp [c, p, isFrontFacing, V3.dot, Eqn.distanceSign], ⟨1, 0, -1⟩,
    ⟨1, ⟨0, 0, -2⟩, zero_le_one, le_refl _, by simp [c], by simp [c], ?_⟩, ?_⟩
  · ext <;> simp [c]; norm_num
  · simp [p, sgnDistance, V3.dot, Eqn.distanceSign]

example := C13_distance .nxEqD (⟨⟨1, -1, 0⟩, 0⟩ : Pl ℚ) ⟨⟨0, 0, 0⟩, ⟨1, 1, 1⟩⟩ (by simp [Valid])
example := C13_relation .nxEqD (⟨⟨1, -1, 0⟩, 0⟩ : Pl ℚ) ⟨⟨0, 0, 0⟩, ⟨1, 1, 1⟩⟩ (by simp [Valid])

example := C80_rigid_partial (fun i j => match i, j with | 0, 0 => 3 / 5 | 0, 1 => -4 / 5 | 1, 0 => 4 / 5 | 1, 1 => 3 / 5 | 2, 2 => 1 | 2, 3 => 9 | _, _ => 0)
  (by unfold Orthogonal; decide +kernel)
  (⟨⟨0, 0, 1⟩, 2⟩ : Pl ℚ) (by norm_num [UnitN]) ⟨5, 6, 2⟩

end Geom.Plane.Props
