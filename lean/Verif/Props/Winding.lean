import Verif.Props.GenWind

/-
  C91: the orientation of generated triangles agrees with the normals.
-/
set_option autoImplicit false
set_option linter.unusedSectionVars false

namespace Geom.Gen
open TMesh (Mesh Vertex Ix)
open Spec

theorem sin_step {H : ℕ} (hH : 3 ≤ H) : 0 < Real.sin (2 * Real.pi / H) := by
  have h3 : (3 : ℝ) ≤ H := by exact_mod_cast hH
  have hp := Real.pi_pos
  apply Real.sin_pos_of_pos_of_lt_pi
  · positivity
  · rw [div_lt_iff₀ (by linarith)]; nlinarith

theorem sin_turn {H : ℕ} (hH : 3 ≤ H) (u : ℕ) : 0 < Real.sin (turn H (u + 1) - turn H u) := by
  have : turn H (u + 1) - turn H u = 2 * Real.pi / H := by unfold turn; push_cast; ring
  rw [this]; exact sin_step hH

theorem sin_pie {H : ℕ} (hH : 3 ≤ H) (start cut : ℝ) (h0 : 0 ≤ cut) (h1 : cut < 2 * Real.pi) (u : ℕ) :
    0 < Real.sin (pieAngle start cut H (u + 1) - pieAngle start cut H u) := by
  have h3 : (3 : ℝ) ≤ H := by exact_mod_cast hH
  have hp := Real.pi_pos
  have : pieAngle start cut H (u + 1) - pieAngle start cut H u = (2 * Real.pi - cut) / H := by unfold pieAngle; push_cast; ring
  rw [this]
  apply Real.sin_pos_of_pos_of_lt_pi
  · apply div_pos <;> linarith
  · rw [div_lt_iff₀ (by linarith)]; nlinarith

theorem asm_ne_nil {off : ℕ} {p : Part} {ps : List Part} (h : p.ts off ≠ []) : asm off (p :: ps) ≠ [] := by
  intro e
  exact h (List.append_eq_nil_iff.1 e).1

theorem mantle_ne {flip alt : Bool} {H V off : ℕ} (hH : 1 ≤ H) (hV : 1 ≤ V) : mantleTrisIx flip alt H V off ≠ [] :=
  ne_nil_of_length (mantleTrisIx_length ..) (by positivity)

/-- The normals themselves, for equal radii. -/
theorem stretched_eq {s : ℝ} (hs : s ≠ 0) (v : Vertex ℝ) : stretched (1 / s) 1 ⟨s, s⟩ v = v.normal := by
  simp only [stretched]
  ext <;> simp [hs]

/-! Cylinder, cone, pipe and pie. -/

/-- C91: cylinder. -/
theorem C91_cylinder (d : CylinderDesc) (m : M) (hx : 0 < d.radius.x) (hz : 0 < d.radius.y) (hh : 0 < d.height)
    (hH : max 3 d.segsX + 1 < 2 ^ 32) (hV : 2 * (max 1 d.segsY + 1) ≤ 2 ^ 32) (hB : 2 * d.bottomCov ≤ 2 ^ 32) (hT : 2 * d.topCov ≤ 2 ^ 32)
    (a b : ℝ) (ha : 0 < a) (hb : 0 < b) :
    ∃ m', genCylinder d m = .ok m' ∧ AddsTriangles m m' (InFront (stretched a b d.radius)) := by
  have h3 : 3 ≤ max 3 d.segsX := le_max_left _ _
  have h1 : 1 ≤ max 1 d.segsY := le_max_left _ _
  refine ⟨_, genCylinder_ok d m hH (by omega) (by omega) (by omega), asm_winds _ _ ?_ (asm_ne_nil (mantle_ne (by omega) h1))⟩
  generalize max 3 d.segsX = H at *
  generalize max 1 d.segsY = V at *
  have hr : 0 < d.radius.x * d.radius.y := mul_pos hx hz
  intro p hp
  simp only [cylParts, List.mem_cons, List.not_mem_nil, or_false] at hp
  rcases hp with rfl | rfl | rfl
  · exact mantleP_winds ha hr false _ _ _ _ _ hh h1 rfl hV one_pos (fun u _ => sin_turn h3 u) _ (by simp [scaled])
  · exact discP0_winds hb hr false _ _ _ _ _ rfl hB (fun u _ => sin_turn h3 u)
  · exact discP0_winds hb hr true _ _ _ _ _ rfl hT (fun u _ => sin_turn h3 u)

example := C91_cylinder ⟨⟨4, 2⟩, 3, 5, 2, 1, 2, true⟩ ⟨[], []⟩ (by norm_num) (by norm_num) (by norm_num) (by norm_num) (by norm_num)
  (by norm_num) (by norm_num) 1 1 (by norm_num) (by norm_num)

/-- C91: cone. -/
theorem C91_cone (d : ConeDesc) (m : M) (hx : 0 < d.radius.x) (hz : 0 < d.radius.y) (hh : 0 < d.height)
    (hH : max 3 d.segsX + 1 < 2 ^ 32) (hV : 2 * (max 1 d.segsY + 1) ≤ 2 ^ 32) (hB : 2 * d.cov ≤ 2 ^ 32)
    (a b : ℝ) (ha : 0 < a) (hb : 0 < b) :
    ∃ m', genCone d m = .ok m' ∧ AddsTriangles m m' (InFront (stretched a b d.radius)) := by
  have h3 : 3 ≤ max 3 d.segsX := le_max_left _ _
  have h1 : 1 ≤ max 1 d.segsY := le_max_left _ _
  refine ⟨_, genCone_ok d m hH (by omega) (by omega), asm_winds _ _ ?_ (asm_ne_nil ?_)⟩
  · generalize max 3 d.segsX = H at *
    generalize max 1 d.segsY = V at *
    have hr : 0 < d.radius.x * d.radius.y := mul_pos hx hz
    intro p hp
    simp only [coneParts, List.mem_cons, List.not_mem_nil, or_false] at hp
    rcases hp with rfl | rfl
    · exact coneP_winds ha hb hr _ _ _ _ hh h1 hV (fun u _ => sin_turn h3 u)
    · exact discP0_winds hb hr false _ _ _ _ _ rfl hB (fun u _ => sin_turn h3 u)
  · refine ne_nil_of_length (coneTrisIx_length _ _ _ _ h1) ?_
    have : 0 < 2 * max 1 d.segsY - 1 := by omega
    positivity

example := C91_cone ⟨⟨4, 2⟩, 3, 5, 2, 1, true⟩ ⟨[], []⟩ (by norm_num) (by norm_num) (by norm_num) (by norm_num) (by norm_num) (by norm_num)
  1 1 (by norm_num) (by norm_num)

/-- C91: pipe with inner radii in the same ratio as the outer ones. -/
theorem C91_pipe (d : PipeDesc) (m : M) (k : ℝ) (hk : 0 < k) (hk1 : k < 1) (hi : d.innerRadius = scaled k d.outerRadius)
    (hx : 0 < d.outerRadius.x) (hz : 0 < d.outerRadius.y) (hh : 0 < d.height)
    (hH : max 3 d.segsX + 1 < 2 ^ 32) (hV : 2 * (max 1 d.segsY + 1) ≤ 2 ^ 32) (hB : 2 * (d.bottomCov + 1) ≤ 2 ^ 32) (hT : 2 * (d.topCov + 1) ≤ 2 ^ 32)
    (a b : ℝ) (ha : 0 < a) (hb : 0 < b) :
    ∃ m', genPipe d m = .ok m' ∧ AddsTriangles m m' (InFront (stretched a b d.outerRadius)) := by
  have h3 : 3 ≤ max 3 d.segsX := le_max_left _ _
  have h1 : 1 ≤ max 1 d.segsY := le_max_left _ _
  refine ⟨_, genPipe_ok d m hH (by omega) (by omega) (by omega), asm_winds _ _ ?_ (asm_ne_nil (mantle_ne (by omega) h1))⟩
  generalize max 3 d.segsX = H at *
  generalize max 1 d.segsY = V at *
  have hr : 0 < d.outerRadius.x * d.outerRadius.y := mul_pos hx hz
  intro p hp
  simp only [pipeParts, hi, List.mem_cons, List.not_mem_nil, or_false] at hp
  rcases hp with rfl | rfl | rfl | rfl
  · exact mantleP_winds ha hr false _ _ _ _ _ hh h1 rfl hV one_pos (fun u _ => sin_turn h3 u) _ (by simp [scaled])
  · exact mantleP_winds ha hr true _ _ _ _ _ hh h1 rfl hV hk (fun u _ => sin_turn h3 u) _ rfl
  · exact ringP0_winds hb hr false _ _ _ _ _ hk hk1 rfl hB (fun u _ => sin_turn h3 u)
  · exact ringP0_winds hb hr true _ _ _ _ _ hk hk1 rfl hT (fun u _ => sin_turn h3 u)

example := C91_pipe ⟨⟨2, 1⟩, ⟨4, 2⟩, 3, 5, 2, 1, 2, true⟩ ⟨[], []⟩ (1 / 2) (by norm_num) (by norm_num) (by norm_num [scaled]) (by norm_num)
  (by norm_num) (by norm_num) (by norm_num) (by norm_num) (by norm_num) (by norm_num) 1 1 (by norm_num) (by norm_num)

/-- C91: pie, unless the whole cake is cut away. -/
theorem C91_pie (d : PieDesc) (m : M) (hx : 0 < d.radius.x) (hz : 0 < d.radius.y) (hh : 0 < d.height) (hcut : d.angle < 2 * Real.pi)
    (hH : max 3 d.segsX + 1 < 2 ^ 32) (hV : 2 * (max 1 d.segsY + 1) ≤ 2 ^ 32) (hC : 2 * d.cov ≤ 2 ^ 32) (a b : ℝ) (ha : 0 < a) (hb : 0 < b) :
    ∃ m', genPie d m = .ok m' ∧ AddsTriangles m m' (InFront (stretched a b d.radius)) := by
  have h3 : 3 ≤ max 3 d.segsX := le_max_left _ _
  have h1 : 1 ≤ max 1 d.segsY := le_max_left _ _
  have hC1 : 1 ≤ max 1 d.cov := le_max_left _ _
  have cut0 : 0 ≤ max 0 (min d.angle (Real.pi * 2)) := le_max_left _ _
  have cut1 : max 0 (min d.angle (Real.pi * 2)) < 2 * Real.pi := max_lt (by positivity) ((min_le_left _ _).trans_lt hcut)
  refine ⟨_, genPie_ok d m hH (by omega) (by omega), asm_winds _ _ ?_ (asm_ne_nil (mantle_ne (by omega) h1))⟩
  generalize max 0 (min d.angle (Real.pi * 2)) = cut at *
  generalize max 3 d.segsX = H at *
  generalize max 1 d.segsY = V at *
  generalize max 1 d.cov = C at *
  have hr : 0 < d.radius.x * d.radius.y := mul_pos hx hz
  have hs := sin_pie h3 (d.angleOffset + cut) cut cut0 cut1
  intro p hp
  simp only [pieParts, List.mem_cons, List.not_mem_nil, or_false] at hp
  rcases hp with rfl | rfl | rfl | rfl | rfl
  · exact mantleP_winds ha hr false _ _ _ _ _ hh h1 rfl hV one_pos (fun u _ => hs u) _ (by simp [scaled])
  · refine sideP_winds ha hr false _ _ _ _ _ _ _ _ hh hC1 h1 ?_ hV
    rw [← add_assoc, Real.sin_add_pi_div_two, Real.cos_add_pi_div_two, Real.sin_add_pi, Real.cos_add_pi, neg_neg]
    rfl
  · refine sideP_winds ha hr true _ _ _ _ _ _ _ _ hh hC1 h1 ?_ hV
    rw [Real.sin_add_pi_div_two, Real.cos_add_pi_div_two]
    rfl
  · exact discP0_winds hb hr false _ _ _ _ _ rfl hC (fun u _ => hs u)
  · exact discP0_winds hb hr true _ _ _ _ _ rfl hC (fun u _ => hs u)

example := C91_pie ⟨⟨4, 2⟩, 3, 5, 2, 1, 1, 1 / 2, true⟩ ⟨[], []⟩ (by norm_num) (by norm_num) (by norm_num) (by linarith [Real.two_le_pi]) (by norm_num)
  (by norm_num) (by norm_num) 1 1 (by norm_num) (by norm_num)

/-! Ellipsoid and capsule. -/

/-- The sign for a cell of an arc from the pole: both rows before the equator. -/
theorem arc_sign {a b ry t t' : ℝ} (ha : 0 < a) (hb : 0 < b) (hy : 0 < ry) (h0 : 0 ≤ t) (h : t < t') (h1 : t' ≤ Real.pi / 2) {k : ℝ} (hk : k = t ∨ k = t') :
    a * Real.sin k * (ry * Real.cos t' - ry * Real.cos t) + b * Real.cos k * (Real.sin t - Real.sin t') < 0 := by
  have hpi := Real.pi_pos
  have hc : Real.cos t' < Real.cos t := Real.cos_lt_cos_of_nonneg_of_le_pi h0 (by linarith) h
  have hs : Real.sin t < Real.sin t' := Real.sin_lt_sin_of_lt_of_le_pi_div_two (by linarith) h1 h
  have hk0 : 0 ≤ k := by rcases hk with rfl | rfl <;> linarith
  have hk1 : k ≤ Real.pi / 2 := by rcases hk with rfl | rfl <;> linarith
  have s0 : 0 ≤ Real.sin k := Real.sin_nonneg_of_nonneg_of_le_pi hk0 (by linarith)
  have c0 : 0 ≤ Real.cos k := Real.cos_nonneg_of_neg_pi_div_two_le_of_le (by linarith) hk1
  have hsq := Real.sin_sq_add_cos_sq k
  have p1 : 0 < a * (ry * (Real.cos t - Real.cos t')) := mul_pos ha (mul_pos hy (by linarith))
  have p2 : 0 < b * (Real.sin t' - Real.sin t) := mul_pos hb (by linarith)
  have e : a * Real.sin k * (ry * Real.cos t' - ry * Real.cos t) + b * Real.cos k * (Real.sin t - Real.sin t') =
    -(Real.sin k * (a * (ry * (Real.cos t - Real.cos t'))) + Real.cos k * (b * (Real.sin t' - Real.sin t))) := by ring
  rw [e, neg_lt_zero]
  rcases s0.eq_or_lt with h | h
  · have : Real.cos k = 1 := by
      rw [← h] at hsq
      nlinarith
    rw [← h, this]; linarith
  · have := mul_pos h p1
    have := mul_nonneg c0 p2.le
    linarith

/-- The same behind the equator, by symmetry. -/
theorem arc_sign' {a b ry t t' : ℝ} (ha : 0 < a) (hb : 0 < b) (hy : 0 < ry) (h0 : Real.pi / 2 ≤ t) (h : t < t') (h1 : t' ≤ Real.pi) {k : ℝ} (hk : k = t ∨ k = t') :
    a * Real.sin k * (ry * Real.cos t' - ry * Real.cos t) + b * Real.cos k * (Real.sin t - Real.sin t') < 0 := by
  have := arc_sign (t := Real.pi - t') (t' := Real.pi - t) (k := Real.pi - k) ha hb hy (by linarith) (by linarith) (by linarith)
    (by rcases hk with rfl | rfl <;> simp)
  simp only [Real.sin_pi_sub, Real.cos_pi_sub] at this
  linarith

/-- The rows of a sphere. -/
theorem arc_rows {a b ry : ℝ} (ha : 0 < a) (hb : 0 < b) (hy : 0 < ry) {V v : ℕ} (hV : 2 ≤ V) (hv : v < V) {k : ℝ}
    (hk : k = Real.pi * v / V ∨ k = Real.pi * (v + 1 : ℕ) / V) :
    a * Real.sin k * (ry * Real.cos (Real.pi * (v + 1 : ℕ) / V) - ry * Real.cos (Real.pi * v / V)) +
      b * Real.cos k * (Real.sin (Real.pi * v / V) - Real.sin (Real.pi * (v + 1 : ℕ) / V)) < 0 := by
  have hpi := Real.pi_pos
  have hV' : (0 : ℝ) < V := by exact_mod_cast (show 0 < V by omega)
  have hlt : Real.pi * v / V < Real.pi * (v + 1 : ℕ) / V := by
    rw [div_lt_div_iff_of_pos_right hV']; push_cast; nlinarith
  have h0 : 0 ≤ Real.pi * v / V := by positivity
  have h1 : Real.pi * (v + 1 : ℕ) / V ≤ Real.pi := by
    rw [div_le_iff₀ hV']
    exact mul_le_mul_of_nonneg_left (by exact_mod_cast hv) hpi.le
  rcases Nat.lt_trichotomy (2 * v + 1) V with h | h | h
  · refine arc_sign ha hb hy h0 hlt ?_ hk
    rw [div_le_iff₀ hV']
    have : (2 * v + 2 : ℝ) ≤ V := by exact_mod_cast h
    push_cast; nlinarith
  · have e : Real.pi * (v + 1 : ℕ) / V = Real.pi - Real.pi * v / V := by
      rw [← h]; push_cast; field_simp; ring
    have hk' : Real.sin k = Real.sin (Real.pi * v / V) := by
      rcases hk with rfl | rfl
      · rfl
      · rw [e, Real.sin_pi_sub]
    rw [hk', e, Real.sin_pi_sub, Real.cos_pi_sub, sub_self, mul_zero, add_zero]
    have v1 : 1 ≤ v := by omega
    have hv1 : (1 : ℝ) ≤ v := by exact_mod_cast v1
    have hs : 0 < Real.sin (Real.pi * v / V) := by
      apply Real.sin_pos_of_pos_of_lt_pi
      · positivity
      · linarith
    have hc : 0 < Real.cos (Real.pi * v / V) := by
      apply Real.cos_pos_of_mem_Ioo
      constructor
      · linarith
      · rw [div_lt_iff₀ hV', ← h]; push_cast; nlinarith
    have := mul_pos (mul_pos ha hs) (mul_pos hy hc)
    linarith
  · refine arc_sign' ha hb hy ?_ hlt h1 hk
    rw [le_div_iff₀ hV']
    have : (V : ℝ) ≤ 2 * v := by exact_mod_cast (show V ≤ 2 * v by omega)
    nlinarith

/-- C91: ellipsoid; the triangles at the poles without area are excepted. -/
theorem C91_ellipsoid (d : EllipsoidDesc) (m : M) (hx : 0 < d.radius.x) (hy : 0 < d.radius.y) (hz : 0 < d.radius.z)
    (hb : (max 2 d.segsY + 1) * (max 3 d.segsX + 1) ≤ 2 ^ 32) (a b : ℝ) (ha : 0 < a) (hb0 : 0 < b) :
    ∃ m', genEllipsoid d m = .ok m' ∧ AddsTriangles m m' (InFrontOrFlat (stretched a b ⟨d.radius.x, d.radius.z⟩)) := by
  have h1 : 3 ≤ max 3 d.segsX := le_max_left _ _
  have h2 : 2 ≤ max 2 d.segsY := le_max_left _ _
  simp only [genEllipsoid]
  generalize max 3 d.segsX = U at *
  generalize max 2 d.segsY = V at *
  have hU : U + 1 < 2 ^ 32 := by have := Nat.mul_le_mul_right (U + 1) (show 3 ≤ V + 1 by omega); omega
  have hV : V + 1 < 2 ^ 32 := by have := Nat.mul_le_mul_left (V + 1) (show 4 ≤ U + 1 by omega); omega
  rw [ellipsoidVerts_ok _ _ _ _ hU hV, Res.bind_ok, gridTris_ok _ _ _ _ _ _ (by omega) (by omega), ext_ext, List.append_nil, List.nil_append]
  refine ⟨_, rfl, adds_of _ _ _ (ne_nil_of_length (gridTrisIx_length ..) (by positivity)) fun m' hs => ?_⟩
  refine gridTrisIx_has _ _ _ _ _ hs hb ?_
  intro v u hv hu
  have R : ∀ i j : ℕ, Rev ⟨d.radius.x, d.radius.z⟩ (stretched a b ⟨d.radius.x, d.radius.z⟩) (ellV d.radius U V i j) (Real.sin (Real.pi * i / V))
      (d.radius.y * Real.cos (Real.pi * i / V)) (a * Real.sin (Real.pi * i / V)) (b * Real.cos (Real.pi * i / V)) (Real.pi / 2 - 2 * Real.pi * j / U) := by
    intro i j
    constructor
    · simp only [ellV, ellipsoidPoint, Real.sin_pi_div_two_sub, Real.cos_pi_div_two_sub, V3.mk.injEq]
      exact ⟨by ring, trivial, by ring⟩
    · simp only [ellV, ellipsoidPoint, stretched, Real.sin_pi_div_two_sub, Real.cos_pi_div_two_sub, V3.mk.injEq]
      exact ⟨by ring, by ring, by ring⟩
  have hV' : (0 : ℝ) < V := by exact_mod_cast (show 0 < V by omega)
  have hsin : ∀ i : ℕ, i ≤ V → 0 ≤ Real.sin (Real.pi * i / V) := by
    intro i hi
    apply Real.sin_nonneg_of_nonneg_of_le_pi
    · have := Real.pi_pos; positivity
    · rw [div_le_iff₀ hV']
      exact mul_le_mul_of_nonneg_left (by exact_mod_cast hi) Real.pi_pos.le
  have hstep : Real.sin (Real.pi / 2 - 2 * Real.pi * (u + 1 : ℕ) / U - (Real.pi / 2 - 2 * Real.pi * u / U)) = -Real.sin (2 * Real.pi / U) := by
    rw [← Real.sin_neg]
    congr 1
    push_cast; ring
  have hs' := sin_step h1
  refine rev_quad' (mul_pos hx hz) (hsin v hv.le) (hsin (v + 1) hv) (R _ _) (R _ _) (R _ _) (R _ _) ?_ ?_
  · rw [hstep, neg_mul, ← mul_neg]
    exact mul_pos hs' (neg_pos.2 (arc_rows ha hb0 hy h2 hv (.inl rfl)))
  · rw [hstep, neg_mul, ← mul_neg]
    exact mul_pos hs' (neg_pos.2 (arc_rows ha hb0 hy h2 hv (.inr rfl)))

example := C91_ellipsoid ⟨⟨4, 2, 3⟩, 5, 4, true⟩ ⟨[], []⟩ (by norm_num) (by norm_num) (by norm_num) (by norm_num) 1 1 (by norm_num)
  (by norm_num)

theorem hemiP_winds {a b : ℝ} (ha : 0 < a) (hb0 : 0 < b) (alt : Bool) (r : V3 ℝ) (hx : 0 < r.x) (hy : 0 < r.y) (hz : 0 < r.z) (h side : ℝ)
    (hs : side = 1 ∨ side = -1) (H V : ℕ) (hH : 3 ≤ H) (hV : 1 ≤ V) (hb : (V + 1) * (H + 1) ≤ 2 ^ 32) :
    (hemiP alt r h side H V).Winds (InFrontOrFlat (stretched a b ⟨r.x, r.z⟩)) := by
  intro m off hst
  refine gridTrisIx_has false alt H V off hst hb ?_
  intro v u hv hu
  have hpi := Real.pi_pos
  have hV' : (0 : ℝ) < V := by exact_mod_cast hV
  have s2 : side * side = 1 := by rcases hs with rfl | rfl <;> norm_num
  have R : ∀ i j : ℕ, Rev ⟨r.x, r.z⟩ (stretched a b ⟨r.x, r.z⟩) (hemiVx r h side H V i j) (Real.sin (Real.pi / 2 * (i / V)))
      (side * (r.y * Real.cos (Real.pi / 2 * (i / V)) + h / 2)) (a * Real.sin (Real.pi / 2 * (i / V))) (b * (side * Real.cos (Real.pi / 2 * (i / V))))
      (-(side * turn H j)) := by
    intro i j
    have e1 : Real.sin (-(side * turn H j)) = -side * Real.sin (turn H j) := by
      rcases hs with rfl | rfl <;> simp
    have e2 : Real.cos (-(side * turn H j)) = Real.cos (turn H j) := by
      rcases hs with rfl | rfl <;> simp
    constructor
    · simp only [hemiVx, hemiPoint, e1, e2, V3.mk.injEq]
      exact ⟨by ring, trivial, by ring⟩
    · simp only [hemiVx, hemiPoint, stretched, e1, e2, V3.mk.injEq]
      exact ⟨by ring, by ring, by ring⟩
  have hsin : ∀ i : ℕ, i ≤ V → 0 ≤ Real.sin (Real.pi / 2 * (i / V)) := by
    intro i hi
    obtain ⟨l0, l1⟩ := frac_unit i V hi
    apply Real.sin_nonneg_of_nonneg_of_le_pi
    · positivity
    · nlinarith
  have hstep : Real.sin (-(side * turn H (u + 1)) - -(side * turn H u)) = -(side * Real.sin (2 * Real.pi / H)) := by
    have e : turn H (u + 1) = turn H u + 2 * Real.pi / H := by unfold turn; push_cast; ring
    rw [e]
    rcases hs with rfl | rfl
    · rw [show -(1 * (turn H u + 2 * Real.pi / H)) - -(1 * turn H u) = -(2 * Real.pi / H) by ring, Real.sin_neg]; ring
    · rw [show -(-1 * (turn H u + 2 * Real.pi / H)) - -(-1 * turn H u) = 2 * Real.pi / H by ring]; ring
  have hlt : Real.pi / 2 * ((v : ℝ) / V) < Real.pi / 2 * (((v + 1 : ℕ) : ℝ) / V) := by
    apply mul_lt_mul_of_pos_left _ (by linarith)
    rw [div_lt_div_iff_of_pos_right hV']; push_cast; linarith
  have h0 : 0 ≤ Real.pi / 2 * ((v : ℝ) / V) := by positivity
  have h1 : Real.pi / 2 * (((v + 1 : ℕ) : ℝ) / V) ≤ Real.pi / 2 := by
    have := (frac_unit (v + 1) V hv).2
    nlinarith
  have hs' := sin_step hH
  have key : ∀ k, (k = Real.pi / 2 * ((v : ℝ) / V) ∨ k = Real.pi / 2 * (((v + 1 : ℕ) : ℝ) / V)) →
      0 < -(side * Real.sin (2 * Real.pi / H)) * (a * Real.sin k * (side * (r.y * Real.cos (Real.pi / 2 * (((v + 1 : ℕ) : ℝ) / V)) + h / 2) -
        side * (r.y * Real.cos (Real.pi / 2 * ((v : ℝ) / V)) + h / 2)) + b * (side * Real.cos k) *
        (Real.sin (Real.pi / 2 * ((v : ℝ) / V)) - Real.sin (Real.pi / 2 * (((v + 1 : ℕ) : ℝ) / V)))) := by
    intro k hk
    have g := mul_pos hs' (neg_pos.2 (arc_sign ha hb0 hy h0 hlt h1 hk))
    refine lt_of_lt_of_eq g ?_
    linear_combination (Real.sin (2 * Real.pi / H)) * (a * Real.sin k * (r.y * Real.cos (Real.pi / 2 * (((v + 1 : ℕ) : ℝ) / V)) -
      r.y * Real.cos (Real.pi / 2 * ((v : ℝ) / V))) + b * Real.cos k * (Real.sin (Real.pi / 2 * ((v : ℝ) / V)) - Real.sin (Real.pi / 2 * (((v + 1 : ℕ) : ℝ) / V)))) * s2
  refine rev_quad' (mul_pos hx hz) (hsin v hv.le) (hsin (v + 1) hv) (R _ _) (R _ _) (R _ _) (R _ _) ?_ ?_
  · rw [hstep]; exact key _ (.inl rfl)
  · rw [hstep]; exact key _ (.inr rfl)

/-- C91: capsule. -/
theorem C91_capsule (d : CapsuleDesc) (m : M) (hx : 0 < d.radius.x) (hy : 0 < d.radius.y) (hz : 0 < d.radius.z) (hh : 0 < d.height)
    (hV : 2 * (max 1 d.segsY + 1) ≤ 2 ^ 32) (hE : (max 2 d.ellipsoidSegs + 1) * (max 3 d.segsX + 1) ≤ 2 ^ 32)
    (a b : ℝ) (ha : 0 < a) (hb : 0 < b) :
    ∃ m', genCapsule d m = .ok m' ∧ AddsTriangles m m' (InFrontOrFlat (stretched a b ⟨d.radius.x, d.radius.z⟩)) := by
  have h3 : 3 ≤ max 3 d.segsX := le_max_left _ _
  have h1 : 1 ≤ max 1 d.segsY := le_max_left _ _
  have h2 : 2 ≤ max 2 d.ellipsoidSegs := le_max_left _ _
  have hU : max 3 d.segsX + 1 < 2 ^ 32 := by
    have := Nat.mul_le_mul_right (max 3 d.segsX + 1) (show 3 ≤ max 2 d.ellipsoidSegs + 1 by omega); omega
  have hE' : max 2 d.ellipsoidSegs + 1 < 2 ^ 32 := by
    have := Nat.mul_le_mul_left (max 2 d.ellipsoidSegs + 1) (show 4 ≤ max 3 d.segsX + 1 by omega); omega
  refine ⟨_, genCapsule_ok d m hU (by omega) hE', asm_winds _ _ ?_ (asm_ne_nil (mantle_ne (by omega) h1))⟩
  generalize max 3 d.segsX = H at *
  generalize max 1 d.segsY = V at *
  generalize max 2 d.ellipsoidSegs = E at *
  intro p hp
  simp only [capsuleParts, List.mem_cons, List.not_mem_nil, or_false] at hp
  rcases hp with rfl | rfl | rfl
  · exact winds_mono (fun _ _ _ => .inr) (mantleP_winds ha (mul_pos hx hz) false _ _ _ _ _ hh h1 rfl hV one_pos (fun u _ => sin_turn h3 u) _ (by simp [scaled]))
  · exact hemiP_winds ha hb _ _ hx hy hz _ _ (.inl rfl) _ _ h3 (by omega) hE
  · exact hemiP_winds ha hb _ _ hx hy hz _ _ (.inr rfl) _ _ h3 (by omega) hE

example := C91_capsule ⟨⟨4, 2, 3⟩, 1, 5, 2, 3, true⟩ ⟨[], []⟩ (by norm_num) (by norm_num) (by norm_num) (by norm_num) (by norm_num)
  (by norm_num) 1 1 (by norm_num) (by norm_num)

/-- C91: for a sphere, and for circular radii in general, the directions above are the normals themselves. -/
theorem C91_circular (s : ℝ) (hs : 0 < s) : (∃ a b, 0 < a ∧ 0 < b ∧ ∀ v : Vertex ℝ, stretched a b ⟨s, s⟩ v = v.normal) :=
  ⟨1 / s, 1, by positivity, one_pos, fun v => stretched_eq hs.ne' v⟩

example := C91_circular 1 (by norm_num)

/-! Torus. -/

theorem normalizeVec_scale (v : V3 ℝ) : ∃ s : ℝ, 0 < s ∧ Plane.normalizeVec v = s • v := by
  unfold Plane.normalizeVec
  split
  · exact ⟨1, one_pos, by ext <;> simp⟩
  · rename_i h
    have h0 : 0 ≤ v.lenSq := by simp only [V3.lenSq, V3.dot]; nlinarith [sq_nonneg v.x, sq_nonneg v.y, sq_nonneg v.z]
    exact ⟨_, one_div_pos.2 (Real.sqrt_pos.2 (lt_of_le_of_ne h0 (Ne.symm h))), rfl⟩

/-- Positive factors do not matter. -/
theorem inFront_scale {dir dir' : Vertex ℝ → V3 ℝ} (s : Vertex ℝ → ℝ) (hs : ∀ v, 0 ≤ s v) (h : ∀ v, dir v = s v • dir' v) {a b c : Vertex ℝ}
    (hi : InFront dir a b c) : InFront dir' a b c := by
  obtain ⟨h1, h2, h3⟩ := hi
  have e : ∀ (f : V3 ℝ) (v : Vertex ℝ), V3.dot f (dir v) = s v * V3.dot f (dir' v) := by
    intro f v
    rw [h]
    simp only [V3.dot, V3.smul_x, V3.smul_y, V3.smul_z]; ring
  rw [e] at h1 h2 h3
  exact ⟨pos_of_mul_pos_of_pos_left' (hs _) h1, pos_of_mul_pos_of_pos_left' (hs _) h2, pos_of_mul_pos_of_pos_left' (hs _) h3⟩
where
  pos_of_mul_pos_of_pos_left' {x y : ℝ} (hx : 0 ≤ x) (h : 0 < x * y) : 0 < y := by
    by_contra hy
    push Not at hy
    have := mul_nonneg hx (neg_nonneg.2 hy)
    linarith

/-- C91: torus, with the radii of the ring and of the tube in the same ratio, and a tube that is thinner than the ring. -/
theorem C91_torus (d : TorusDesc) (m : M) (hx : 0 < d.tubeRadius.x) (hy : 0 < d.tubeRadius.y) (hz : 0 < d.tubeRadius.z)
    (hr : d.tubeRadius.x < d.ringRadius.x) (hq : d.ringRadius.x * d.tubeRadius.z = d.ringRadius.y * d.tubeRadius.x)
    (hb : (max 3 d.segsY + 1) * (max 3 d.segsX + 1) ≤ 2 ^ 32) :
    ∃ m', genTorus d m = .ok m' ∧
      AddsTriangles m m' (InFront (stretched3 ⟨d.tubeRadius.x ^ 2, d.tubeRadius.y ^ 2, d.tubeRadius.z ^ 2⟩)) := by
  have h1 : 3 ≤ max 3 d.segsX := le_max_left _ _
  have h2 : 3 ≤ max 3 d.segsY := le_max_left _ _
  simp only [genTorus]
  generalize max 3 d.segsX = U at *
  generalize max 3 d.segsY = V at *
  have hU : U + 1 < 2 ^ 32 := by have := Nat.mul_le_mul_right (U + 1) (show 3 ≤ V + 1 by omega); omega
  have hV : V + 1 < 2 ^ 32 := by have := Nat.mul_le_mul_left (V + 1) (show 4 ≤ U + 1 by omega); omega
  rw [torusVerts_ok _ _ _ _ _ hU hV, Res.bind_ok, gridTris_ok _ _ _ _ _ _ (by omega) (by omega), ext_ext, List.append_nil, List.nil_append]
  refine ⟨_, rfl, adds_of _ _ _ (ne_nil_of_length (gridTrisIx_length ..) (by positivity)) fun m' hs => ?_⟩
  generalize d.ringRadius = ring at *
  generalize d.tubeRadius = tube at *
  obtain ⟨tx, ty, tz⟩ := tube
  dsimp only at hx hy hz hr hq ⊢
  let len : Vertex ℝ → ℝ := fun v => √((tx * v.normal.x) ^ 2 + (ty * v.normal.y) ^ 2 + (tz * v.normal.z) ^ 2)
  let dir : Vertex ℝ → V3 ℝ := fun v => (1 / len v) • stretched3 ⟨tx ^ 2, ty ^ 2, tz ^ 2⟩ v
  intro t ht
  refine has_mono (Q := InFront dir) (fun a b c => inFront_scale (fun v => 1 / len v) (fun v => by positivity) (fun v => rfl)) ?_
  revert t
  refine gridTrisIx_has _ _ _ _ _ hs hb ?_
  intro v u hv hu
  have hR : 1 < ring.x / tx := (one_lt_div hx).2 hr
  have R : ∀ i j : ℕ, Rev ⟨tx, tz⟩ dir (torV ring ⟨tx, ty, tz⟩ U V i j) (ring.x / tx + Real.sin (2 * Real.pi * i / V)) (ty * Real.cos (2 * Real.pi * i / V))
      (Real.sin (2 * Real.pi * i / V)) (ty * Real.cos (2 * Real.pi * i / V)) (2 * Real.pi * j / U) := by
    intro i j
    constructor
    · simp only [torV, torusPoint, V3.mk.injEq]
      refine ⟨by field_simp, trivial, ?_⟩
      have : ring.y = tz * (ring.x / tx) := by field_simp; linarith
      rw [this]; ring
    · generalize htheta : 2 * Real.pi * i / V = th
      generalize hphi : 2 * Real.pi * j / U = ph
      obtain ⟨s, hs0, hse⟩ := normalizeVec_scale ⟨Real.sin ph * Real.sin th / tx, Real.cos th / ty, Real.cos ph * Real.sin th / tz⟩
      have hn : (torV ring ⟨tx, ty, tz⟩ U V i j).normal = s • ⟨Real.sin ph * Real.sin th / tx, Real.cos th / ty, Real.cos ph * Real.sin th / tz⟩ := by
        simp only [torV, tubeNormal, htheta, hphi]; exact hse
      have hl : len (torV ring ⟨tx, ty, tz⟩ U V i j) = s := by
        simp only [len, hn, V3.smul_x, V3.smul_y, V3.smul_z]
        rw [show (tx * (s * (Real.sin ph * Real.sin th / tx))) ^ 2 + (ty * (s * (Real.cos th / ty))) ^ 2 + (tz * (s * (Real.cos ph * Real.sin th / tz))) ^ 2 = s ^ 2 by
          have e1 : tx * (s * (Real.sin ph * Real.sin th / tx)) = s * (Real.sin ph * Real.sin th) := by field_simp
          have e2 : ty * (s * (Real.cos th / ty)) = s * Real.cos th := by field_simp
          have e3 : tz * (s * (Real.cos ph * Real.sin th / tz)) = s * (Real.cos ph * Real.sin th) := by field_simp
          rw [e1, e2, e3]
          linear_combination s ^ 2 * Real.sin_sq_add_cos_sq th + s ^ 2 * Real.sin th ^ 2 * Real.sin_sq_add_cos_sq ph]
        exact Real.sqrt_sq hs0.le
      simp only [dir, hl, stretched3, hn]
      ext <;> simp <;> field_simp
  have hs1 : ∀ i : ℕ, 0 < ring.x / tx + Real.sin (2 * Real.pi * i / V) := by
    intro i
    have := Real.neg_one_le_sin (2 * Real.pi * i / V)
    linarith
  have hst : Real.sin (2 * Real.pi * u / U - 2 * Real.pi * (u + 1 : ℕ) / U) = -Real.sin (2 * Real.pi / U) := by
    rw [← Real.sin_neg]; congr 1; push_cast; ring
  have hst' : Real.sin (2 * Real.pi * (v + 1 : ℕ) / V - 2 * Real.pi * v / V) = Real.sin (2 * Real.pi / V) := by
    congr 1; push_cast; ring
  rw [Real.sin_sub] at hst'
  have p := mul_pos (sin_step h1) (mul_pos hy (sin_step h2))
  refine rev_quad (mul_pos hx hz) (hs1 _) (hs1 _) (R _ _) (R _ _) (R _ _) (R _ _) ?_ ?_
  · rw [hst]
    refine lt_of_lt_of_eq p ?_
    linear_combination -(Real.sin (2 * Real.pi / U) * ty) * hst'
  · rw [hst]
    refine lt_of_lt_of_eq p ?_
    linear_combination -(Real.sin (2 * Real.pi / U) * ty) * hst'

example := C91_torus ⟨⟨4, 2⟩, ⟨2, 3, 1⟩, 5, 4, true⟩ ⟨[], []⟩ (by norm_num) (by norm_num) (by norm_num) (by norm_num) (by norm_num)
  (by norm_num)

/-- C91: for a round tube these directions are the normals, up to a factor. -/
theorem C91_torus_circular (d : TorusDesc) (m : M) (s : ℝ) (hs : 0 < s) (ht : d.tubeRadius = ⟨s, s, s⟩) (hr : s < d.ringRadius.x) (hq : d.ringRadius.x = d.ringRadius.y)
    (hb : (max 3 d.segsY + 1) * (max 3 d.segsX + 1) ≤ 2 ^ 32) :
    ∃ m', genTorus d m = .ok m' ∧ AddsTriangles m m' (InFront (·.normal)) := by
  obtain ⟨m', e, h⟩ := C91_torus d m (by rw [ht]; exact hs) (by rw [ht]; exact hs) (by rw [ht]; exact hs) (by rw [ht]; exact hr) (by rw [ht, hq]) hb
  refine ⟨m', e, adds_mono (fun a b c => inFront_scale (fun _ => s ^ 2) (fun _ => by positivity) fun v => ?_) h⟩
  rw [ht]
  ext <;> simp [stretched3]

example := C91_torus_circular ⟨⟨4, 4⟩, ⟨1, 1, 1⟩, 5, 4, true⟩ ⟨[], []⟩ 1 (by norm_num) (by norm_num) (by norm_num) (by norm_num)
  (by norm_num)

/-! Cuboid. -/

theorem adds_trans {m m1 m2 : M} {Q : Vertex ℝ → Vertex ℝ → Vertex ℝ → Prop} {vs : List (Vertex ℝ)} (hv : m2.vertices = m1.vertices ++ vs)
    (h1 : AddsTriangles m m1 Q) (h2 : AddsTriangles m1 m2 Q) : AddsTriangles m m2 Q := by
  obtain ⟨ts, n1, e1, q1⟩ := h1
  obtain ⟨ts', n2, e2, q2⟩ := h2
  refine ⟨ts ++ ts', by simp [n1], by rw [e2, e1, List.append_assoc], fun t ht => ?_⟩
  rcases List.mem_append.1 ht with ht | ht
  · obtain ⟨a, b, c, ha, hb, hc, q⟩ := q1 t ht
    have up : ∀ {i : ℕ} {y : Vertex ℝ}, m1.vertices[i]? = some y → m2.vertices[i]? = some y := by
      intro i y hy
      rw [hv, List.getElem?_append_left ((List.getElem?_eq_some_iff.1 hy).1), hy]
    exact ⟨a, b, c, up ha, up hb, up hc, q⟩
  · exact q2 t ht

/-- A rotation keeps the orientation. -/
def Turns (rot : V3 ℝ → V3 ℝ) : Prop := ∀ a b c n, V3.dot (facet (rot a) (rot b) (rot c)) (rot n) = V3.dot (facet a b c) n

theorem turns_id : Turns id := fun _ _ _ _ => rfl

theorem turns_rotY (t : ℝ) : Turns (rotY t) := by
  intro a b c n
  simp only [facet, rotY, V3.dot, V3.cross_x, V3.cross_y, V3.cross_z, V3.sub_x, V3.sub_y, V3.sub_z]
  linear_combination (((b.y - a.y) * (c.z - a.z) - (b.z - a.z) * (c.y - a.y)) * n.x + ((b.z - a.z) * (c.x - a.x) - (b.x - a.x) * (c.z - a.z)) * n.y + ((b.x - a.x) * (c.y - a.y) - (b.y - a.y) * (c.x - a.x)) * n.z) *
    Real.sin_sq_add_cos_sq t

theorem turns_rotX (t : ℝ) : Turns (rotX t) := by
  intro a b c n
  simp only [facet, rotX, V3.dot, V3.cross_x, V3.cross_y, V3.cross_z, V3.sub_x, V3.sub_y, V3.sub_z]
  linear_combination (((b.y - a.y) * (c.z - a.z) - (b.z - a.z) * (c.y - a.y)) * n.x + ((b.z - a.z) * (c.x - a.x) - (b.x - a.x) * (c.z - a.z)) * n.y + ((b.x - a.x) * (c.y - a.y) - (b.y - a.y) * (c.x - a.x)) * n.z) *
    Real.sin_sq_add_cos_sq t

theorem face_winds (m : M) {rot : V3 ℝ → V3 ℝ} (hrot : Turns rot) {sh sv : ℝ} (oz : ℝ) (hsh : 0 < sh) (hsv : 0 < sv) (H V : ℕ) (alt : Bool) (hH : 1 ≤ H) (hV : 1 ≤ V)
    (hb : (V + 1) * (H + 1) ≤ 2 ^ 32) :
    ∃ m' vs, buildFace m rot sh sv oz H V alt = .ok m' ∧ m'.vertices = m.vertices ++ vs ∧ AddsTriangles m m' (InFront (·.normal)) := by
  have hU' : H + 1 < 2 ^ 32 := by have := Nat.mul_le_mul_right (H + 1) (show 2 ≤ V + 1 by omega); omega
  have hV' : V + 1 < 2 ^ 32 := by have := Nat.mul_le_mul_left (V + 1) (show 2 ≤ H + 1 by omega); omega
  rw [buildFace_ok _ _ _ _ _ _ _ _ hU' hV']
  refine ⟨_, _, rfl, rfl, adds_of _ _ _ (ne_nil_of_length (faceTrisIx_length ..) (by positivity)) fun m' hs => ?_⟩
  refine faceTrisIx_has false alt H V _ hs hb ?_
  intro v u hv hu
  have hHr : (0 : ℝ) < H := by exact_mod_cast hH
  have hVr : (0 : ℝ) < V := by exact_mod_cast hV
  have p : 0 < sh / H * (sv / V) := by positivity
  have ej : sh * (((u + 1 : ℕ) : ℝ) / H) = sh * ((u : ℝ) / H) + sh / H := by push_cast; ring
  have ei : sv * (((v + 1 : ℕ) : ℝ) / V) = sv * ((v : ℝ) / V) + sv / V := by push_cast; ring
  show Quad4 _ _ _ _ _
  constructor <;> simp only [InFront, faceV, hrot _ _ _ _, ej, ei] <;>
    simp only [facet, V3.dot, V3.cross_x, V3.cross_y, V3.cross_z, V3.sub_x, V3.sub_y, V3.sub_z] <;>
    (refine ⟨?_, ?_, ?_⟩ <;> linarith)

/-- C91: cuboid. -/
theorem C91_cuboid (sx sy : ℝ) (d : CuboidDesc) (m : M) (hx : 0 < d.size.x) (hy : 0 < d.size.y) (hz : 0 < d.size.z)
    (h1 : (max 1 d.segsY + 1) * (max 1 d.segsX + 1) ≤ 2 ^ 32) (h2 : (max 1 d.segsY + 1) * (max 1 d.segsZ + 1) ≤ 2 ^ 32)
    (h3 : (max 1 d.segsZ + 1) * (max 1 d.segsX + 1) ≤ 2 ^ 32) :
    ∃ m', genCuboid sx sy d m = .ok m' ∧ AddsTriangles m m' (InFront (·.normal)) := by
  have p1 : 1 ≤ max 1 d.segsX := le_max_left _ _
  have p2 : 1 ≤ max 1 d.segsY := le_max_left _ _
  have p3 : 1 ≤ max 1 d.segsZ := le_max_left _ _
  simp only [genCuboid]
  obtain ⟨m1, v1, e1, w1, g1⟩ := face_winds m turns_id (-d.size.z) hx hy (max 1 d.segsX) (max 1 d.segsY) d.alternateGrid p1 p2 h1
  obtain ⟨m2, v2, e2, w2, g2⟩ := face_winds m1 (turns_rotY (sy * Real.pi)) (-d.size.z) hx hy (max 1 d.segsX) (max 1 d.segsY) d.alternateGrid p1 p2 h1
  obtain ⟨m3, v3, e3, w3, g3⟩ := face_winds m2 (turns_rotY (sy * -(Real.pi / 2))) (-d.size.x) hz hy (max 1 d.segsZ) (max 1 d.segsY) d.alternateGrid p3 p2 h2
  obtain ⟨m4, v4, e4, w4, g4⟩ := face_winds m3 (turns_rotY (sy * (Real.pi / 2))) (-d.size.x) hz hy (max 1 d.segsZ) (max 1 d.segsY) d.alternateGrid p3 p2 h2
  obtain ⟨m5, v5, e5, w5, g5⟩ := face_winds m4 (turns_rotX (sx * (Real.pi / 2))) (-d.size.y) hx hz (max 1 d.segsX) (max 1 d.segsZ) d.alternateGrid p1 p3 h3
  obtain ⟨m6, v6, e6, w6, g6⟩ := face_winds m5 (turns_rotX (sx * -(Real.pi / 2))) (-d.size.y) hx hz (max 1 d.segsX) (max 1 d.segsZ) d.alternateGrid p1 p3 h3
  refine ⟨m6, ?_, ?_⟩
  · rw [e1, Res.bind_ok, e2, Res.bind_ok, e3, Res.bind_ok, e4, Res.bind_ok, e5, Res.bind_ok, e6]
  · exact adds_trans w6 (adds_trans w5 (adds_trans w4 (adds_trans w3 (adds_trans w2 g1 g2) g3) g4) g5) g6

example := C91_cuboid 1 1 ⟨⟨4, 1, 3⟩, 3, 2, 1, true⟩ ⟨[], []⟩ (by norm_num) (by norm_num) (by norm_num) (by norm_num) (by norm_num)
  (by norm_num)

/-! With two different radii the normals themselves may point to the other side. -/

/-- C91, refutation: the cylinder of three segments with the radii 4 and 1. -/
theorem C91_normals_refuted : ¬ ∀ (d : CylinderDesc) (m : M), 0 < d.radius.x → 0 < d.radius.y → 0 < d.height →
    ∀ m', genCylinder d m = .ok m' → AddsTriangles m m' (InFront (·.normal)) := by
  intro h
  have := h ⟨⟨4, 1⟩, 1, 3, 1, 0, 0, false⟩ ⟨[], []⟩ (by norm_num) (by norm_num) (by norm_num) _
    (genCylinder_ok ⟨⟨4, 1⟩, 1, 3, 1, 0, 0, false⟩ ⟨[], []⟩ (by norm_num) (by norm_num) (by norm_num) (by norm_num))
  obtain ⟨ts, _, e, q⟩ := this
  have e' : ts = asm 0 (cylParts ⟨⟨4, 1⟩, 1, 3, 1, 0, 0, false⟩ 3 1) := by simpa [ext] using e.symm
  have ht : (⟨2, 0, 1⟩ : Ix) ∈ ts := by
    rw [e']
    apply List.mem_append_left
    show (⟨2, 0, 1⟩ : Ix) ∈ mantleTrisIx false false 3 1 0
    decide +kernel
  obtain ⟨a, b, c, ha, hb, hc, q⟩ := q _ ht
  have hv : ∀ i j : ℕ, i < 4 → j < 2 → (ext (⟨[], []⟩ : M) (allVs (cylParts ⟨⟨4, 1⟩, 1, 3, 1, 0, 0, false⟩ 3 1)) (asm 0 (cylParts ⟨⟨4, 1⟩, 1, 3, 1, 0, 0, false⟩ 3 1))).vertices[i * 2 + j]? =
      some (mantleV (turn 3) ⟨4, 1⟩ 1 1 3 1 i j) := by
    intro i j hi hj
    have := gridV_get 4 2 (mantleV (turn 3) ⟨4, 1⟩ 1 1 3 1) i j hi hj
    rw [← this]
    show (gridV 4 2 (mantleV (turn 3) ⟨4, 1⟩ 1 1 3 1) ++ _)[i * 2 + j]? = _
    rw [List.getElem?_append_left]
    rw [gridV_length]; omega
  have ea : a = _ := Option.some.inj (ha.symm.trans (hv 1 0 (by norm_num) (by norm_num)))
  have eb : b = _ := Option.some.inj (hb.symm.trans (hv 0 0 (by norm_num) (by norm_num)))
  have ec : c = _ := Option.some.inj (hc.symm.trans (hv 0 1 (by norm_num) (by norm_num)))
  have := q.1
  rw [ea, eb, ec] at this
  have t0 : turn 3 0 = 0 := by simp [turn]
  have t1 : turn 3 1 = Real.pi - Real.pi / 3 := by simp [turn]; ring
  simp only [mantleV, atAngle, t0, t1, Real.sin_pi_sub, Real.cos_pi_sub, Real.sin_pi_div_three, Real.cos_pi_div_three, Real.sin_zero, Real.cos_zero, facet, V3.dot,
    V3.cross_x, V3.cross_y, V3.cross_z, V3.sub_x, V3.sub_y, V3.sub_z, V3.smul_x, V3.smul_y, V3.smul_z] at this
  have h3 : 0 < √3 := by positivity
  norm_num at this
  nlinarith

/-! Descriptors that meet the hypotheses. -/

example : ∃ m', genCylinder ⟨⟨4, 1⟩, 1, 3, 1, 0, 2, true⟩ ⟨[], []⟩ = .ok m' ∧ AddsTriangles ⟨[], []⟩ m' (InFront (stretched 1 1 ⟨4, 1⟩)) :=
  C91_cylinder ⟨⟨4, 1⟩, 1, 3, 1, 0, 2, true⟩ _ (by norm_num) (by norm_num) (by norm_num) (by norm_num) (by norm_num) (by norm_num) (by norm_num) 1 1 one_pos one_pos
example : ∃ m', genTorus ⟨⟨2, 2⟩, ⟨1, 1, 1⟩, 8, 5, true⟩ ⟨[], []⟩ = .ok m' ∧ AddsTriangles ⟨[], []⟩ m' (InFront (·.normal)) :=
  C91_torus_circular ⟨⟨2, 2⟩, ⟨1, 1, 1⟩, 8, 5, true⟩ _ 1 one_pos rfl (by norm_num) rfl (by norm_num)
example : ∃ m', genEllipsoid ⟨⟨3, 1, 2⟩, 0, 7, false⟩ ⟨[], []⟩ = .ok m' ∧ AddsTriangles ⟨[], []⟩ m' (InFrontOrFlat (stretched 1 2 ⟨3, 2⟩)) :=
  C91_ellipsoid ⟨⟨3, 1, 2⟩, 0, 7, false⟩ _ (by norm_num) (by norm_num) (by norm_num) (by norm_num) 1 2 one_pos two_pos

end Geom.Gen
