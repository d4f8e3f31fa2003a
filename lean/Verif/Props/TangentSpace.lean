import Verif.Model.TangentSpace
import Verif.Spec.TangentSpace
import Verif.Props.Plane
import Verif.Base.VecTac
import Mathlib.Tactic.Linarith
import Mathlib.Tactic.FieldSimp
import Mathlib.Tactic.Positivity
import Mathlib.Tactic.NormNum

/-
  C76: tangent space of a triangle.
-/
set_option autoImplicit false
set_option linter.unusedSectionVars false

namespace Geom.TangentSpace
open Spec Plane Geom.Plane.Props
open Geom.Triangle (Tri Tri2)

theorem lenSq_nonneg (v : V3 ℝ) : 0 ≤ v.lenSq := by
  simp only [V3.lenSq, V3.dot]
  nlinarith [mul_self_nonneg v.x, mul_self_nonneg v.y, mul_self_nonneg v.z]

theorem lenSq_pos {v : V3 ℝ} (h : v ≠ 0) : 0 < v.lenSq := by
  rcases (lenSq_nonneg v).lt_or_eq with c | c
  · exact c
  · exfalso
    apply h
    simp only [V3.lenSq, V3.dot] at c
    have hx := mul_self_nonneg v.x
    have hy := mul_self_nonneg v.y
    have hz := mul_self_nonneg v.z
    ext
    · exact mul_self_eq_zero.1 (by linarith)
    · exact mul_self_eq_zero.1 (by linarith)
    · exact mul_self_eq_zero.1 (by linarith)

/-- Normalizing a multiple with a positive factor. -/
theorem normalizeVec_pos (v : V3 ℝ) {c : ℝ} (hc : 0 < c) : normalizeVec (c • v) = normalizeVec v := by
  unfold normalizeVec
  rw [V3.lenSq_smul]
  by_cases h : v.lenSq = 0
  · rw [if_pos (by rw [h, mul_zero]), if_pos h]
    have : v = 0 := by by_contra hv; exact (lenSq_pos hv).ne' h
    rw [this]
    ext <;> simp
  · rw [if_neg (mul_ne_zero (mul_pos hc hc).ne' h), if_neg h, Real.sqrt_mul (mul_self_nonneg c), Real.sqrt_mul_self hc.le]
    have : √ v.lenSq ≠ 0 := by rw [Real.sqrt_ne_zero']; exact lt_of_le_of_ne (lenSq_nonneg v) (Ne.symm h)
    ext <;> vec_simp <;> field_simp

theorem normalizeVec_neg (v : V3 ℝ) : normalizeVec (-v) = -normalizeVec v := by
  have : (-v).lenSq = v.lenSq := by vec_simp; ring
  unfold normalizeVec
  rw [this]
  split_ifs
  · rfl
  · ext <;> vec_simp <;> ring

theorem direction_normalize {v : V3 ℝ} (h : v ≠ 0) : Direction (normalizeVec v) v := by
  have hp := lenSq_pos h
  refine ⟨normalizeVec_unit h, √ v.lenSq, Real.sqrt_pos.2 hp, ?_⟩
  have : √ v.lenSq ≠ 0 := (Real.sqrt_pos.2 hp).ne'
  rw [normalizeVec, if_neg hp.ne']
  generalize √ v.lenSq = r at *
  ext <;> vec_simp <;> field_simp

/-- The gradients exist exactly once if the texture triangle is not degenerate. -/
theorem gradients_unique (coords : Tri ℝ) (tex : Tri2 ℝ) (h : det tex ≠ 0) : ∃ U W, Gradients coords tex U W ∧ ∀ U' W', Gradients coords tex U' W' → U' = U ∧ W' = W := by
  unfold det at h
  refine ⟨(1 / det tex) • ((tex.c - tex.a).y • (coords.b - coords.a) - (tex.b - tex.a).y • (coords.c - coords.a)),
    (1 / det tex) • ((tex.b - tex.a).x • (coords.c - coords.a) - (tex.c - tex.a).x • (coords.b - coords.a)), ⟨?_, ?_⟩, ?_⟩
  · unfold det
    ext <;> vec_simp <;> field_simp <;> ring
  · unfold det
    ext <;> vec_simp <;> field_simp <;> ring
  · rintro U' W' ⟨h1, h2⟩
    rw [h1, h2]
    unfold det
    constructor <;> ext <;> vec_simp <;> field_simp <;> ring

variable {coords : Tri ℝ} {tex : Tri2 ℝ} {U W : V3 ℝ}

theorem raw (g : Gradients coords tex U W) :
    (tex.c - tex.a).y • (coords.b - coords.a) - (tex.b - tex.a).y • (coords.c - coords.a) = det tex • U ∧
    (tex.c - tex.a).x • (coords.b - coords.a) - (tex.b - tex.a).x • (coords.c - coords.a) = -(det tex • W) ∧
    V3.cross (coords.b - coords.a) (coords.c - coords.a) = det tex • V3.cross U W := by
  obtain ⟨h1, h2⟩ := g
  rw [h1, h2]
  unfold det
  refine ⟨?_, ?_, ?_⟩ <;> ext <;> vec_simp <;> ring

/-- Sine of the angle between two directions, as the product of the unit vectors. -/
noncomputable def sine (U W : V3 ℝ) : ℝ := V3.dot (V3.cross (normalizeVec U) (normalizeVec W)) (normalizeVec (V3.cross U W))

/-- It is the length of the cross product by the lengths. -/
theorem sine_eq (h : V3.cross U W ≠ 0) : 0 < sine U W ∧ sine U W ^ 2 * (U.lenSq * W.lenSq) = (V3.cross U W).lenSq := by
  have hU : U ≠ 0 := by rintro rfl; apply h; ext <;> vec_simp <;> ring
  have hW : W ≠ 0 := by rintro rfl; apply h; ext <;> vec_simp <;> ring
  have pU := lenSq_pos hU
  have pW := lenSq_pos hW
  have pC := lenSq_pos h
  have e : sine U W = (V3.cross U W).lenSq / (√ U.lenSq * √ W.lenSq * √ (V3.cross U W).lenSq) := by
    unfold sine normalizeVec
    rw [if_neg pU.ne', if_neg pW.ne', if_neg pC.ne']
    have a := (Real.sqrt_pos.2 pU).ne'
    have b := (Real.sqrt_pos.2 pW).ne'
    have c := (Real.sqrt_pos.2 pC).ne'
    generalize √ U.lenSq = x at *
    generalize √ W.lenSq = y at *
    generalize √ (V3.cross U W).lenSq = z at *
    vec_simp
    field_simp
  refine ⟨by rw [e]; have := Real.sqrt_pos.2 pU; have := Real.sqrt_pos.2 pW; have := Real.sqrt_pos.2 pC; positivity, ?_⟩
  rw [e, div_pow, mul_pow, mul_pow, Real.sq_sqrt pU.le, Real.sq_sqrt pW.le, Real.sq_sqrt pC.le]
  field_simp

/-- The result in terms of the gradients. -/
theorem compute_eq (eps : ℝ) (he : 0 ≤ eps) (g : Gradients coords tex U W) (hd : det tex ≠ 0) (hn : V3.cross U W ≠ 0) :
    compute eps coords tex =
      if 0 < det tex then (normalizeVec U, -normalizeVec W, normalizeVec (V3.cross U W))
      else if eps < sine U W then (normalizeVec U, -normalizeVec W, -normalizeVec (V3.cross U W))
      else (-normalizeVec U, normalizeVec W, -normalizeVec (V3.cross U W)) := by
  obtain ⟨r1, r2, r3⟩ := raw g
  have nn : ∀ v : V3 ℝ, - -v = v := fun v => by ext <;> vec_simp <;> ring
  unfold compute
  dsimp only
  rw [r1, r2, r3, normalizeVec_neg]
  rcases lt_or_gt_of_ne hd with c | c
  · have flip : ∀ v : V3 ℝ, normalizeVec (det tex • v) = -normalizeVec v := fun v => by
      rw [show det tex • v = -((-det tex) • v) by ext <;> vec_simp <;> ring, normalizeVec_neg, normalizeVec_pos _ (by linarith)]
    rw [flip, flip, flip, nn, if_neg (not_lt.2 c.le)]
    have e : V3.dot (V3.cross (-normalizeVec U) (normalizeVec W)) (-normalizeVec (V3.cross U W)) = sine U W := by unfold sine; vec_simp; ring
    rw [e, nn]
  · rw [normalizeVec_pos _ c, normalizeVec_pos _ c, normalizeVec_pos _ c, if_pos c]
    have e : V3.dot (V3.cross (normalizeVec U) (-normalizeVec W)) (normalizeVec (V3.cross U W)) = -sine U W := by unfold sine; vec_simp; ring
    rw [e, if_neg (by have := (sine_eq hn).1; linarith)]

theorem normalize_perp {a b : V3 ℝ} (h : V3.dot a b = 0) : V3.dot (normalizeVec a) (normalizeVec b) = 0 := by
  obtain ⟨x, hx⟩ := normalizeVec_smul a
  obtain ⟨y, hy⟩ := normalizeVec_smul b
  rw [hx, hy]
  have : V3.dot (x • a) (y • b) = x * y * V3.dot a b := by vec_simp; ring
  rw [this, h, mul_zero]

/-- C76: all three vectors have unit length; the normal is the direction of the cross product of the edges; tangent and bitangent are orthogonal to it, for each tolerance. -/
theorem C76_frame (eps : ℝ) (coords : Tri ℝ) (tex : Tri2 ℝ) (hd : det tex ≠ 0) (hn : V3.cross (coords.b - coords.a) (coords.c - coords.a) ≠ 0) :
    ∃ t b n, compute eps coords tex = (t, b, n) ∧ t.lenSq = 1 ∧ b.lenSq = 1 ∧ Direction n (V3.cross (coords.b - coords.a) (coords.c - coords.a)) ∧ V3.dot t n = 0 ∧ V3.dot b n = 0 := by
  obtain ⟨U, W, g, -⟩ := gradients_unique coords tex hd
  obtain ⟨r1, r2, r3⟩ := raw g
  have hc : V3.cross U W ≠ 0 := by
    intro h
    apply hn
    rw [r3, h]
    ext <;> vec_simp <;> ring
  have hU : U ≠ 0 := by rintro rfl; apply hc; ext <;> vec_simp <;> ring
  have hW : W ≠ 0 := by rintro rfl; apply hc; ext <;> vec_simp <;> ring
  have hsm : ∀ {v : V3 ℝ}, v ≠ 0 → det tex • v ≠ 0 := fun {v} hv h => hv (by
    have hx := congrArg V3.x h
    have hy := congrArg V3.y h
    have hz := congrArg V3.z h
    simp only [V3.smul_x, V3.smul_y, V3.smul_z, V3.zero_x, V3.zero_y, V3.zero_z, mul_eq_zero, hd, false_or] at hx hy hz
    ext <;> simp [hx, hy, hz])
  set v1 := coords.b - coords.a
  set v2 := coords.c - coords.a
  have p1 : V3.dot (normalizeVec ((tex.c - tex.a).y • v1 - (tex.b - tex.a).y • v2)) (normalizeVec (V3.cross v1 v2)) = 0 := normalize_perp (by vec_simp; ring)
  have p2 : V3.dot (normalizeVec ((tex.c - tex.a).x • v1 - (tex.b - tex.a).x • v2)) (normalizeVec (V3.cross v1 v2)) = 0 := normalize_perp (by vec_simp; ring)
  have l1 : (normalizeVec ((tex.c - tex.a).y • v1 - (tex.b - tex.a).y • v2)).lenSq = 1 := normalizeVec_unit (by rw [r1]; exact hsm hU)
  have l2 : (normalizeVec ((tex.c - tex.a).x • v1 - (tex.b - tex.a).x • v2)).lenSq = 1 := by
    rw [r2, normalizeVec_neg]
    have := normalizeVec_unit (hsm hW)
    rw [← this]; vec_simp; ring
  have ln : ∀ v : V3 ℝ, (-v).lenSq = v.lenSq := fun v => by vec_simp; ring
  have dn : ∀ v w : V3 ℝ, V3.dot (-v) w = -V3.dot v w := fun v w => by vec_simp; ring
  unfold compute
  dsimp only
  split_ifs
  · exact ⟨_, _, _, rfl, by rw [ln, l1], by rw [ln, l2], direction_normalize hn, by rw [dn, p1, neg_zero], by rw [dn, p2, neg_zero]⟩
  · exact ⟨_, _, _, rfl, l1, l2, direction_normalize hn, p1, p2⟩

/-- C76: the tangent is the direction in which the first texture coordinate increases, if the texture triangle has a positive orientation or the sine of the angle between the gradients is above the tolerance. -/
theorem C76_tangent_partial (eps : ℝ) (he : 0 ≤ eps) (g : Gradients coords tex U W) (hd : det tex ≠ 0) (hn : V3.cross U W ≠ 0) (hs : 0 < det tex ∨ eps < sine U W) :
    Direction (compute eps coords tex).1 U := by
  have hU : U ≠ 0 := by rintro rfl; apply hn; ext <;> vec_simp <;> ring
  rw [compute_eq eps he g hd hn]
  split_ifs with h1 h2
  · exact direction_normalize hU
  · exact direction_normalize hU
  · rcases hs with h | h
    · exact absurd h h1
    · exact absurd h h2

/-- C76 is violated for the bitangent of each triangle (under the same condition): it is the direction in which the second texture coordinate decreases. -/
theorem C76_bitangent_refuted (eps : ℝ) (he : 0 ≤ eps) (g : Gradients coords tex U W) (hd : det tex ≠ 0) (hn : V3.cross U W ≠ 0) (hs : 0 < det tex ∨ eps < sine U W) :
    Direction (compute eps coords tex).2.1 (-W) := by
  have hW : W ≠ 0 := by rintro rfl; apply hn; ext <;> vec_simp <;> ring
  have hW' : -W ≠ 0 := by
    intro h; apply hW
    have hx := congrArg V3.x h
    have hy := congrArg V3.y h
    have hz := congrArg V3.z h
    simp only [V3.neg_x, V3.neg_y, V3.neg_z, V3.zero_x, V3.zero_y, V3.zero_z, neg_eq_zero] at hx hy hz
    ext <;> simp [hx, hy, hz]
  rw [compute_eq eps he g hd hn, ← normalizeVec_neg]
  split_ifs with h1 h2
  · exact direction_normalize hW'
  · exact direction_normalize hW'
  · rcases hs with h | h
    · exact absurd h h1
    · exact absurd h h2

/-- C76 is violated otherwise: both directions change, the tangent is the direction in which the first texture coordinate decreases. -/
theorem C76_tolerance_refuted (eps : ℝ) (he : 0 ≤ eps) (g : Gradients coords tex U W) (hd : det tex < 0) (hn : V3.cross U W ≠ 0) (hs : sine U W ≤ eps) :
    Direction (-(compute eps coords tex).1) U ∧ Direction (compute eps coords tex).2.1 W := by
  have hU : U ≠ 0 := by rintro rfl; apply hn; ext <;> vec_simp <;> ring
  have hW : W ≠ 0 := by rintro rfl; apply hn; ext <;> vec_simp <;> ring
  have nn : ∀ v : V3 ℝ, - -v = v := fun v => by ext <;> vec_simp <;> ring
  rw [compute_eq eps he g hd.ne hn, if_neg (not_lt.2 hd.le), if_neg (not_lt.2 hs)]
  exact ⟨by rw [nn]; exact direction_normalize hU, direction_normalize hW⟩

/-- C76: the adjustment does not change the handedness: mirrored texture coordinates give right-handed frames, others left-handed ones. -/
theorem C76_handedness (eps : ℝ) (he : 0 ≤ eps) (g : Gradients coords tex U W) (hd : det tex ≠ 0) (hn : V3.cross U W ≠ 0) :
    ∃ t b n, compute eps coords tex = (t, b, n) ∧ (0 < V3.dot (V3.cross t b) n ↔ det tex < 0) := by
  have hs := (sine_eq hn).1
  rw [compute_eq eps he g hd hn]
  split_ifs with h1 h2
  · refine ⟨_, _, _, rfl, ?_⟩
    have e : V3.dot (V3.cross (normalizeVec U) (-normalizeVec W)) (normalizeVec (V3.cross U W)) = -sine U W := by unfold sine; vec_simp; ring
    rw [e]
    constructor <;> intro h <;> linarith
  · refine ⟨_, _, _, rfl, ?_⟩
    have e : V3.dot (V3.cross (normalizeVec U) (-normalizeVec W)) (-normalizeVec (V3.cross U W)) = sine U W := by unfold sine; vec_simp; ring
    rw [e]
    exact ⟨fun _ => lt_of_le_of_ne (not_lt.1 h1) hd, fun _ => hs⟩
  · refine ⟨_, _, _, rfl, ?_⟩
    have e : V3.dot (V3.cross (-normalizeVec U) (normalizeVec W)) (-normalizeVec (V3.cross U W)) = sine U W := by unfold sine; vec_simp; ring
    rw [e]
    exact ⟨fun _ => lt_of_le_of_ne (not_lt.1 h1) hd, fun _ => hs⟩

/-- The triangle with the corners of the texture square: tangent X, bitangent -Y. -/
theorem sample_gradients : Gradients ⟨⟨0, 0, 0⟩, ⟨2, 0, 0⟩, ⟨0, 3, 0⟩⟩ ⟨⟨0, 0⟩, ⟨1, 0⟩, ⟨0, 1⟩⟩ ⟨2, 0, 0⟩ ⟨0, 3, 0⟩ ∧ det ⟨⟨0, 0⟩, ⟨1, 0⟩, ⟨0, 1⟩⟩ = 1 ∧
    V3.cross (⟨2, 0, 0⟩ : V3 ℝ) ⟨0, 3, 0⟩ = ⟨0, 0, 6⟩ := by
  refine ⟨⟨?_, ?_⟩, ?_, ?_⟩
  · ext <;> vec_simp [V2.sub_x, V2.sub_y] <;> norm_num
  · ext <;> vec_simp [V2.sub_x, V2.sub_y] <;> norm_num
  · simp only [det, V2.sub_x, V2.sub_y]; norm_num
  · ext <;> vec_simp <;> norm_num

/-- Directions with a sine up to the tolerance exist for each tolerance, with the mirrored texture triangle (0,0), (0,1), (1,0). -/
theorem sample_mirrored (eps : ℝ) (he : 0 < eps) : Gradients ⟨⟨0, 0, 0⟩, ⟨1, eps, 0⟩, ⟨1, 0, 0⟩⟩ ⟨⟨0, 0⟩, ⟨0, 1⟩, ⟨1, 0⟩⟩ ⟨1, 0, 0⟩ ⟨1, eps, 0⟩ ∧ det ⟨⟨0, 0⟩, ⟨0, 1⟩, ⟨1, 0⟩⟩ < 0 ∧
    V3.cross (⟨1, 0, 0⟩ : V3 ℝ) ⟨1, eps, 0⟩ ≠ 0 ∧ sine (⟨1, 0, 0⟩ : V3 ℝ) ⟨1, eps, 0⟩ ≤ eps := by
  have hc : V3.cross (⟨1, 0, 0⟩ : V3 ℝ) ⟨1, eps, 0⟩ ≠ 0 := fun h => by
    have := congrArg V3.z h
    vec_simp at this
    linarith
  refine ⟨⟨?_, ?_⟩, ?_, hc, ?_⟩
  · ext <;> vec_simp [V2.sub_x, V2.sub_y] <;> ring
  · ext <;> vec_simp [V2.sub_x, V2.sub_y] <;> ring
  · simp only [det, V2.sub_x, V2.sub_y]; norm_num
  · obtain ⟨h1, h2⟩ := sine_eq hc
    vec_simp at h2
    by_contra hlt
    have hlt := not_le.1 hlt
    have : eps ^ 2 < sine (⟨1, 0, 0⟩ : V3 ℝ) ⟨1, eps, 0⟩ ^ 2 := by nlinarith
    nlinarith [mul_self_nonneg (sine (⟨1, 0, 0⟩ : V3 ℝ) ⟨1, eps, 0⟩ * eps)]

/-! The theorems for these triangles. -/

theorem sample_cross : V3.cross (⟨2, 0, 0⟩ : V3 ℝ) ⟨0, 3, 0⟩ ≠ 0 := by
  rw [sample_gradients.2.2]
  intro h
  simpa using congrArg V3.z h

example := C76_frame (1 / 1000) ⟨⟨0, 0, 0⟩, ⟨2, 0, 0⟩, ⟨0, 3, 0⟩⟩ ⟨⟨0, 0⟩, ⟨1, 0⟩, ⟨0, 1⟩⟩ (by rw [sample_gradients.2.1]; exact one_ne_zero) (fun h => by
  simpa [V3.cross] using congrArg V3.z h)
example := C76_tangent_partial (1 / 1000) (by norm_num) sample_gradients.1 (by rw [sample_gradients.2.1]; exact one_ne_zero) sample_cross
  (.inl (by rw [sample_gradients.2.1]; exact one_pos))
example := C76_bitangent_refuted (1 / 1000) (by norm_num) sample_gradients.1 (by rw [sample_gradients.2.1]; exact one_ne_zero) sample_cross
  (.inl (by rw [sample_gradients.2.1]; exact one_pos))
example := C76_tolerance_refuted (1 / 1000) (by norm_num) (sample_mirrored (1 / 1000) (by norm_num)).1 (sample_mirrored (1 / 1000) (by norm_num)).2.1
  (sample_mirrored (1 / 1000) (by norm_num)).2.2.1 (sample_mirrored (1 / 1000) (by norm_num)).2.2.2

end Geom.TangentSpace
