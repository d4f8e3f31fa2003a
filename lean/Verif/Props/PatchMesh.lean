import Verif.Props.GenWind
import Verif.Props.GenGrid
import Verif.Props.BezierPatch
import Verif.Spec.PatchMesh
import Verif.Spec.Winding

/-
  C98: meshes of Bezier patches.
-/
set_option autoImplicit false
set_option linter.unusedSectionVars false

namespace Geom.Gen
open TMesh (Mesh Vertex Ix)
open Spec
open Bezier (Patch)
open Bezier.Spec (casteljau patch)

/-- The vertex in row `i` and column `j`. -/
noncomputable def bezierV (d : BezierPatchDesc) (H V i j : ℕ) : Vertex ℝ :=
  let P := patch (K := ℝ) d.bezierPatch.order d.bezierPatch.get
  let tx := (j : ℝ) / H
  let ty := (i : ℝ) / V
  let normal := Plane.normalizeVec (V3.cross (P (tx + 1 / 100) ty - P tx ty) (P tx (ty + 1 / 100) - P tx ty))
  ⟨P tx ty, if d.backFacing then normal else -normal, ⟨tx, if d.backFacing then ty else 1 - ty⟩⟩

theorem genPatchMesh_ok (d : BezierPatchDesc) (m : M) (ho : 1 ≤ d.bezierPatch.order) (ho' : d.bezierPatch.order ≤ 20)
    (h1 : max 1 d.segsX + 1 < 2 ^ 32) (h2 : max 1 d.segsY + 1 < 2 ^ 32) :
    genPatchMesh d m = .ok (ext m (gridV (max 1 d.segsY + 1) (max 1 d.segsX + 1) (bezierV d (max 1 d.segsX) (max 1 d.segsY)))
      (faceTrisIx d.backFacing d.alternateGrid (max 1 d.segsX) (max 1 d.segsY) m.vertices.length)) := by
  simp only [genPatchMesh]
  generalize max 1 d.segsX = H at *
  generalize max 1 d.segsY = V at *
  have e : bezierVerts d H V m = .ok (ext m (gridV (V + 1) (H + 1) (bezierV d H V)) []) := by
    refine forLe_grid V H _ _ m h2 h1 fun v u m => ?_
    dsimp only
    simp only [Bezier.C72_casteljau _ _ _ ho ho', Res.bind_ok]
    rw [show (u : ℝ) * (1 / H) = u / H by ring, show (v : ℝ) * (1 / V) = v / V by ring]
    simp only [bezierV]
    cases d.backFacing <;> simp [add_eq]
  rw [e, Res.bind_ok, faceTris_ok _ _ _ _ _ _ (by omega) (by omega), ext_ext, List.append_nil, List.nil_append]

theorem unit_frac {i n : ℕ} (hn : 1 ≤ n) (h : i < n + 1) : 0 ≤ (i : ℝ) / n ∧ (i : ℝ) / n ≤ 1 := by
  have hp : (0 : ℝ) < n := by exact_mod_cast hn
  refine ⟨by positivity, (div_le_one hp).2 ?_⟩
  exact_mod_cast Nat.lt_succ_iff.1 h

/-- The description of the new vertices that the theorems start from. -/
theorem patch_adds (d : BezierPatchDesc) (m : M) (ho : 1 ≤ d.bezierPatch.order) (ho' : d.bezierPatch.order ≤ 20)
    (h1 : max 1 d.segsX + 1 < 2 ^ 32) (h2 : max 1 d.segsY + 1 < 2 ^ 32) :
    ∃ m' vs, genPatchMesh d m = .ok m' ∧ m'.vertices = m.vertices ++ vs ∧
      ∀ x, x ∈ vs ↔ ∃ i j, i < max 1 d.segsY + 1 ∧ j < max 1 d.segsX + 1 ∧ x = bezierV d (max 1 d.segsX) (max 1 d.segsY) i j :=
  ⟨_, _, genPatchMesh_ok d m ho ho' h1 h2, rfl, fun _ => gridV_mem⟩

theorem params_bezierV (d : BezierPatchDesc) (H V i j : ℕ) : params d.backFacing (bezierV d H V i j) = ((j : ℝ) / H, (i : ℝ) / V) := by
  simp only [params, bezierV]
  cases d.backFacing <;> simp

/-- C98: for orders from 1 to 20 the mesh is the given one with vertices and triangles added; the indices of the new triangles are those of new
vertices. Each new vertex has texture coordinates in [0, 1], is the point of the patch at its parameters, and is in the convex hull of the control points. -/
theorem C98_mesh (d : BezierPatchDesc) (m : M) (ho : 1 ≤ d.bezierPatch.order) (ho' : d.bezierPatch.order ≤ 20)
    (h1 : max 1 d.segsX + 1 < 2 ^ 32) (h2 : max 1 d.segsY + 1 < 2 ^ 32) :
    ∃ m', genPatchMesh d m = .ok m' ∧ Grows m m' ((max 1 d.segsX + 1) * (max 1 d.segsY + 1)) (2 * (max 1 d.segsX * max 1 d.segsY))
      (fun v => InTexture v.texCoord ∧
        v.position = patch d.bezierPatch.order d.bezierPatch.get (params d.backFacing v).1 (params d.backFacing v).2 ∧
        v.position ∈ convexHull ℝ (controls d.bezierPatch)) := by
  have hH : 1 ≤ max 1 d.segsX := le_max_left _ _
  have hV : 1 ≤ max 1 d.segsY := le_max_left _ _
  refine ⟨_, genPatchMesh_ok d m ho ho' h1 h2, grows_ext m _ _ _ _ _ ?_ ?_ ?_ ?_⟩
  · rw [gridV_length]; ring
  · rw [faceTrisIx_length]
  · intro x hx
    obtain ⟨r, c, hr, hc, rfl⟩ := gridV_mem.1 hx
    obtain ⟨a1, a2⟩ := unit_frac hH hc
    obtain ⟨b1, b2⟩ := unit_frac hV hr
    refine ⟨?_, by rw [params_bezierV]; rfl, ?_⟩
    · simp only [bezierV, InTexture]
      cases d.backFacing
      · exact ⟨a1, a2, by simpa using b2, by simpa using b1⟩
      · exact ⟨a1, a2, b1, b2⟩
    · obtain ⟨q, hq, hq'⟩ := Bezier.C72_hull d.bezierPatch _ _ ho ho' a1 a2 b1 b2
      rw [Bezier.C72_casteljau _ _ _ ho ho'] at hq
      cases hq
      exact hq'
  · intro t ht i hi
    have := faceTrisIx_mem _ _ _ _ _ ht i hi
    rwa [Nat.mul_comm (max 1 d.segsY + 1)] at this

/-- C98: the corners of the mesh are the corner control points. -/
theorem C98_corners (d : BezierPatchDesc) (m : M) (ho : 1 ≤ d.bezierPatch.order) (ho' : d.bezierPatch.order ≤ 20)
    (h1 : max 1 d.segsX + 1 < 2 ^ 32) (h2 : max 1 d.segsY + 1 < 2 ^ 32) (a b : ℕ) (ha : a ≤ 1) (hb : b ≤ 1) :
    ∃ m' vs, genPatchMesh d m = .ok m' ∧ m'.vertices = m.vertices ++ vs ∧
      ∃ v ∈ vs, params d.backFacing v = ((a : ℝ), (b : ℝ)) ∧ v.position = d.bezierPatch.get (a * d.bezierPatch.order) (b * d.bezierPatch.order) := by
  obtain ⟨m', vs, e, e', hv⟩ := patch_adds d m ho ho' h1 h2
  have hH : ((max 1 d.segsX : ℕ) : ℝ) ≠ 0 := by have := le_max_left 1 d.segsX; exact_mod_cast (by omega : max 1 d.segsX ≠ 0)
  have hV : ((max 1 d.segsY : ℕ) : ℝ) ≠ 0 := by have := le_max_left 1 d.segsY; exact_mod_cast (by omega : max 1 d.segsY ≠ 0)
  have ea : (((a * max 1 d.segsX : ℕ) : ℝ)) / (max 1 d.segsX : ℕ) = a := by rw [Nat.cast_mul]; field_simp
  have eb : (((b * max 1 d.segsY : ℕ) : ℝ)) / (max 1 d.segsY : ℕ) = b := by rw [Nat.cast_mul]; field_simp
  refine ⟨m', vs, e, e', bezierV d (max 1 d.segsX) (max 1 d.segsY) (b * max 1 d.segsY) (a * max 1 d.segsX), (hv _).2 ⟨_, _, ?_, ?_, rfl⟩, ?_, ?_⟩
  · have := Nat.mul_le_mul_right (max 1 d.segsY) hb; omega
  · have := Nat.mul_le_mul_right (max 1 d.segsX) ha; omega
  · rw [params_bezierV, ea, eb]
  · simp only [bezierV, ea, eb, patch]
    interval_cases a <;> interval_cases b <;> simp [Bezier.casteljau_zero, Bezier.casteljau_one]

/-- C98: two patches of the same order that share the control points of an edge, with the same number of segments along it, fit together: the vertices
along the edge have the same positions. -/
theorem C98_seam (d d' : BezierPatchDesc) (m n : M) (ho : 1 ≤ d.bezierPatch.order) (ho' : d.bezierPatch.order ≤ 20)
    (h1 : max 1 d.segsX + 1 < 2 ^ 32) (h2 : max 1 d.segsY + 1 < 2 ^ 32) (h3 : max 1 d'.segsX + 1 < 2 ^ 32)
    (hs : d'.segsY = d.segsY) (hb : d'.backFacing = d.backFacing) (hord : d'.bezierPatch.order = d.bezierPatch.order)
    (hedge : ∀ j ≤ d.bezierPatch.order, d.bezierPatch.get d.bezierPatch.order j = d'.bezierPatch.get 0 j) :
    ∃ m' vs n' ws, genPatchMesh d m = .ok m' ∧ m'.vertices = m.vertices ++ vs ∧ genPatchMesh d' n = .ok n' ∧ n'.vertices = n.vertices ++ ws ∧
      (∀ v ∈ vs, v.texCoord.x = 1 → ∃ w ∈ ws, w.texCoord.x = 0 ∧ w.texCoord.y = v.texCoord.y ∧ w.position = v.position) ∧
      ∀ w ∈ ws, w.texCoord.x = 0 → ∃ v ∈ vs, v.texCoord.x = 1 ∧ v.texCoord.y = w.texCoord.y ∧ v.position = w.position := by
  obtain ⟨m', vs, e, e', hv⟩ := patch_adds d m ho ho' h1 h2
  obtain ⟨n', ws, f, f', hw⟩ := patch_adds d' n (by omega) (by omega) h3 (by rw [hs]; exact h2)
  have hH : ((max 1 d.segsX : ℕ) : ℝ) ≠ 0 := by have := le_max_left 1 d.segsX; exact_mod_cast (by omega : max 1 d.segsX ≠ 0)
  have hH' : ((max 1 d'.segsX : ℕ) : ℝ) ≠ 0 := by have := le_max_left 1 d'.segsX; exact_mod_cast (by omega : max 1 d'.segsX ≠ 0)
  -- the edge is the curve of the shared control points
  have key : ∀ t : ℝ, patch d.bezierPatch.order d.bezierPatch.get 1 t = patch d'.bezierPatch.order d'.bezierPatch.get 0 t := by
    intro t
    simp only [patch, Bezier.casteljau_zero, Bezier.casteljau_one, Nat.zero_add, hord]
    have : ∀ (r i : ℕ), i + r ≤ d.bezierPatch.order → casteljau t (d.bezierPatch.get d.bezierPatch.order) r i = casteljau t (d'.bezierPatch.get 0) r i := by
      intro r
      induction r with
      | zero => intro i hi; exact hedge i (by omega)
      | succ r ih => intro i hi; simp only [casteljau]; rw [ih i (by omega), ih (i + 1) (by omega)]
    exact this _ 0 (by omega)
  have hx : ∀ (D : BezierPatchDesc) (H V i j : ℕ), (bezierV D H V i j).texCoord.x = (j : ℝ) / H := fun _ _ _ _ _ => rfl
  have hp : ∀ (D : BezierPatchDesc) (H V i j : ℕ), (bezierV D H V i j).position = patch D.bezierPatch.order D.bezierPatch.get ((j : ℝ) / H) ((i : ℝ) / V) :=
    fun _ _ _ _ _ => rfl
  refine ⟨m', vs, n', ws, e, e', f, f', ?_, ?_⟩
  · intro v hv' h
    obtain ⟨i, j, hi, hj, rfl⟩ := (hv v).1 hv'
    refine ⟨bezierV d' (max 1 d'.segsX) (max 1 d'.segsY) i 0, (hw _).2 ⟨i, 0, by rw [hs]; exact hi, by omega, rfl⟩, ?_, ?_, ?_⟩
    · rw [hx]; simp
    · simp only [bezierV, hb, hs]
    · rw [hx] at h
      rw [hp, hp, h, key, hs, Nat.cast_zero, zero_div]
  · intro w hw' h
    obtain ⟨i, j, hi, hj, rfl⟩ := (hw w).1 hw'
    refine ⟨bezierV d (max 1 d.segsX) (max 1 d.segsY) i (max 1 d.segsX), (hv _).2 ⟨i, _, by rw [← hs]; exact hi, by omega, rfl⟩, ?_, ?_, ?_⟩
    · rw [hx]; exact div_self hH
    · simp only [bezierV, hb, hs]
    · rw [hx] at h
      rw [hp, hp, h, div_self hH, key, hs]

/-! Flat patches. -/

theorem patch_height (p : Patch (V3 ℝ)) (n : V3 ℝ) (c : ℝ) (h : ∀ x ∈ controls p, V3.dot n x = c) (u v : ℝ) :
    V3.dot n (patch p.order p.get u v) = c := by
  have step : ∀ (t : ℝ) (q : ℕ → V3 ℝ) (r i : ℕ), (∀ k, i ≤ k → k ≤ i + r → V3.dot n (q k) = c) → V3.dot n (casteljau t q r i) = c := by
    intro t q r
    induction r with
    | zero => intro i h; exact h i (by omega) (by omega)
    | succ r ih =>
      intro i h
      have a := ih i fun k h1 h2 => h k h1 (by omega)
      have b := ih (i + 1) fun k h1 h2 => h k (by omega) (by omega)
      simp only [casteljau]
      generalize casteljau t q r i = x at a
      generalize casteljau t q r (i + 1) = y at b
      simp only [V3.dot, V3.add_x, V3.add_y, V3.add_z, V3.smul_x, V3.smul_y, V3.smul_z] at a b ⊢
      linear_combination (1 - t) * a + t * b
  refine step _ _ _ _ fun i _ hi => step _ _ _ _ fun j _ hj => h _ ⟨i, j, by omega, by omega, rfl⟩

/-- The cross product of two vectors orthogonal to `n` is parallel to `n`. -/
theorem cross_parallel (n a b : V3 ℝ) (ha : V3.dot n a = 0) (hb : V3.dot n b = 0) : V3.cross n (V3.cross a b) = 0 := by
  simp only [V3.dot] at ha hb
  ext
  · simp only [V3.cross_x, V3.cross_y, V3.cross_z, V3.zero_x]; linear_combination a.x * hb - b.x * ha
  · simp only [V3.cross_x, V3.cross_y, V3.cross_z, V3.zero_y]; linear_combination a.y * hb - b.y * ha
  · simp only [V3.cross_x, V3.cross_y, V3.cross_z, V3.zero_z]; linear_combination a.z * hb - b.z * ha

/-- C98: if all control points are in the plane `n · x = c`, so are all vertices, and all normals are parallel to `n` (or zero). -/
theorem C98_flat (d : BezierPatchDesc) (m : M) (ho : 1 ≤ d.bezierPatch.order) (ho' : d.bezierPatch.order ≤ 20)
    (h1 : max 1 d.segsX + 1 < 2 ^ 32) (h2 : max 1 d.segsY + 1 < 2 ^ 32) (n : V3 ℝ) (c : ℝ) (h : ∀ x ∈ controls d.bezierPatch, V3.dot n x = c) :
    ∃ m', genPatchMesh d m = .ok m' ∧ Adds m m' fun v => V3.dot n v.position = c ∧ V3.cross n v.normal = 0 := by
  refine ⟨_, genPatchMesh_ok d m ho ho' h1 h2, _, ?_, rfl, fun v hv => ?_⟩
  · exact ne_nil_of_length (gridV_length ..) (by positivity)
  · obtain ⟨i, j, -, -, rfl⟩ := gridV_mem.1 hv
    refine ⟨patch_height _ n c h _ _, ?_⟩
    have hd : ∀ u v u' v' : ℝ, V3.dot n (patch d.bezierPatch.order d.bezierPatch.get u v - patch d.bezierPatch.order d.bezierPatch.get u' v') = 0 := by
      intro u v u' v'
      have a := patch_height _ n c h u v
      have b := patch_height _ n c h u' v'
      simp only [V3.dot, V3.sub_x, V3.sub_y, V3.sub_z] at a b ⊢
      linear_combination a - b
    have hc := cross_parallel n _ _ (hd ((j : ℝ) / (max 1 d.segsX : ℕ) + 1 / 100) ((i : ℝ) / (max 1 d.segsY : ℕ)) ((j : ℝ) / (max 1 d.segsX : ℕ)) ((i : ℝ) / (max 1 d.segsY : ℕ)))
      (hd ((j : ℝ) / (max 1 d.segsX : ℕ)) ((i : ℝ) / (max 1 d.segsY : ℕ) + 1 / 100) ((j : ℝ) / (max 1 d.segsX : ℕ)) ((i : ℝ) / (max 1 d.segsY : ℕ)))
    simp only [bezierV]
    generalize V3.cross (patch d.bezierPatch.order d.bezierPatch.get ((j : ℝ) / (max 1 d.segsX : ℕ) + 1 / 100) ((i : ℝ) / (max 1 d.segsY : ℕ)) -
      patch d.bezierPatch.order d.bezierPatch.get ((j : ℝ) / (max 1 d.segsX : ℕ)) ((i : ℝ) / (max 1 d.segsY : ℕ)))
      (patch d.bezierPatch.order d.bezierPatch.get ((j : ℝ) / (max 1 d.segsX : ℕ)) ((i : ℝ) / (max 1 d.segsY : ℕ) + 1 / 100) -
      patch d.bezierPatch.order d.bezierPatch.get ((j : ℝ) / (max 1 d.segsX : ℕ)) ((i : ℝ) / (max 1 d.segsY : ℕ))) = w at *
    obtain ⟨s, hs⟩ := Plane.Props.normalizeVec_smul w
    rw [hs]
    have q : ∀ s : ℝ, V3.cross n (s • w) = 0 := fun s => by
      have e : V3.cross n (s • w) = s • V3.cross n w := by ext <;> simp <;> ring
      rw [e, hc, smul_zero]
    split_ifs
    · exact q s
    · rw [← neg_smul]; exact q (-s)

/-! Parallelograms. -/

theorem casteljau_line (t : ℝ) (a e : V3 ℝ) (o : ℕ) (q : ℕ → V3 ℝ) (r i : ℕ) (h : ∀ k, i ≤ k → k ≤ i + r → q k = a + ((k : ℝ) / o) • e) :
    casteljau t q r i = a + (((i : ℝ) + r * t) / o) • e := by
  induction r generalizing i with
  | zero => simp [casteljau, h i le_rfl (by omega)]
  | succ r ih =>
    rw [casteljau, ih i fun k h1 h2 => h k h1 (by omega), ih (i + 1) fun k h1 h2 => h k (by omega) (by omega)]
    push_cast
    ext <;> simp <;> ring

theorem patch_regular (p : Patch (V3 ℝ)) (ho : 1 ≤ p.order) (a e f : V3 ℝ) (h : Regular p a e f) (u v : ℝ) :
    patch p.order p.get u v = a + u • e + v • f := by
  have hp : ((p.order : ℕ) : ℝ) ≠ 0 := by exact_mod_cast (by omega : p.order ≠ 0)
  rw [patch, casteljau_line u (a + v • f) e p.order _ _ _ fun i _ hi => ?_]
  · rw [show ((0 : ℕ) : ℝ) = 0 from Nat.cast_zero, zero_add, mul_div_cancel_left₀ u hp]
    ext <;> simp <;> ring
  · rw [casteljau_line v (a + ((i : ℝ) / p.order) • e) f p.order _ _ _ fun j _ hj => ?_]
    · rw [show ((0 : ℕ) : ℝ) = 0 from Nat.cast_zero, zero_add, mul_div_cancel_left₀ v hp]
      ext <;> simp <;> ring
    · exact h i j (by omega) (by omega)

theorem normalizeVec_pos {s : ℝ} (hs : 0 < s) {v : V3 ℝ} (h : v ≠ 0) : Plane.normalizeVec (s • v) = Plane.normalizeVec v := by
  have hl : 0 < v.lenSq := Plane.Props.lenSq_pos_of h
  have hq : √v.lenSq ≠ 0 := (Real.sqrt_pos.2 hl).ne'
  have e : (s • v).lenSq = s ^ 2 * v.lenSq := by rw [V3.lenSq_smul]; ring
  rw [Plane.normalizeVec, Plane.normalizeVec, if_neg (by rw [e]; positivity), if_neg hl.ne', e, Real.sqrt_mul (by positivity), Real.sqrt_sq hs.le]
  have hs' := hs.ne'
  ext <;> simp <;> field_simp

theorem bezierV_regular (d : BezierPatchDesc) (ho : 1 ≤ d.bezierPatch.order) (a e f : V3 ℝ) (h : Regular d.bezierPatch a e f) (hn : V3.cross e f ≠ 0) (H V i j : ℕ) :
    (bezierV d H V i j).position = a + ((j : ℝ) / H) • e + ((i : ℝ) / V) • f ∧
    (bezierV d H V i j).normal = if d.backFacing then Plane.normalizeVec (V3.cross e f) else -Plane.normalizeVec (V3.cross e f) := by
  simp only [bezierV, patch_regular _ ho a e f h]
  refine ⟨trivial, ?_⟩
  have e1 : ∀ x y : ℝ, V3.cross (a + (x + 1 / 100) • e + y • f - (a + x • e + y • f)) (a + x • e + (y + 1 / 100) • f - (a + x • e + y • f)) =
      (1 / 10000 : ℝ) • V3.cross e f := by
    intro x y
    ext <;> simp <;> ring
  rw [e1]
  rw [normalizeVec_pos (by norm_num) hn]

/-- C98: if the control points are a regular grid of a parallelogram, the vertices are on a regular grid of it as well, each normal is the unit
normal of the parallelogram, and points to the front side of each triangle. -/
theorem C98_parallelogram (d : BezierPatchDesc) (m : M) (ho : 1 ≤ d.bezierPatch.order) (ho' : d.bezierPatch.order ≤ 20)
    (hb : (max 1 d.segsY + 1) * (max 1 d.segsX + 1) ≤ 2 ^ 32) (a e f : V3 ℝ) (h : Regular d.bezierPatch a e f) (hn : V3.cross e f ≠ 0) :
    ∃ m', genPatchMesh d m = .ok m' ∧
      Adds m m' (fun v => v.position = a + (params d.backFacing v).1 • e + (params d.backFacing v).2 • f ∧ UnitNormal v ∧
        V3.dot v.normal e = 0 ∧ V3.dot v.normal f = 0) ∧
      AddsTriangles m m' (InFront (·.normal)) := by
  have hH : 1 ≤ max 1 d.segsX := le_max_left _ _
  have hV : 1 ≤ max 1 d.segsY := le_max_left _ _
  have hu := Plane.Props.normalizeVec_unit hn
  have hl : 0 < (V3.cross e f).lenSq := Plane.Props.lenSq_pos_of hn
  have hq : 0 < √(V3.cross e f).lenSq := Real.sqrt_pos.2 hl
  have hnv : Plane.normalizeVec (V3.cross e f) = (1 / √(V3.cross e f).lenSq) • V3.cross e f := by rw [Plane.normalizeVec, if_neg hl.ne']
  have hpos := fun i j => bezierV_regular d ho a e f h hn (max 1 d.segsX) (max 1 d.segsY) i j
  refine ⟨_, genPatchMesh_ok d m ho ho' (by nlinarith) (by nlinarith), ⟨_, ne_nil_of_length (gridV_length ..) (by positivity), rfl, fun v hv => ?_⟩, ?_⟩
  · obtain ⟨i, j, -, -, rfl⟩ := gridV_mem.1 hv
    rw [params_bezierV]
    refine ⟨(hpos i j).1, ?_, ?_, ?_⟩
    · rw [UnitNormal, (hpos i j).2]
      simp only [V3.lenSq, V3.dot] at hu
      split_ifs
      · linear_combination hu
      · simp only [V3.neg_x, V3.neg_y, V3.neg_z]; linear_combination hu
    · rw [(hpos i j).2, hnv]
      split_ifs <;> simp [V3.dot] <;> ring
    · rw [(hpos i j).2, hnv]
      split_ifs <;> simp [V3.dot] <;> ring
  · refine adds_of _ _ _ (ne_nil_of_length (faceTrisIx_length ..) (by positivity)) fun m' hs => ?_
    refine faceTrisIx_has _ _ _ _ _ hs hb fun v u _ _ => ?_
    have hH' : (0 : ℝ) < (max 1 d.segsX : ℕ) := by exact_mod_cast hH
    have hV' : (0 : ℝ) < (max 1 d.segsY : ℕ) := by exact_mod_cast hV
    generalize max 1 d.segsX = H at *
    generalize max 1 d.segsY = V at *
    -- the facet of each half of the cell is the same
    have key : ∀ (p q r : V3 ℝ) (n : V3 ℝ) (k : ℝ), 0 < k → facet p q r = k • V3.cross e f → n = Plane.normalizeVec (V3.cross e f) → 0 < V3.dot (facet p q r) n := by
      rintro p q r n k hk h rfl
      rw [h, hnv]
      have : V3.dot (k • V3.cross e f) ((1 / √(V3.cross e f).lenSq) • V3.cross e f) = k * (1 / √(V3.cross e f).lenSq) * (V3.cross e f).lenSq := by
        simp [V3.dot, V3.lenSq]; ring
      rw [this]; positivity
    have key' : ∀ (p q r : V3 ℝ) (n : V3 ℝ) (k : ℝ), 0 < k → facet p q r = (-k) • V3.cross e f → n = -Plane.normalizeVec (V3.cross e f) → 0 < V3.dot (facet p q r) n := by
      rintro p q r n k hk h rfl
      rw [h, hnv]
      have : V3.dot ((-k) • V3.cross e f) (-((1 / √(V3.cross e f).lenSq) • V3.cross e f)) = k * (1 / √(V3.cross e f).lenSq) * (V3.cross e f).lenSq := by
        simp [V3.dot, V3.lenSq]; ring
      rw [this]; positivity
    have hk : 0 < 1 / (H : ℝ) * (1 / V) := by positivity
    rw [CellQ]
    split_ifs with hbf
    · simp only [hbf, if_true] at hpos
      refine ⟨?_, ?_, ?_, ?_⟩ <;> refine ⟨key _ _ _ _ _ hk ?_ (hpos _ _).2, key _ _ _ _ _ hk ?_ (hpos _ _).2, key _ _ _ _ _ hk ?_ (hpos _ _).2⟩ <;>
        (simp only [facet, (hpos _ _).1]; push_cast; ext <;> simp <;> ring)
    · rw [Bool.not_eq_true] at hbf
      simp only [hbf, Bool.false_eq_true, if_false] at hpos
      refine ⟨?_, ?_, ?_, ?_⟩ <;> refine ⟨key' _ _ _ _ _ hk ?_ (hpos _ _).2, key' _ _ _ _ _ hk ?_ (hpos _ _).2, key' _ _ _ _ _ hk ?_ (hpos _ _).2⟩ <;>
        (simp only [facet, (hpos _ _).1]; push_cast; ext <;> simp <;> ring)

/-- The patch with the control points (i / 2, j / 2, 0) of order two. -/
noncomputable def exPatch : Patch (V3 ℝ) :=
  ⟨2, [⟨0, 0, 0⟩, ⟨1 / 2, 0, 0⟩, ⟨1, 0, 0⟩, ⟨0, 1 / 2, 0⟩, ⟨1 / 2, 1 / 2, 0⟩, ⟨1, 1 / 2, 0⟩, ⟨0, 1, 0⟩, ⟨1 / 2, 1, 0⟩, ⟨1, 1, 0⟩]⟩

theorem exPatch_ok : 1 ≤ exPatch.order ∧ exPatch.order ≤ 20 ∧ Regular exPatch ⟨0, 0, 0⟩ ⟨1, 0, 0⟩ ⟨0, 1, 0⟩ ∧ V3.cross (⟨1, 0, 0⟩ : V3 ℝ) ⟨0, 1, 0⟩ ≠ 0 ∧
    (∀ x ∈ controls exPatch, V3.dot ⟨0, 0, 1⟩ x = 0) ∧ (max 1 10 + 1) * (max 1 20 + 1) ≤ 2 ^ 32 := by
  have g : ∀ i j, i ≤ 2 → j ≤ 2 → exPatch.get i j = ⟨(i : ℝ) / 2, (j : ℝ) / 2, 0⟩ := by
    intro i j hi hj
    interval_cases i <;> interval_cases j <;> simp [Patch.get, Patch.getIndex, exPatch, w32]
  refine ⟨by decide, by decide, ?_, ?_, ?_, by norm_num⟩
  · intro i j hi hj
    rw [g i j hi hj]
    ext <;> simp [exPatch]
  · intro h
    have := congrArg V3.z h
    simp at this
  · rintro x ⟨i, j, hi, hj, rfl⟩
    rw [g i j hi hj]
    simp [V3.dot]

/-- Two patches of order one with a common edge. -/
example : ∃ p q : Patch (V3 ℝ), p.order = 1 ∧ q.order = 1 ∧ (∀ j ≤ 1, p.get 1 j = q.get 0 j) ∧ p.get 1 0 ≠ p.get 1 1 ∧ p.get 0 0 ≠ q.get 1 0 := by
  refine ⟨⟨1, [⟨0, 0, 0⟩, ⟨1, 0, 0⟩, ⟨0, 1, 0⟩, ⟨1, 1, 0⟩]⟩, ⟨1, [⟨1, 0, 0⟩, ⟨2, 0, 5⟩, ⟨1, 1, 0⟩, ⟨2, 1, 3⟩]⟩, rfl, rfl, ?_, ?_, ?_⟩
  · intro j hj
    interval_cases j <;> simp [Patch.get, Patch.getIndex, w32]
  · simp [Patch.get, Patch.getIndex, w32]
  · simp [Patch.get, Patch.getIndex, w32]

/-- C98 is violated by patches of order zero (the default): all vertices are at the origin, whatever the control point is. -/
theorem C98_order_zero_refuted (d : BezierPatchDesc) (m : M) (ho : d.bezierPatch.order = 0)
    (h1 : max 1 d.segsX + 1 < 2 ^ 32) (h2 : max 1 d.segsY + 1 < 2 ^ 32) :
    ∃ m', genPatchMesh d m = .ok m' ∧ Adds m m' fun v => v.position = 0 ∧ v.normal = 0 := by
  have hn : Plane.normalizeVec (V3.cross (0 - 0) (0 - 0)) = 0 := by
    have : V3.cross (0 - 0 : V3 ℝ) (0 - 0) = 0 := by ext <;> simp
    rw [this, Plane.normalizeVec, if_pos (by simp [V3.lenSq, V3.dot])]
  have e : bezierVerts d (max 1 d.segsX) (max 1 d.segsY) m = .ok (ext m (gridV (max 1 d.segsY + 1) (max 1 d.segsX + 1) fun i j =>
      ⟨0, 0, ⟨(j : ℝ) * (1 / (max 1 d.segsX : ℕ)), if d.backFacing then (i : ℝ) * (1 / (max 1 d.segsY : ℕ)) else 1 - (i : ℝ) * (1 / (max 1 d.segsY : ℕ))⟩⟩) []) := by
    refine forLe_grid _ _ _ _ m h2 h1 fun v u m => ?_
    dsimp only
    simp only [Bezier.C72_zero_refuted _ ho, Res.bind_ok, hn, neg_zero]
    cases d.backFacing <;> simp [add_eq]
  refine ⟨_, by simp only [genPatchMesh]; rw [e, Res.bind_ok, faceTris_ok _ _ _ _ _ _ (by omega) (by omega), ext_ext], _, ?_, rfl, fun v hv => ?_⟩
  · rw [List.append_nil]; exact ne_nil_of_length (gridV_length ..) (by positivity)
  · rw [List.append_nil] at hv
    obtain ⟨i, j, -, -, rfl⟩ := gridV_mem.1 hv
    exact ⟨rfl, rfl⟩

theorem forLe_ub0 {S : Type} (hi : ℕ) (body : ℕ → S → Res S) (s : S) (h : body 0 s = .ub) : forLe 0 hi body s = .ub := by
  unfold forLe fuel32 loop32
  rw [if_pos (by simp), h]
  rfl

/-- C98 is violated by patches of order 66 and more: the factorial of the order is zero in 64 bits, and the evaluation divides by it. -/
theorem C98_undefined_refuted (d : BezierPatchDesc) (m : M) (ho : 66 ≤ d.bezierPatch.order) : genPatchMesh d m = .ub := by
  have hb : ∀ u : ℝ, Bezier.bernstein u 0 d.bezierPatch.order = .ub := by
    intro u
    rw [Bezier.bernstein, if_pos ⟨by omega, by omega⟩, Bezier.binomial64]
    simp only [Nat.sub_zero, Bezier.factorial64_zero ho, Nat.mul_zero]
    rfl
  have he : ∀ u v : ℝ, d.bezierPatch.eval u v = .ub := fun u v => by
    refine forLe_ub0 _ _ _ (forLe_ub0 _ _ _ ?_)
    rw [hb]; rfl
  have : bezierVerts d (max 1 d.segsX) (max 1 d.segsY) m = .ub := by
    refine forLe_ub0 _ _ _ (forLe_ub0 _ _ _ ?_)
    dsimp only
    rw [he]; rfl
  simp only [genPatchMesh]
  rw [this]; rfl

/-! The theorems for meshes of these patches. -/

example := C98_mesh ⟨exPatch, 10, 20, true, false⟩ TMesh.Mesh.empty exPatch_ok.1 exPatch_ok.2.1 (by norm_num) (by norm_num)
example := C98_corners ⟨exPatch, 10, 20, true, false⟩ TMesh.Mesh.empty exPatch_ok.1 exPatch_ok.2.1 (by norm_num) (by norm_num) 1 0 (by norm_num) (by norm_num)
example := C98_flat ⟨exPatch, 10, 20, true, false⟩ TMesh.Mesh.empty exPatch_ok.1 exPatch_ok.2.1 (by norm_num) (by norm_num) ⟨0, 0, 1⟩ 0 exPatch_ok.2.2.2.2.1
example := C98_seam ⟨⟨1, [⟨0, 0, 0⟩, ⟨1, 0, 0⟩, ⟨0, 1, 0⟩, ⟨1, 1, 0⟩]⟩, 10, 20, true, false⟩ ⟨⟨1, [⟨1, 0, 0⟩, ⟨2, 0, 5⟩, ⟨1, 1, 0⟩, ⟨2, 1, 3⟩]⟩, 5, 20, false, false⟩
  TMesh.Mesh.empty TMesh.Mesh.empty (by norm_num) (by norm_num) (by norm_num) (by norm_num) (by norm_num) rfl rfl rfl (by
    intro j (hj : j ≤ 1)
    interval_cases j <;> simp [Patch.get, Patch.getIndex, w32])
example := C98_order_zero_refuted ⟨⟨0, [⟨1, 2, 3⟩]⟩, 10, 20, true, false⟩ TMesh.Mesh.empty rfl (by norm_num) (by norm_num)
example := C98_undefined_refuted ⟨⟨66, List.replicate (67 * 67) ⟨1, 2, 3⟩⟩, 10, 20, true, false⟩ TMesh.Mesh.empty (by norm_num)

end Geom.Gen
