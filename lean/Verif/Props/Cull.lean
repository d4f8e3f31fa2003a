import Verif.Spec.Cull
import Verif.Props.AABBCollision
import Verif.Props.TriangleMesh
import Verif.Props.TriangleRay
import Verif.Props.PlaneSolid
import Verif.Props.ClipMesh
import Verif.Props.ConvexHull

/-
  C107: the bounds of a mesh decide tests for its triangles.
-/
set_option autoImplicit false
set_option linter.unusedSectionVars false

namespace Geom.TMesh
open Spec
open Plane (Eqn Pl Relation Ray)
open Plane.Spec (side UnitN InBox)
open Triangle (Tri)
open Triangle.Spec (InTri at_)

section field
variable {K : Type} [Field K] [LinearOrder K] [IsStrictOrderedRing K]

theorem vertex_in_box (lo hi : K) (m : Mesh K) (hl : ∀ p ∈ positions m, AABB.InLimits lo hi p) (v : Vertex K) (hv : v ∈ m.vertices) :
    coords v.position ∈ AABB.pts (boundingBox lo hi m) :=
  (C39_hull lo hi m (List.ne_nil_of_mem hv) hl).1 (List.mem_map.2 ⟨v, hv, rfl⟩)

theorem between {a b x y z u v w : K} (hu : 0 ≤ u) (hv : 0 ≤ v) (hw : 0 ≤ w) (h : u + v + w = 1) (hx : a ≤ x ∧ x ≤ b) (hy : a ≤ y ∧ y ≤ b)
    (hz : a ≤ z ∧ z ≤ b) : a ≤ u * x + v * y + w * z ∧ u * x + v * y + w * z ≤ b := by
  have e : a = u * a + v * a + w * a := by linear_combination -a * h
  have e' : b = u * b + v * b + w * b := by linear_combination -b * h
  exact ⟨by linarith [mul_le_mul_of_nonneg_left hx.1 hu, mul_le_mul_of_nonneg_left hy.1 hv, mul_le_mul_of_nonneg_left hz.1 hw],
    by linarith [mul_le_mul_of_nonneg_left hx.2 hu, mul_le_mul_of_nonneg_left hy.2 hv, mul_le_mul_of_nonneg_left hz.2 hw]⟩

theorem tri_in_box (lo hi : K) (m : Mesh K) (hl : ∀ p ∈ positions m, AABB.InLimits lo hi p) (t : Ix) (x : Tri K) (hx : HasCorners m t x)
    (p : V3 K) (hp : InTri x p) : coords p ∈ AABB.pts (boundingBox lo hi m) := by
  obtain ⟨a, b, c, ha, hb, hc, rfl⟩ := hx
  obtain ⟨u, v, w, hu, hv, hw, h, rfl⟩ := hp
  have h1 := vertex_in_box lo hi m hl a (List.mem_of_getElem? ha)
  have h2 := vertex_in_box lo hi m hl b (List.mem_of_getElem? hb)
  have h3 := vertex_in_box lo hi m hl c (List.mem_of_getElem? hc)
  intro i
  have := between hu hv hw h (h1 i) (h2 i) (h3 i)
  fin_cases i <;> simpa [coords] using this

/-- C107: a ray that hits a triangle of a mesh hits its bounding box, and does not hit it later. -/
theorem C107_ray (lo hi eps big : K) (he : 0 < eps) (m : Mesh K) (hl : ∀ p ∈ positions m, AABB.InLimits lo hi p) (r : Ray K)
    (hd : AABB.Props.ClearDirection eps (coords r.direction)) (t : Ix) (x : Tri K) (hx : HasCorners m t x) (q : V3 K)
    (hq : Triangle.barycentric x r = some q) (s : K) (hs : s ≤ big) (h0 : 0 ≤ s) (e : q.x • x.a + q.y • x.b + q.z • x.c = at_ r s) :
    ∃ s', AABB.interp eps big (boundingBox lo hi m) (coords r.origin) (coords r.direction) = some s' ∧ 0 ≤ s' ∧ s' ≤ s := by
  obtain ⟨⟨h1, h2, h3, h4⟩, -⟩ := Triangle.Props.C22_coordinates x r q hq
  have hm := tri_in_box lo hi m hl t x hx _ ⟨q.x, q.y, q.z, h1, h2, h3, h4, rfl⟩
  rw [e] at hm
  have hv : AABB.Valid (boundingBox lo hi m) := fun i => (hm i).1.trans (hm i).2
  have hh : s ∈ AABB.Props.hits (boundingBox lo hi m) (coords r.origin) (coords r.direction) 0 big := by
    refine ⟨h0, hs, fun i => ?_⟩
    have := hm i
    fin_cases i <;> simpa [coords, at_] using this
  obtain ⟨s', hs'⟩ := (AABB.Props.C07_decides eps big he (h0.trans hs) _ hv _ _ hd).2 ⟨s, hh⟩
  have hle := AABB.Props.C07_least eps big he (h0.trans hs) _ hv _ _ hd s' hs'
  exact ⟨s', hs', hle.1.1, hle.2 hh⟩

theorem inBox_iff (b : AABB.Box 3 K) (p : V3 K) : InBox (planeBox b) p ↔ coords p ∈ AABB.pts b := by
  simp only [InBox, planeBox, AABB.pts, coords, Set.mem_ofPred_eq, Fin.forall_fin_succ]
  simp

theorem box_valid (lo hi : K) (m : Mesh K) (hl : ∀ p ∈ positions m, AABB.InLimits lo hi p) (v : Vertex K) (hv : v ∈ m.vertices) :
    Plane.Spec.Valid (planeBox (boundingBox lo hi m)) := by
  obtain ⟨h1, h2, h3⟩ := (inBox_iff _ _).2 (vertex_in_box lo hi m hl v hv)
  exact ⟨h1.1.trans h1.2, h2.1.trans h2.2, h3.1.trans h3.2⟩

/-- C107: no point of a triangle of a mesh is in a convex hull, if the bounding box of the mesh is in front of a plane of the hull. -/
theorem C107_hull (lo hi : K) (m : Mesh K) (hl : ∀ p ∈ positions m, AABB.InLimits lo hi p) (eq : Eqn) (l : List (Pl K))
    (h : ∃ pl ∈ l, Plane.relationBox eq pl (planeBox (boundingBox lo hi m)) = .inFrontOf) (t : Ix) (x : Tri K) (hx : HasCorners m t x)
    (p : V3 K) (hp : InTri x p) : Hull.isPointInside eq l p = false := by
  obtain ⟨pl, hpl, h⟩ := h
  have hb := (inBox_iff _ _).2 (tri_in_box lo hi m hl t x hx p hp)
  obtain ⟨a, b, c, ha, hc⟩ := hx
  have := ((Plane.Props.C13_relation eq pl _ (box_valid lo hi m hl a (List.mem_of_getElem? ha))).1.1 h) p hb
  rw [Plane.Props.sgnDistance_eq] at this
  rw [Bool.eq_false_iff, Ne, Hull.C30_point]
  exact fun hi => absurd (hi pl hpl) (not_le.2 this)

/-! Clipping. -/

/-- The vertices of a triangle. -/
def cornersOf (m : Mesh K) (t : Ix) : List (Vertex K) := [t.a, t.b, t.c].filterMap fun i => m.vertices[i]?

/-- The copies of triangles from number `n` on. -/
def soupIx (n k : ℕ) : List Ix := (List.range k).map fun i => ⟨n + 3 * i, n + 3 * i + 1, n + 3 * i + 2⟩

theorem soupIx_succ (n k : ℕ) : soupIx n (k + 1) = ⟨n, n + 1, n + 2⟩ :: soupIx (n + 3) k := by
  simp only [soupIx, List.range_succ_eq_map, List.map_cons, List.map_map, Nat.mul_zero, Nat.add_zero, List.cons.injEq, true_and]
  refine List.map_congr_left fun i _ => ?_
  simp only [Function.comp, Ix.mk.injEq]
  omega

theorem cornersOf_eq (m : Mesh K) (t : Ix) (a b c : Vertex K) (ha : m.vertices[t.a]? = some a) (hb : m.vertices[t.b]? = some b)
    (hc : m.vertices[t.c]? = some c) : cornersOf m t = [a, b, c] := by
  simp [cornersOf, ha, hb, hc]

theorem cornersM_eq (m : Mesh K) (t : Ix) (a b c : Vertex K) (ha : m.vertices[t.a]? = some a) (hb : m.vertices[t.b]? = some b)
    (hc : m.vertices[t.c]? = some c) : corners m t = .ok (a, b, c) := by
  simp [corners, (getR_ok _ _ _).2 ha, (getR_ok _ _ _).2 hb, (getR_ok _ _ _).2 hc, Res.bind]

theorem addTriCopy_eq (m : Mesh K) (a b c : Vertex K) :
    addTriCopy m a b c = ⟨m.vertices ++ [a, b, c], m.triangles ++ [⟨m.vertices.length, m.vertices.length + 1, m.vertices.length + 2⟩]⟩ := by
  simp [addTriCopy, addTriangle]

theorem clipLoop_front (sz : ℕ) (zero : Vertex K) (nz : ℕ → ℕ → Bool) (eq : Eqn) (pl : Pl K) (eps : K) (heps : 0 ≤ eps) (m : Mesh K)
    (h : ∀ v ∈ m.vertices, -eps ≤ side eq pl v.position) (l : List Ix) (hv : ∀ t ∈ l, ∀ i, corner t i < m.vertices.length) (i : ℕ) (s : Mesh K × Mesh K) :
    clipLoop sz zero nz eq pl eps m i l s =
      .ok (⟨s.1.vertices ++ l.flatMap (cornersOf m), s.1.triangles ++ soupIx s.1.vertices.length l.length⟩, s.2) := by
  induction l generalizing i s with
  | nil => simp [clipLoop, soupIx]
  | cons t l ih =>
    obtain ⟨a, ha, -⟩ := getR_lt _ _ (hv t (List.mem_cons_self ..) 0)
    obtain ⟨b, hb, -⟩ := getR_lt _ _ (hv t (List.mem_cons_self ..) 1)
    obtain ⟨c, hc, -⟩ := getR_lt _ _ (hv t (List.mem_cons_self ..) 2)
    have hh : ∀ x, (x = a.position ∨ x = b.position ∨ x = c.position) → -eps ≤ side eq pl x := by
      rintro x (rfl | rfl | rfl)
      exacts [h _ (List.mem_of_getElem? ha), h _ (List.mem_of_getElem? hb), h _ (List.mem_of_getElem? hc)]
    have e : clipOne sz zero (nz i) eq pl eps m i t s = .ok (addTriCopy s.1 a b c, s.2) := by
      unfold clipOne
      rw [cornersM_eq m t a b c ha hb hc, Res.bind_ok]
      simp only
      rcases Clip.Props.clip_cases (nz i) eq pl ⟨a.position, b.position, c.position⟩ eps heps with ⟨e, -⟩ | ⟨-, k⟩ | ⟨f, b, -, ⟨x, hx, k⟩, -⟩
      · rw [e]; rfl
      · exact absurd (k _ (.inl rfl)) (not_lt.2 (hh _ (.inl rfl)))
      · exact absurd k (not_lt.2 (hh _ hx))
    simp only [clipLoop, e, Res.bind_ok]
    rw [ih fun t' h' => hv t' (List.mem_cons_of_mem _ h'), addTriCopy_eq]
    simp [cornersOf_eq m t a b c ha hb hc, soupIx_succ]

theorem clipLoop_back (sz : ℕ) (zero : Vertex K) (nz : ℕ → ℕ → Bool) (eq : Eqn) (pl : Pl K) (eps : K) (heps : 0 ≤ eps) (m : Mesh K)
    (h : ∀ v ∈ m.vertices, side eq pl v.position < -eps) (l : List Ix) (hv : ∀ t ∈ l, ∀ i, corner t i < m.vertices.length) (i : ℕ) (s : Mesh K × Mesh K) :
    clipLoop sz zero nz eq pl eps m i l s =
      .ok (s.1, ⟨s.2.vertices ++ l.flatMap (cornersOf m), s.2.triangles ++ soupIx s.2.vertices.length l.length⟩) := by
  induction l generalizing i s with
  | nil => simp [clipLoop, soupIx]
  | cons t l ih =>
    obtain ⟨a, ha, -⟩ := getR_lt _ _ (hv t (List.mem_cons_self ..) 0)
    obtain ⟨b, hb, -⟩ := getR_lt _ _ (hv t (List.mem_cons_self ..) 1)
    obtain ⟨c, hc, -⟩ := getR_lt _ _ (hv t (List.mem_cons_self ..) 2)
    have hh : ∀ x, (x = a.position ∨ x = b.position ∨ x = c.position) → side eq pl x < -eps := by
      rintro x (rfl | rfl | rfl)
      exacts [h _ (List.mem_of_getElem? ha), h _ (List.mem_of_getElem? hb), h _ (List.mem_of_getElem? hc)]
    have e : clipOne sz zero (nz i) eq pl eps m i t s = .ok (s.1, addTriCopy s.2 a b c) := by
      unfold clipOne
      rw [cornersM_eq m t a b c ha hb hc, Res.bind_ok]
      simp only
      rcases Clip.Props.clip_cases (nz i) eq pl ⟨a.position, b.position, c.position⟩ eps heps with ⟨-, k⟩ | ⟨e, -⟩ | ⟨f, b, -, -, ⟨x, hx, k⟩, -⟩
      · exact absurd (hh _ (.inl rfl)) (not_lt.2 (k _ (.inl rfl)))
      · rw [e]; rfl
      · exact absurd (hh _ hx) (not_lt.2 k)
    simp only [clipLoop, e, Res.bind_ok]
    rw [ih fun t' h' => hv t' (List.mem_cons_of_mem _ h'), addTriCopy_eq]
    simp [cornersOf_eq m t a b c ha hb hc, soupIx_succ]

theorem soup_get (m : Mesh K) (l : List Ix) (hv : ∀ t ∈ l, ∀ i, corner t i < m.vertices.length) :
    (l.flatMap (cornersOf m)).length = 3 * l.length ∧
    ∀ k t (i : Fin 3), l[k]? = some t → (l.flatMap (cornersOf m))[3 * k + i.val]? = m.vertices[corner t i]? := by
  induction l with
  | nil => simp
  | cons t l ih =>
    obtain ⟨a, ha, -⟩ := getR_lt _ _ (hv t (List.mem_cons_self ..) 0)
    obtain ⟨b, hb, -⟩ := getR_lt _ _ (hv t (List.mem_cons_self ..) 1)
    obtain ⟨c, hc, -⟩ := getR_lt _ _ (hv t (List.mem_cons_self ..) 2)
    obtain ⟨h1, h2⟩ := ih fun t' h' => hv t' (List.mem_cons_of_mem _ h')
    rw [List.flatMap_cons, cornersOf_eq m t a b c ha hb hc]
    refine ⟨by simp only [List.length_append, List.length_cons, List.length_nil, h1]; omega, fun k t' i hk => ?_⟩
    cases k with
    | zero =>
      simp only [List.getElem?_cons_zero, Option.some.injEq] at hk
      subst hk
      fin_cases i
      · simpa using ha.symm
      · simpa using hb.symm
      · simpa using hc.symm
    | succ k =>
      rw [List.getElem?_append_right (by simp; omega), ← h2 k t' i (by simpa using hk)]
      congr 1
      simp only [List.length_cons, List.length_nil]
      omega

theorem soup_unshared (m : Mesh K) (hm : Valid m) : Unshared m ⟨m.triangles.flatMap (cornersOf m), soupIx 0 m.triangles.length⟩ := by
  obtain ⟨h1, h2⟩ := soup_get m m.triangles hm
  exact ⟨h1, by simp [soupIx], h2⟩

/-- C107: if the bounding box of a mesh is in front of a plane, all triangles are copied to the front mesh, whatever the tolerance. -/
theorem C107_front (lo hi : K) (m : Mesh K) (hl : ∀ p ∈ positions m, AABB.InLimits lo hi p) (hm : Valid m) (sz : ℕ) (zero : Vertex K)
    (nz : ℕ → ℕ → Bool) (eq : Eqn) (pl : Pl K) (eps : K) (heps : 0 ≤ eps) (front back : Mesh K)
    (h : Plane.relationBox eq pl (planeBox (boundingBox lo hi m)) = .inFrontOf) :
    ∃ f, clipMesh sz zero nz eq pl eps m front back = .ok (f, Mesh.empty) ∧ Unshared m f := by
  refine ⟨_, ?_, soup_unshared m hm⟩
  unfold clipMesh
  rw [clipLoop_front sz zero nz eq pl eps heps m ?_ m.triangles hm]
  · simp [clear, Mesh.empty]
  · intro v hv
    have := ((Plane.Props.C13_relation eq pl _ (box_valid lo hi m hl v hv)).1.1 h) _ ((inBox_iff _ _).2 (vertex_in_box lo hi m hl v hv))
    rw [Plane.Props.sgnDistance_eq] at this
    linarith

/-- C107: if the bounding box of a mesh is behind a plane, and its distance to the plane is more than the tolerance, all triangles are
copied to the back mesh. -/
theorem C107_behind (lo hi : K) (m : Mesh K) (hl : ∀ p ∈ positions m, AABB.InLimits lo hi p) (hm : Valid m) (sz : ℕ) (zero : Vertex K)
    (nz : ℕ → ℕ → Bool) (eq : Eqn) (pl : Pl K) (eps : K) (heps : 0 ≤ eps) (front back : Mesh K)
    (h : Plane.relationBox eq pl (planeBox (boundingBox lo hi m)) = .behind)
    (hd : eps < Plane.distanceBox eq pl (planeBox (boundingBox lo hi m))) :
    ∃ b, clipMesh sz zero nz eq pl eps m front back = .ok (Mesh.empty, b) ∧ Unshared m b := by
  refine ⟨_, ?_, soup_unshared m hm⟩
  unfold clipMesh
  rw [clipLoop_back sz zero nz eq pl eps heps m ?_ m.triangles hm]
  · simp [clear, Mesh.empty]
  · intro v hv
    have hb := (inBox_iff _ _).2 (vertex_in_box lo hi m hl v hv)
    have h1 := ((Plane.Props.C13_relation eq pl _ (box_valid lo hi m hl v hv)).2.1.1 h) _ hb
    have h2 := (Plane.Props.C13_distance eq pl _ (box_valid lo hi m hl v hv)).1 _ hb
    unfold Plane.distance at h2
    rw [abs_of_nonpos h1] at h2
    rw [Plane.Props.sgnDistance_eq] at h2
    linarith

end field

/-- C107: no point of a triangle is in a convex hull, if a sphere around all vertices of the mesh is rejected. -/
theorem C107_sphere (m : Mesh ℝ) (eq : Eqn) (l : List (Pl ℝ)) (hu : ∀ p ∈ l, UnitN p) (s : Sphere.Sphere ℝ) (hr : 0 ≤ s.radius)
    (hs : ∀ v ∈ m.vertices, Hull.Spec.InBall s v.position) (h : Hull.isSphereInside eq l s = false) (t : Ix) (x : Tri ℝ)
    (hx : HasCorners m t x) (p : V3 ℝ) (hp : InTri x p) : Hull.isPointInside eq l p = false := by
  rw [Bool.eq_false_iff, Ne, Hull.C30_point]
  intro hi
  rw [Hull.C30_sphere_complete eq l hu s hr p ?_ hi] at h
  · cases h
  · obtain ⟨a, b, c, ha, hb, hc, rfl⟩ := hx
    obtain ⟨u, v, w, hu, hv, hw, h, rfl⟩ := hp
    have h1 := hs a (List.mem_of_getElem? ha)
    have h2 := hs b (List.mem_of_getElem? hb)
    have h3 := hs c (List.mem_of_getElem? hc)
    simp only [Hull.Spec.InBall, V3.add_x, V3.add_y, V3.add_z, V3.smul_x, V3.smul_y, V3.smul_z] at *
    obtain rfl : u = 1 - v - w := by linarith
    have sq : ∀ a b c o : ℝ, ((1 - v - w) * a + v * b + w * c - o) ^ 2 ≤ (1 - v - w) * (a - o) ^ 2 + v * (b - o) ^ 2 + w * (c - o) ^ 2 := by
      intro a b c o
      have k1 := mul_nonneg (mul_nonneg hu hv) (sq_nonneg (a - b))
      have k2 := mul_nonneg (mul_nonneg hu hw) (sq_nonneg (a - c))
      have k3 := mul_nonneg (mul_nonneg hv hw) (sq_nonneg (b - c))
      nlinarith
    have k1 := sq a.position.x b.position.x c.position.x s.origin.x
    have k2 := sq a.position.y b.position.y c.position.y s.origin.y
    have k3 := sq a.position.z b.position.z c.position.z s.origin.z
    have q1 := mul_le_mul_of_nonneg_left h1 hu
    have q2 := mul_le_mul_of_nonneg_left h2 hv
    have q3 := mul_le_mul_of_nonneg_left h3 hw
    linarith

/-! Examples, and the need for the hypotheses. -/

/-- A triangle in the plane z = 1. -/
def cullMesh : Mesh ℚ := ⟨[⟨⟨0, 0, 1⟩, 0, 0⟩, ⟨⟨0, 1, 1⟩, 0, 0⟩, ⟨⟨1, 0, 1⟩, 0, 0⟩], [⟨0, 1, 2⟩]⟩

theorem cullMesh_limits : ∀ p ∈ positions cullMesh, AABB.InLimits (-100 : ℚ) 100 p := by
  intro p hp
  simp only [positions, cullMesh, List.map_cons, List.map_nil, List.mem_cons, List.not_mem_nil, or_false] at hp
  intro i
  rcases hp with rfl | rfl | rfl <;> fin_cases i <;> norm_num

theorem cullMesh_valid : Valid cullMesh := (valid_iff _).2 (by decide +kernel)

theorem cullMesh_corners : HasCorners cullMesh ⟨0, 1, 2⟩ ⟨⟨0, 0, 1⟩, ⟨0, 1, 1⟩, ⟨1, 0, 1⟩⟩ := ⟨_, _, _, rfl, rfl, rfl, rfl⟩

/-- A ray along z hits the triangle and its box at parameter 1. -/
example : Triangle.barycentric (⟨⟨0, 0, 1⟩, ⟨0, 1, 1⟩, ⟨1, 0, 1⟩⟩ : Tri ℚ) ⟨⟨1 / 4, 1 / 4, 0⟩, ⟨0, 0, 1⟩⟩ = some ⟨1 / 2, 1 / 4, 1 / 4⟩ ∧
    AABB.interp (1 / 10) 1000 (boundingBox (-100) 100 cullMesh) (coords ⟨1 / 4, 1 / 4, 0⟩) (coords (⟨0, 0, 1⟩ : V3 ℚ)) = some 1 := by
  decide +kernel
example : AABB.Props.ClearDirection (1 / 10 : ℚ) (coords ⟨0, 0, 1⟩) := by
  intro i; fin_cases i <;> norm_num [coords]
/-- The box is in front of the plane z = 0, and behind the plane z = 2. -/
example : Plane.relationBox .nxEqD ⟨⟨0, 0, 1⟩, 0⟩ (planeBox (boundingBox (-100) 100 cullMesh)) = .inFrontOf ∧
    Plane.relationBox .nxEqD ⟨⟨0, 0, 1⟩, 2⟩ (planeBox (boundingBox (-100) 100 cullMesh)) = .behind ∧
    Plane.distanceBox .nxEqD ⟨⟨0, 0, 1⟩, 2⟩ (planeBox (boundingBox (-100) 100 cullMesh)) = 1 := by decide +kernel
/-- The sphere of radius 1 around (0, 0, 1) contains the vertices of such a triangle; it is rejected by the half space z ≤ -1. -/
example : Hull.isSphereInside .nxEqD [⟨⟨0, 0, 1⟩, -1⟩] (⟨⟨0, 0, 1⟩, 1⟩ : Sphere.Sphere ℚ) = false := by decide +kernel

/-- C107: the hypothesis about the direction is needed: a component that is not zero but counts as zero lets the query for the box miss,
although the ray hits the triangle. -/
theorem C107_direction_needed : ∃ (m : Mesh ℚ) (t : Ix) (x : Tri ℚ) (r : Ray ℚ) (q : V3 ℚ), (∀ p ∈ positions m, AABB.InLimits (-100) 100 p) ∧
    HasCorners m t x ∧ Triangle.barycentric x r = some q ∧ q.x • x.a + q.y • x.b + q.z • x.c = at_ r 1 ∧
    AABB.interp (1 / 10) 1000 (boundingBox (-100) 100 m) (coords r.origin) (coords r.direction) = none :=
  ⟨cullMesh, ⟨0, 1, 2⟩, ⟨⟨0, 0, 1⟩, ⟨0, 1, 1⟩, ⟨1, 0, 1⟩⟩, ⟨⟨-1 / 100, 1 / 4, 0⟩, ⟨1 / 20, 0, 1⟩⟩, ⟨71 / 100, 1 / 4, 1 / 25⟩, cullMesh_limits,
    cullMesh_corners, by decide +kernel, by ext <;> simp [at_] <;> norm_num, by decide +kernel⟩

/-- C107: the hypothesis about the distance is needed: a mesh whose box is behind the plane, but nearer than the tolerance, is copied to
the front mesh. -/
theorem C107_distance_needed : ∃ (m f : Mesh ℚ) (pl : Pl ℚ), (∀ p ∈ positions m, AABB.InLimits (-100) 100 p) ∧ Valid m ∧ UnitN pl ∧
    Plane.relationBox .nxEqD pl (planeBox (boundingBox (-100) 100 m)) = .behind ∧
    clipMesh 4 ⟨0, 0, 0⟩ (fun _ _ => false) .nxEqD pl (1 / 10) m Mesh.empty Mesh.empty = .ok (f, Mesh.empty) ∧ f.triangles ≠ [] :=
  ⟨cullMesh, cullMesh, ⟨⟨0, 0, 1⟩, 21 / 20⟩, cullMesh_limits, cullMesh_valid, by norm_num [UnitN], by decide +kernel, by decide +kernel,
    by simp [cullMesh]⟩

/-- The theorems for this mesh. -/
example := C107_ray (-100) 100 (1 / 10) 1000 (by norm_num) cullMesh cullMesh_limits ⟨⟨1 / 4, 1 / 4, 0⟩, ⟨0, 0, 1⟩⟩
  (by intro i; fin_cases i <;> norm_num [coords]) ⟨0, 1, 2⟩ _ cullMesh_corners ⟨1 / 2, 1 / 4, 1 / 4⟩ (by decide +kernel) 1 (by norm_num) (by norm_num)
  (by decide +kernel)
example := C107_hull (-100) 100 cullMesh cullMesh_limits .nxEqD [⟨⟨0, 0, 1⟩, 0⟩] ⟨_, List.mem_singleton_self _, by decide +kernel⟩ ⟨0, 1, 2⟩ _ cullMesh_corners
  ⟨1 / 4, 1 / 4, 1⟩ ⟨1 / 2, 1 / 4, 1 / 4, by norm_num, by norm_num, by norm_num, by norm_num, by decide +kernel⟩
example := C107_front (-100) 100 cullMesh cullMesh_limits cullMesh_valid 4 ⟨0, 0, 0⟩ (fun _ _ => false) .nxEqD ⟨⟨0, 0, 1⟩, 0⟩ (1 / 10) (by norm_num)
  Mesh.empty Mesh.empty (by decide +kernel)
example := C107_behind (-100) 100 cullMesh cullMesh_limits cullMesh_valid 4 ⟨0, 0, 0⟩ (fun _ _ => false) .nxEqD ⟨⟨0, 0, 1⟩, 2⟩ (1 / 10) (by norm_num)
  Mesh.empty Mesh.empty (by decide +kernel) (by decide +kernel)

end Geom.TMesh
