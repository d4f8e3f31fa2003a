import Verif.Model.TriangleMesh

/-
  Specification of mesh generators: what is appended, and the faces as triples of positions.
-/
set_option autoImplicit false

namespace Geom.Gen.Spec
open TMesh (Mesh Vertex Ix)

/-- The mesh `m'` is `m` with `nv` more vertices, each with the property `P`, and `nt` more triangles, which use new
vertices only. -/
structure Grows (m m' : Mesh ℝ) (nv nt : ℕ) (P : Vertex ℝ → Prop) : Prop where
  verts : ∃ vs, m'.vertices = m.vertices ++ vs ∧ vs.length = nv ∧ ∀ v ∈ vs, P v
  tris : ∃ ts, m'.triangles = m.triangles ++ ts ∧ ts.length = nt ∧
    ∀ t ∈ ts, ∀ i ∈ [t.a, t.b, t.c], m.vertices.length ≤ i ∧ i < m.vertices.length + nv

/-- Three corners. -/
abbrev Face := V3 ℝ × V3 ℝ × V3 ℝ

/-- The positions of the corners of a triangle of a mesh. -/
def face (m : Mesh ℝ) (t : Ix) : Option Face :=
  match m.vertices[t.a]?, m.vertices[t.b]?, m.vertices[t.c]? with
  | some a, some b, some c => some (a.position, b.position, c.position)
  | _, _, _ => none

/-- The faces of `m'` are those of `m` (as triangles) followed by the given ones. -/
def NewFaces (m m' : Mesh ℝ) (fs : List Face) : Prop :=
  ∃ ts, m'.triangles = m.triangles ++ ts ∧ ts.map (face m') = fs.map some

/-- The two faces of the cell (u, v) with the corners in order: cut from the first to the third corner, or, in alternating
grids for u + v odd, from the second to the fourth. -/
def quad (alternate : Bool) (u v : ℕ) (p0 p1 p2 p3 : V3 ℝ) : List Face :=
  if alternate = true ∧ (u + v) % 2 = 1 then [(p0, p1, p3), (p1, p2, p3)] else [(p0, p1, p2), (p0, p2, p3)]

/-- The concatenation for all i < m, and for each of these for all j < n. -/
def grid {α : Type} (m n : ℕ) (f : ℕ → ℕ → List α) : List α :=
  (List.range m).flatMap fun i => (List.range n).flatMap fun j => f i j

/-- The faces of a disc with a center: `D u v` is the point at the angle number `u` and the radius number `v` (from 1 to `rings`).
The faces of a bottom disc have the opposite orientation of those of a top disc. -/
def disc (top alternate : Bool) (segs rings : ℕ) (center : V3 ℝ) (D : ℕ → ℕ → V3 ℝ) : List Face :=
  (List.range segs).flatMap fun u =>
    (if top then (center, D u 1, D (u + 1) 1) else (D (u + 1) 1, D u 1, center)) ::
    (List.range (rings - 1)).flatMap fun j =>
      if top then quad alternate u (j + 1) (D (u + 1) (j + 1)) (D u (j + 1)) (D u (j + 2)) (D (u + 1) (j + 2))
      else quad alternate u (j + 1) (D u (j + 1)) (D (u + 1) (j + 1)) (D (u + 1) (j + 2)) (D u (j + 2))

/-- The faces of the mantle of a cone: `D u v` is the point at the angle number `u` and height number `v` (from 1 to `rings`,
downward). -/
def mantleOfCone (alternate : Bool) (segs rings : ℕ) (tip : V3 ℝ) (D : ℕ → ℕ → V3 ℝ) : List Face :=
  (List.range segs).flatMap fun u =>
    (tip, D u 1, D (u + 1) 1) ::
    (List.range (rings - 1)).flatMap fun j =>
      quad alternate u (j + 1) (D (u + 1) (j + 1)) (D u (j + 1)) (D u (j + 2)) (D (u + 1) (j + 2))

/-- The directed edges of a triangle. -/
def dirEdges (t : Ix) : List (ℕ × ℕ) := [(t.a, t.b), (t.b, t.c), (t.c, t.a)]

/-- Each directed edge is used once, and the opposite edge is used, too: the triangles form closed, oriented surfaces. -/
def ClosedOriented {α : Type} (edges : List (α × α)) : Prop := edges.Nodup ∧ ∀ e ∈ edges, (e.2, e.1) ∈ edges

/-! Surfaces. -/

/-- A point of the surface of the box with the given size and the origin as center. -/
def OnBox (s p : V3 ℝ) : Prop :=
  |p.x| ≤ |s.x| / 2 ∧ |p.y| ≤ |s.y| / 2 ∧ |p.z| ≤ |s.z| / 2 ∧ (|p.x| = |s.x| / 2 ∨ |p.y| = |s.y| / 2 ∨ |p.z| = |s.z| / 2)

/-- A point of the ellipsoid with the given radii: the image of a point of the unit sphere. -/
def OnEllipsoid (r p : V3 ℝ) : Prop := ∃ a b c : ℝ, a ^ 2 + b ^ 2 + c ^ 2 = 1 ∧ p = ⟨r.x * a, r.y * b, r.z * c⟩

/-- The point of the ellipsoid with the polar angle `theta` (from the top) and the azimuth `phi`. -/
noncomputable def ellipsoidPoint (r : V3 ℝ) (theta phi : ℝ) : V3 ℝ :=
  ⟨r.x * (Real.sin theta * Real.cos phi), r.y * Real.cos theta, r.z * (Real.sin theta * Real.sin phi)⟩

/-- The point of the torus with the angle `theta` in the tube (from the top, outward) and the angle `phi` around the axis. -/
noncomputable def torusPoint (ring : V2 ℝ) (tube : V3 ℝ) (theta phi : ℝ) : V3 ℝ :=
  ⟨Real.sin phi * (ring.x + tube.x * Real.sin theta), tube.y * Real.cos theta, Real.cos phi * (ring.y + tube.z * Real.sin theta)⟩

/-- A point of the torus. -/
def OnTorus (ring : V2 ℝ) (tube p : V3 ℝ) : Prop := ∃ theta phi : ℝ, p = torusPoint ring tube theta phi

/-- The point at the angle `phi` around the Y axis, at the height `y`, for the radii `r` in X and Z. -/
noncomputable def atAngle (r : V2 ℝ) (y phi : ℝ) : V3 ℝ := ⟨r.x * Real.sin phi, y, r.y * Real.cos phi⟩

/-- Scaled radii. -/
def scaled (s : ℝ) (r : V2 ℝ) : V2 ℝ := ⟨s * r.x, s * r.y⟩

/-- Radii between two others. -/
def between (s : ℝ) (r q : V2 ℝ) : V2 ℝ := ⟨(1 - s) * r.x + s * q.x, (1 - s) * r.y + s * q.y⟩

/-- A point of the closed elliptical cylinder. -/
def OnCylinder (r : V2 ℝ) (h : ℝ) (p : V3 ℝ) : Prop :=
  (|p.y| ≤ |h| / 2 ∧ ∃ phi, p = atAngle r p.y phi) ∨
  (|p.y| = |h| / 2 ∧ ∃ s phi, 0 ≤ s ∧ s ≤ 1 ∧ p = atAngle (scaled s r) p.y phi)

/-- A point of the closed elliptical cone with the tip at the top. -/
def OnCone (r : V2 ℝ) (h : ℝ) (p : V3 ℝ) : Prop :=
  ∃ s phi, 0 ≤ s ∧ s ≤ 1 ∧ (p = atAngle (scaled s r) (h / 2 - s * h) phi ∨ p = atAngle (scaled s r) (-h / 2) phi)

/-- A point of the closed pipe. -/
def OnPipe (inner outer : V2 ℝ) (h : ℝ) (p : V3 ℝ) : Prop :=
  (|p.y| ≤ |h| / 2 ∧ ∃ phi, p = atAngle outer p.y phi ∨ p = atAngle inner p.y phi) ∨
  (|p.y| = |h| / 2 ∧ ∃ s phi, 0 ≤ s ∧ s ≤ 1 ∧ p = atAngle (between s inner outer) p.y phi)

/-- A point of the surface of a cylinder from which the piece between the angles `a0` and `a1` is cut. -/
def OnPie (r : V2 ℝ) (h a0 a1 : ℝ) (p : V3 ℝ) : Prop :=
  (|p.y| ≤ |h| / 2 ∧ ∃ phi, a1 ≤ phi ∧ phi ≤ a0 + 2 * Real.pi ∧ p = atAngle r p.y phi) ∨
  (|p.y| ≤ |h| / 2 ∧ ∃ s, 0 ≤ s ∧ s ≤ 1 ∧ (p = atAngle (scaled s r) p.y a0 ∨ p = atAngle (scaled s r) p.y a1)) ∨
  (|p.y| = |h| / 2 ∧ ∃ s phi, 0 ≤ s ∧ s ≤ 1 ∧ a1 ≤ phi ∧ phi ≤ a0 + 2 * Real.pi ∧ p = atAngle (scaled s r) p.y phi)

/-- A point of a capsule: on the mantle, or on the upper or lower half of an ellipsoid, which is moved by half the height. -/
def OnCapsule (r : V3 ℝ) (h : ℝ) (p : V3 ℝ) : Prop :=
  (|p.y| ≤ |h| / 2 ∧ ∃ phi, p = atAngle ⟨r.x, r.z⟩ p.y phi) ∨
  ∃ a b c : ℝ, a ^ 2 + b ^ 2 + c ^ 2 = 1 ∧ 0 ≤ b ∧ (p = ⟨r.x * a, r.y * b + h / 2, r.z * c⟩ ∨ p = ⟨r.x * a, -(r.y * b + h / 2), r.z * c⟩)

/-- The point of a spiral: as for a torus, but with a displacement along the axis with the angle around it. -/
noncomputable def spiralPoint (ring : V2 ℝ) (tube : V3 ℝ) (displacement turns theta phi : ℝ) : V3 ℝ :=
  ⟨Real.sin phi * (ring.x + tube.x * Real.sin theta), tube.y * Real.cos theta + (phi / (2 * Real.pi) - turns / 2) * displacement,
    Real.cos phi * (ring.y + tube.z * Real.sin theta)⟩

/-- The point of the center line of a spiral. -/
noncomputable def spiralCenter (ring : V2 ℝ) (displacement turns phi : ℝ) : V3 ℝ :=
  ⟨Real.sin phi * ring.x, (phi / (2 * Real.pi) - turns / 2) * displacement, Real.cos phi * ring.y⟩

/-- A point of a cross section of a spiral: at the fraction `s` of the way from the center to the point of the tube. -/
noncomputable def spiralDisc (ring : V2 ℝ) (tube : V3 ℝ) (displacement turns s theta phi : ℝ) : V3 ℝ :=
  let c := spiralCenter ring displacement turns phi
  let p := spiralPoint ring tube displacement turns theta phi
  ⟨(1 - s) * c.x + s * p.x, (1 - s) * c.y + s * p.y, (1 - s) * c.z + s * p.z⟩

/-- A vertex with a unit normal. -/
def UnitNormal (v : Vertex ℝ) : Prop := v.normal.x ^ 2 + v.normal.y ^ 2 + v.normal.z ^ 2 = 1

/-! Attributes of vertices. -/

/-- `m'` has the vertices of `m` and at least one more; each new one has the property. -/
def Adds (m m' : Mesh ℝ) (P : Vertex ℝ → Prop) : Prop := ∃ vs, vs ≠ [] ∧ m'.vertices = m.vertices ++ vs ∧ ∀ v ∈ vs, P v

/-- Texture coordinates inside of the texture. -/
def InTexture (t : V2 ℝ) : Prop := 0 ≤ t.x ∧ t.x ≤ 1 ∧ 0 ≤ t.y ∧ t.y ≤ 1

/-- A vertex of a mantle from the angle `a0` to the angle `a1`: the first texture coordinate runs against the angle, the
second one from top to bottom. -/
def MantleVertex (r : V2 ℝ) (h a0 a1 side : ℝ) (v : Vertex ℝ) : Prop :=
  InTexture v.texCoord ∧
  let phi := a1 + (a0 - a1) * v.texCoord.x
  v.position = atAngle r (h / 2 - h * v.texCoord.y) phi ∧ v.normal = ⟨side * Real.sin phi, 0, side * Real.cos phi⟩

/-- A vertex of a plane cover at the height `y`: the texture is laid on the cover as a plane picture, the ellipse with the
radii `r` is inscribed to it. The normal points up (`side` = 1) or down (`side` = -1). -/
def CoverVertex (r : V2 ℝ) (y side : ℝ) (v : Vertex ℝ) : Prop :=
  (2 * v.texCoord.x - 1) ^ 2 + (2 * v.texCoord.y - 1) ^ 2 ≤ 1 ∧
  v.position = ⟨r.x * (2 * v.texCoord.x - 1), y, -side * (r.y * (2 * v.texCoord.y - 1))⟩ ∧ v.normal = ⟨0, side, 0⟩

/-- A vertex of the mantle of a cone. -/
def ConeVertex (r : V2 ℝ) (h : ℝ) (v : Vertex ℝ) : Prop :=
  InTexture v.texCoord ∧
  let phi := 2 * Real.pi * (1 - v.texCoord.x)
  v.position = atAngle (scaled v.texCoord.y r) (h / 2 - v.texCoord.y * h) phi ∧
  v.normal = ⟨√v.texCoord.y * Real.sin phi, 1 - √v.texCoord.y, √v.texCoord.y * Real.cos phi⟩

/-- A vertex of a plane side of a pie at the given angle, at the fraction `s` of the radius; the normal is orthogonal to the side
and points to the angle `normalAngle`. -/
def SideVertex (r : V2 ℝ) (h angle normalAngle s : ℝ) (v : Vertex ℝ) : Prop :=
  InTexture v.texCoord ∧ v.position = atAngle (scaled s r) (h / 2 - h * v.texCoord.y) angle ∧
  v.normal = ⟨Real.sin normalAngle, 0, Real.cos normalAngle⟩

/-- A vertex of a half ellipsoid at the top (`side` = 1) or bottom (`side` = -1). -/
def HemiVertex (r : V3 ℝ) (h side : ℝ) (v : Vertex ℝ) : Prop :=
  InTexture v.texCoord ∧
  let theta := Real.pi / 2 * v.texCoord.y
  let phi := 2 * Real.pi * v.texCoord.x
  let n : V3 ℝ := ⟨-side * (Real.sin theta * Real.sin phi), side * Real.cos theta, Real.sin theta * Real.cos phi⟩
  v.normal = n ∧ v.position = ⟨r.x * n.x, r.y * n.y + side * (h / 2), r.z * n.z⟩

/-- A vertex of a box: there are directions of the texture on its face, which form with the inward normal a right-handed
system of axes, and the texture is spread over the whole face. -/
def BoxVertex (s : V3 ℝ) (v : Vertex ℝ) : Prop :=
  InTexture v.texCoord ∧ ∃ a b : V3 ℝ, V3.dot a a = 1 ∧ V3.dot b b = 1 ∧ V3.dot a b = 0 ∧ V3.cross a b = -v.normal ∧
    let c : V3 ℝ := (1 / 2 : ℝ) • v.normal + (v.texCoord.x - 1 / 2) • a + (1 / 2 - v.texCoord.y) • b
    v.position = ⟨s.x * c.x, s.y * c.y, s.z * c.z⟩

/-- The plane through the vertex with its normal has all points of the surface behind it (or in it). -/
def Supports (S : V3 ℝ → Prop) (v : Vertex ℝ) : Prop := ∀ q, S q → V3.dot v.normal q ≤ V3.dot v.normal v.position

end Geom.Gen.Spec
