import Verif.Model.TriangleMesh

/-
  Specification of the orientation of generated triangles.
-/
set_option autoImplicit false

namespace Geom.Gen.Spec
open TMesh (Mesh Vertex Ix)

/-- The vector of the area of a triangle (twice its length): orthogonal to the plane, and to the side from which the corners
are in counter-clockwise order in a right-handed system of axes. -/
def facet (a b c : V3 ℝ) : V3 ℝ := V3.cross (b - a) (c - a)

/-- `m'` has the triangles of `m` and at least one more; the corners of each new one exist and have the property. -/
def AddsTriangles (m m' : Mesh ℝ) (Q : Vertex ℝ → Vertex ℝ → Vertex ℝ → Prop) : Prop :=
  ∃ ts, ts ≠ [] ∧ m'.triangles = m.triangles ++ ts ∧ ∀ t ∈ ts, ∃ a b c,
    m'.vertices[t.a]? = some a ∧ m'.vertices[t.b]? = some b ∧ m'.vertices[t.c]? = some c ∧ Q a b c

/-- The given directions at the corners point to the front side of the triangle. -/
def InFront (dir : Vertex ℝ → V3 ℝ) (a b c : Vertex ℝ) : Prop :=
  let f := facet a.position b.position c.position
  0 < V3.dot f (dir a) ∧ 0 < V3.dot f (dir b) ∧ 0 < V3.dot f (dir c)

/-- The normal of a vertex, stretched: by `a` times the radii in X and Z, and by `b` in Y. -/
def stretched (a b : ℝ) (r : V2 ℝ) (v : Vertex ℝ) : V3 ℝ := ⟨a * r.x * v.normal.x, b * v.normal.y, a * r.y * v.normal.z⟩

/-- The same, unless two of the corners coincide (at the poles there are such triangles without area). -/
def InFrontOrFlat (dir : Vertex ℝ → V3 ℝ) (a b c : Vertex ℝ) : Prop :=
  (a.position = b.position ∨ b.position = c.position ∨ c.position = a.position) ∨ InFront dir a b c

/-- The normal of a vertex, stretched by a factor for each axis. -/
def stretched3 (q : V3 ℝ) (v : Vertex ℝ) : V3 ℝ := ⟨q.x * v.normal.x, q.y * v.normal.y, q.z * v.normal.z⟩

end Geom.Gen.Spec
