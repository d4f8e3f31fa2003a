import Verif.Model.Triangle

/-
  Triangles as sets of points.
-/
set_option autoImplicit false

namespace Geom.Triangle.Spec

variable {K : Type} [Field K] [LinearOrder K]

/-- The convex combinations of the corners. -/
def InTri (t : Tri K) (x : V3 K) : Prop :=
  ∃ u v w : K, 0 ≤ u ∧ 0 ≤ v ∧ 0 ≤ w ∧ u + v + w = 1 ∧ x = u • t.a + v • t.b + w • t.c

/-- The affine combinations of the corners: the points of the plane of the triangle. -/
def InPlane (t : Tri K) (x : V3 K) : Prop :=
  ∃ u v w : K, u + v + w = 1 ∧ x = u • t.a + v • t.b + w • t.c

/-- No corner is on the line through the others: the edge vectors are independent. -/
def NonDeg (t : Tri K) : Prop :=
  ∀ s r : K, s • (t.b - t.a) + r • (t.c - t.a) = 0 → s = 0 ∧ r = 0

/-- The same in two dimensions. -/
def NonDeg2 (t : Tri2 K) : Prop :=
  ∀ s r : K, s • (t.b - t.a) + r • (t.c - t.a) = 0 → s = 0 ∧ r = 0

/-- The counter clock-wise normal of the triangle, written out, times a vector. -/
def facing (t : Tri K) (d : V3 K) : K :=
  ((t.b.y - t.a.y) * (t.c.z - t.a.z) - (t.b.z - t.a.z) * (t.c.y - t.a.y)) * d.x +
  ((t.b.z - t.a.z) * (t.c.x - t.a.x) - (t.b.x - t.a.x) * (t.c.z - t.a.z)) * d.y +
  ((t.b.x - t.a.x) * (t.c.y - t.a.y) - (t.b.y - t.a.y) * (t.c.x - t.a.x)) * d.z

/-- The point of a ray at `s`. -/
def at_ (r : Plane.Ray K) (s : K) : V3 K := r.origin + s • r.direction

end Geom.Triangle.Spec
