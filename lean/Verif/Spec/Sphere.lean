import Verif.Model.Sphere

/-
  Spheres as sets of points.
-/
set_option autoImplicit false

namespace Geom.Sphere.Spec

/-- How far (squared) the point is outside of the sphere; zero on the sphere, negative inside. -/
def excess (s : Sphere ℝ) (p : V3 ℝ) : ℝ :=
  (p.x - s.origin.x) ^ 2 + (p.y - s.origin.y) ^ 2 + (p.z - s.origin.z) ^ 2 - s.radius ^ 2

/-- The point is on the sphere. -/
def OnSphere (s : Sphere ℝ) (p : V3 ℝ) : Prop := excess s p = 0

/-- A vector of length one. -/
def IsUnit3 (v : V3 ℝ) : Prop := v.x ^ 2 + v.y ^ 2 + v.z ^ 2 = 1

/-- The point of a ray at parameter `t`. -/
def rayAt (o d : V3 ℝ) (t : ℝ) : V3 ℝ := ⟨o.x + t * d.x, o.y + t * d.y, o.z + t * d.z⟩

end Geom.Sphere.Spec
