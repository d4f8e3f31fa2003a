import Verif.Model.Sphere
import Verif.Spec.PlaneFloat

/-
  Specification of square roots of floats and of the intersection of rays and spheres up to rounding.
-/
set_option autoImplicit false

namespace Geom.Sphere.Spec
open Geom.Float Plane.Spec
open Plane (Ray)

/-- A square root that is correctly rounded, in any mode: no float is between the result and the root. -/
structure IsSqrt (p : ℕ) (emin : ℤ) (sq : ℚ → ℚ) : Prop where
  mem : ∀ x, 0 ≤ x → sq x ∈ Floats p emin
  below : ∀ x, ∀ f ∈ Floats p emin, 0 ≤ f → f * f ≤ x → f ≤ sq x
  above : ∀ x, 0 ≤ x → ∀ f ∈ Floats p emin, 0 ≤ f → x ≤ f * f → sq x ≤ f

/-- A square root that is rounded to the nearest float. -/
structure IsNearestSqrt (p : ℕ) (emin : ℤ) (sq : ℚ → ℚ) : Prop where
  mem : ∀ x, 0 ≤ x → sq x ∈ Floats p emin
  near : ∀ x : ℚ, 0 ≤ x → ∀ f ∈ Floats p emin, |(sq x : ℝ) - √(x : ℝ)| ≤ |(f : ℝ) - √(x : ℝ)|

/-- How far (squared) the point is outside of the sphere; zero on the sphere, negative inside. -/
def outside (s : Sphere ℚ) (x : V3 ℚ) : ℚ :=
  (x.x - s.origin.x) ^ 2 + (x.y - s.origin.y) ^ 2 + (x.z - s.origin.z) ^ 2 - s.radius ^ 2

/-- The point of a ray at parameter `t`. -/
def rayPoint (r : Ray ℚ) (t : ℚ) : V3 ℚ :=
  ⟨r.origin.x + t * r.direction.x, r.origin.y + t * r.direction.y, r.origin.z + t * r.direction.z⟩

/-- How fast the ray leads away from the centre of the sphere (multiplied by the distance); negative if it leads towards the centre. -/
def away (s : Sphere ℚ) (r : Ray ℚ) : ℚ :=
  (r.origin.x - s.origin.x) * r.direction.x + (r.origin.y - s.origin.y) * r.direction.y + (r.origin.z - s.origin.z) * r.direction.z

/-- The direction has length one up to rounding. -/
def NearUnit (p : ℕ) (v : V3 ℚ) : Prop := |v.x ^ 2 + v.y ^ 2 + v.z ^ 2 - 1| ≤ 4 * ulp p

/-- `R` is at least the radius and the distance of the centre and the origin of the ray, and is not near the smallest floats. -/
structure Scale (p : ℕ) (emin : ℤ) (s : Sphere ℚ) (r : Ray ℚ) (R : ℚ) : Prop where
  pos : 0 < R
  radius : |s.radius| ≤ R
  dist : (r.origin.x - s.origin.x) ^ 2 + (r.origin.y - s.origin.y) ^ 2 + (r.origin.z - s.origin.z) ^ 2 ≤ R ^ 2
  small : 2 ^ emin ≤ ulp p * R
  small2 : 2 ^ emin ≤ ulp p * R ^ 2

/-- The numbers of the query are floats. -/
def FloatQuery (p : ℕ) (emin : ℤ) (s : Sphere ℚ) (r : Ray ℚ) : Prop :=
  (FloatV p emin s.origin ∧ s.radius ∈ Floats p emin) ∧ FloatV p emin r.origin ∧ FloatV p emin r.direction

end Geom.Sphere.Spec
