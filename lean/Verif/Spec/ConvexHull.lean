import Verif.Spec.Plane
import Verif.Spec.Sphere

/-
  Convex hulls and clip volumes as sets of points.
-/
set_option autoImplicit false

namespace Geom.Hull.Spec

open Plane (Eqn Pl)
open Plane.Spec (side)

/-- The intersection of the closed half spaces behind the planes. -/
def Inside {K : Type} [CommRing K] [LE K] (eq : Eqn) (l : List (Pl K)) (x : V3 K) : Prop := ∀ p ∈ l, side eq p x ≤ 0

/-- The points of a solid ball. -/
def InBall (s : Sphere.Sphere ℝ) (x : V3 ℝ) : Prop :=
  (x.x - s.origin.x) ^ 2 + (x.y - s.origin.y) ^ 2 + (x.z - s.origin.z) ^ 2 ≤ s.radius ^ 2

/-- The product of the matrix and the column (x, y, z, w). -/
def clip (m : Fin 4 → Fin 4 → ℝ) (p : V3 ℝ) (w : ℝ) (i : Fin 4) : ℝ := m i 0 * p.x + m i 1 * p.y + m i 2 * p.z + m i 3 * w

/-- Clip coordinates inside of the clip volume (depth from zero to one). -/
def InVolume (c : Fin 4 → ℝ) : Prop := -c 3 ≤ c 0 ∧ c 0 ≤ c 3 ∧ -c 3 ≤ c 1 ∧ c 1 ≤ c 3 ∧ 0 ≤ c 2 ∧ c 2 ≤ c 3

end Geom.Hull.Spec
