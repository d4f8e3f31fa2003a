import Verif.Spec.Closed
import Verif.Spec.Convex
import Verif.Spec.Pick
import Mathlib.Analysis.Convex.Hull
import Verif.Base.Dot

/-
  Specification of solids that are bounded by faces.
-/
set_option autoImplicit false

namespace Geom.Gen.Spec

/-- The corners of the faces. -/
def corners (fs : List Face) : Set (V3 ℝ) := {p | ∃ f ∈ fs, p = f.1 ∨ p = f.2.1 ∨ p = f.2.2}

/-- The solid spanned by the faces: all convex combinations of their corners. -/
def body (fs : List Face) : Set (V3 ℝ) := convexHull ℝ (corners fs)

/-- No corner is in front of a face. -/
def ConvexFaces (fs : List Face) : Prop :=
  ∀ f ∈ fs, ∀ p ∈ corners fs, V3.dot (facet f.1 f.2.1 f.2.2) (p - f.1) ≤ 0

/-- The faces have an area, unless two of their corners coincide. -/
def Proper (fs : List Face) : Prop :=
  ∀ f ∈ fs, (f.1 = f.2.1 ∨ f.2.1 = f.2.2 ∨ f.2.2 = f.1) ∨ facet f.1 f.2.1 f.2.2 ≠ 0

/-- The new faces are hit by rays that start outside of the solid, at their first point in the solid. -/
def PicksSolid (m m' : TMesh.Mesh ℝ) : Prop :=
  ∃ fs, NewFaces m m' fs ∧ (body fs).Nonempty ∧ ∀ (r : Plane.Ray ℝ) p, (∃ f ∈ fs, Picks f r p) ↔
    r.origin ∉ body fs ∧ ∃ s, p = Triangle.Spec.at_ r s ∧ IsLeast {s | 0 ≤ s ∧ Triangle.Spec.at_ r s ∈ body fs} s

end Geom.Gen.Spec
