import Verif.Model.Triangle
import Mathlib.Analysis.SpecialFunctions.Trigonometric.Basic

/-
  Specification of angles and normals of triangles.
-/
set_option autoImplicit false

namespace Geom.Triangle.Spec

/-- `α` is the angle between the directions from `o` to `p` and from `o` to `q`: moving a point from `o` by the unit length towards `p` gets it ahead by
`cos α` in the direction of `q`. -/
structure IsAngle (o p q : V3 ℝ) (α : ℝ) : Prop where
  nonneg : 0 ≤ α
  le_pi : α ≤ Real.pi
  cos : ∀ d e : ℝ, 0 < d → 0 < e →
    d ^ 2 = (p.x - o.x) ^ 2 + (p.y - o.y) ^ 2 + (p.z - o.z) ^ 2 → e ^ 2 = (q.x - o.x) ^ 2 + (q.y - o.y) ^ 2 + (q.z - o.z) ^ 2 →
    d * e * Real.cos α = (p.x - o.x) * (q.x - o.x) + (p.y - o.y) * (q.y - o.y) + (p.z - o.z) * (q.z - o.z)

/-- No two of the corners are equal. -/
def Distinct (t : Tri ℝ) : Prop := t.a ≠ t.b ∧ t.b ≠ t.c ∧ t.c ≠ t.a

/-- The corners are not on a line. -/
def Proper (t : Tri ℝ) : Prop := t.a ≠ t.b ∧ ∀ s : ℝ, t.c ≠ ⟨t.a.x + s * (t.b.x - t.a.x), t.a.y + s * (t.b.y - t.a.y), t.a.z + s * (t.b.z - t.a.z)⟩

/-- `n` has length one, is orthogonal to the triangle, and the corners are counterclockwise for a viewer at its tip. -/
structure IsUnitNormal (t : Tri ℝ) (n : V3 ℝ) : Prop where
  unit : n.x ^ 2 + n.y ^ 2 + n.z ^ 2 = 1
  ab : n.x * (t.b.x - t.a.x) + n.y * (t.b.y - t.a.y) + n.z * (t.b.z - t.a.z) = 0
  ac : n.x * (t.c.x - t.a.x) + n.y * (t.c.y - t.a.y) + n.z * (t.c.z - t.a.z) = 0
  left : 0 < n.x * ((t.b.y - t.a.y) * (t.c.z - t.a.z) - (t.b.z - t.a.z) * (t.c.y - t.a.y)) +
    n.y * ((t.b.z - t.a.z) * (t.c.x - t.a.x) - (t.b.x - t.a.x) * (t.c.z - t.a.z)) +
    n.z * ((t.b.x - t.a.x) * (t.c.y - t.a.y) - (t.b.y - t.a.y) * (t.c.x - t.a.x))

/-- The 2D triangle in the plane of x and y. -/
def lift (t : Tri2 ℝ) : Tri ℝ := ⟨⟨t.a.x, t.a.y, 0⟩, ⟨t.b.x, t.b.y, 0⟩, ⟨t.c.x, t.c.y, 0⟩⟩

end Geom.Triangle.Spec
