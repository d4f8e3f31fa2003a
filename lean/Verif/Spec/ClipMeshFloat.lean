import Verif.Spec.MeshModifier
import Verif.Spec.PlaneFloat

/-
  Vertices up to rounding.
-/
set_option autoImplicit false

namespace Geom.TMesh.Spec
open Plane.Spec (ulp)

/-- The components of the vertex are at most `M`. -/
def Bounded (M : ℚ) (v : Vertex ℚ) : Prop :=
  (|v.position.x| ≤ M ∧ |v.position.y| ≤ M ∧ |v.position.z| ≤ M) ∧ (|v.normal.x| ≤ M ∧ |v.normal.y| ≤ M ∧ |v.normal.z| ≤ M) ∧
  |v.texCoord.x| ≤ M ∧ |v.texCoord.y| ≤ M

/-- The components of the two vertices differ by at most `d`. -/
def VertexNear (d : ℚ) (v w : Vertex ℚ) : Prop :=
  (|w.position.x - v.position.x| ≤ d ∧ |w.position.y - v.position.y| ≤ d ∧ |w.position.z - v.position.z| ≤ d) ∧
  (|w.normal.x - v.normal.x| ≤ d ∧ |w.normal.y - v.normal.y| ≤ d ∧ |w.normal.z - v.normal.z| ≤ d) ∧
  |w.texCoord.x - v.texCoord.x| ≤ d ∧ |w.texCoord.y - v.texCoord.y| ≤ d

/-- The error of interpolated components, for components up to `M`. -/
def mixErr (p : ℕ) (emin : ℤ) (M : ℚ) : ℚ := 7 * ulp p * M + 8 * 2 ^ emin

end Geom.TMesh.Spec
